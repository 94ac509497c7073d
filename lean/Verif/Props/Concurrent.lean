import Verif.Rtree.ProgLemmas
import Verif.Spec.Concurrent
import Verif.Props.Bulk
import Verif.Props.Near

/-!
# C124: conditions with effects; C125: queries in several goroutines
-/

set_option linter.unusedSectionVars false

namespace GoGeo
open GoFloat Spec Prog

section
variable {F : Type} [GoFloat F] {σ : Type}

/-! ## C124 -/

/-- put the results before the call in front -/
def after (res : List (Spatial F)) (x : Go (List (Spatial F)) × Shared F σ) : Go (List (Spatial F)) × Shared F σ := (x.1.map (res ++ ·), x.2)

theorem after_nil (x : Go (List (Spatial F)) × Shared F σ) : after [] x = x := by
  obtain ⟨r, s⟩ := x
  cases r <;> rfl

theorem callEach_cons_run (c : Spatial F → Prog (Shared F σ) Bool) (o : Spatial F) (l : List (Spatial F)) (s : Shared F σ) :
    (callEach c (o :: l)).run s = match (c o).run s with
      | (.ok b, s') => after (if b then [o] else []) ((callEach c l).run s')
      | (.error e, s') => (.error e, s') := by
  rw [callEach, run_bind]
  rcases (c o).run s with ⟨r, s'⟩
  cases r with
  | error => rfl
  | ok b =>
    simp only
    rw [run_bind]
    rcases (callEach c l).run s' with ⟨r, s''⟩
    cases r with
    | error => rfl
    | ok r => cases b <;> rfl

theorem callEach_append_run (c : Spatial F → Prog (Shared F σ) Bool) (l m : List (Spatial F)) :
    ∀ s : Shared F σ, (callEach c (l ++ m)).run s = match (callEach c l).run s with
      | (.ok r, s') => after r ((callEach c m).run s')
      | (.error e, s') => (.error e, s') := by
  induction l with
  | nil => intro s; exact (after_nil _).symm
  | cons o l ih =>
    intro s
    rw [List.cons_append, callEach_cons_run, callEach_cons_run]
    rcases (c o).run s with ⟨r, s'⟩
    cases r with
    | error => rfl
    | ok b =>
      simp only
      rw [ih s']
      rcases (callEach c l).run s' with ⟨r, s''⟩
      cases r with
      | error => rfl
      | ok r =>
        simp only [after, Except.map]
        rcases (callEach c m).run s'' with ⟨q, s3⟩
        cases q with
        | error => rfl
        | ok q => simp only [List.append_assoc]

theorem callEach_keeps {t : RState F} {c : Spatial F → Prog (Shared F σ) Bool} (hc : ∀ o x, ((c o).run (t, x)).2.1 = t) (l : List (Spatial F)) :
    ∀ x, ((callEach c l).run (t, x)).2.1 = t := by
  induction l with
  | nil => intro x; rfl
  | cons o l ih =>
    intro x
    rw [callEach_cons_run]
    have h := hc o x
    rcases e : (c o).run (t, x) with ⟨r, s'⟩
    rw [e] at h
    obtain ⟨t', x'⟩ := s'
    simp only at h
    subst h
    cases r with
    | error => rfl
    | ok b => exact ih x'

/-- the search appends to the results it is given -/
theorem searchLoop_acc (bb : Option (Box F)) {rec : Option Nat → List (Spatial F) → Go (List (Spatial F))}
    (hrec : ∀ n res, rec n res = (rec n []).map (res ++ ·)) (leaf : Bool) (es : List (Entry F)) :
    ∀ res, searchLoop bb none rec leaf es res = (searchLoop bb none rec leaf es []).map (res ++ ·) := by
  induction es with
  | nil => intro res; simp [searchLoop, Except.map]
  | cons e es ih =>
    intro res
    rw [searchLoop, searchLoop]
    split
    · exact ih res
    · split
      · simp only [Bind.bind, Except.bind]
        rw [hrec e.child res]
        cases rec e.child [] with
        | error => rfl
        | ok l =>
          simp only [Except.map]
          rw [ih, ih l]
          cases searchLoop bb none rec leaf es [] with
          | error => rfl
          | ok r => simp [Except.map]
      · rw [ih, ih ([] ++ _)]
        cases searchLoop bb none rec leaf es [] with
        | error => rfl
        | ok r => simp [Except.map]

theorem searchNode_acc (h : Heap F) (bb : Option (Box F)) (fuel : Nat) :
    ∀ n res, searchNode h bb none fuel n res = (searchNode h bb none fuel n []).map (res ++ ·) := by
  induction fuel with
  | zero => intros; rfl
  | succ fuel ih =>
    intro n res
    rw [searchNode, searchNode]
    cases hd : h.deref n with
    | error e => rfl
    | ok v => exact searchLoop_acc bb ih _ _ _

theorem searchNodeP_cond {t : RState F} (hb : t.h.Bnd) (bb : Option (Box F)) {c : Spatial F → Prog (Shared F σ) Bool}
    (hc : ∀ o x, ((c o).run (t, x)).2.1 = t) (fuel : Nat) :
    ∀ n res l x, searchNode t.h bb none fuel n [] = .ok l →
      (searchNodeP bb (some c) fuel n res).run (t, x) = after res ((callEach c l).run (t, x)) := by
  induction fuel with
  | zero => intro n res l x h; cases h
  | succ fuel ih =>
    intro n res l x h
    cases n with
    | none => cases h
    | some n =>
      rw [searchNodeP]
      show ((readHdr n).bind _).run (t, x) = _
      rw [searchNode] at h
      cases hn : t.h.nodes[n]? with
      | none => simp only [Heap.deref, Heap.view, hn, Option.map] at h; cases h
      | some nd =>
        simp only [Heap.deref, Heap.view, hn, Option.map] at h
        change searchLoop bb none (searchNode t.h bb none fuel) nd.leaf (t.h.slice nd.entries) [] = .ok l at h
        rw [run_ok (readHdr_run (s := (t, x)) hn)]
        have key : ∀ rem i res l x, rem + i = nd.entries.len → searchLoop bb none (searchNode t.h bb none fuel) nd.leaf ((t.h.slice nd.entries).drop i) [] = .ok l →
            (searchLoopP bb (some c) (searchNodeP bb (some c) fuel) n nd.entries rem i res).run (t, x) = after res ((callEach c l).run (t, x)) := by
          intro rem
          induction rem with
          | zero =>
            intro i res l x hi hl
            rw [List.drop_of_length_le (by rw [hb.len hn]; omega)] at hl
            cases hl
            simp [searchLoopP, callEach, Prog.run, after, Except.map, pure]
          | succ rem ihr =>
            intro i res l x hi hl
            obtain ⟨e, e1, e2⟩ := readElem_run (s := (t, x)) hb hn (i := i) (by omega)
            simp only at e1
            rw [e1, searchLoop] at hl
            rw [searchLoopP, run_ok e2]
            split at hl
            · rename_i hx
              rw [if_pos hx]
              exact ihr _ _ _ _ (by omega) hl
            · rename_i hx
              rw [if_neg hx, run_ok (readLeaf_run hn)]
              split at hl
              · rename_i hlf
                rw [if_pos hlf, run_bind]
                simp only [Bind.bind, Except.bind] at hl
                cases hs : searchNode t.h bb none fuel e.child [] with
                | error => rw [hs] at hl; cases hl
                | ok l1 =>
                  rw [hs] at hl
                  simp only at hl
                  rw [searchLoop_acc bb (searchNode_acc t.h bb fuel)] at hl
                  cases hs2 : searchLoop bb none (searchNode t.h bb none fuel) nd.leaf ((t.h.slice nd.entries).drop (i + 1)) [] with
                  | error => rw [hs2] at hl; cases hl
                  | ok l2 =>
                    rw [hs2] at hl
                    cases hl
                    rw [ih e.child res l1 x hs]
                    show _ = after res ((callEach c (l1 ++ l2)).run (t, x))
                    rw [callEach_append_run]
                    have hk := callEach_keeps hc l1 x
                    rcases hr : (callEach c l1).run (t, x) with ⟨r, t', x'⟩
                    rw [hr] at hk
                    simp only at hk
                    subst hk
                    cases r with
                    | error => rfl
                    | ok r =>
                      simp only [after, Except.map]
                      rw [ihr (i + 1) (res ++ r) l2 x' (by omega) hs2]
                      simp only [after]
                      rcases (callEach c l2).run _ with ⟨q, s3⟩
                      cases q with
                      | error => rfl
                      | ok q => simp [Except.map]
              · rename_i hlf
                rw [if_neg hlf]
                simp only
                rw [run_bind]
                rw [searchLoop_acc bb (searchNode_acc t.h bb fuel)] at hl
                cases hs2 : searchLoop bb none (searchNode t.h bb none fuel) nd.leaf ((t.h.slice nd.entries).drop (i + 1)) [] with
                | error => rw [hs2] at hl; cases hl
                | ok l2 =>
                  rw [hs2] at hl
                  cases hl
                  show _ = after res ((callEach c (e.obj :: l2)).run (t, x))
                  rw [callEach_cons_run]
                  have hk := hc e.obj x
                  rcases hr : (c e.obj).run (t, x) with ⟨r, t', x'⟩
                  rw [hr] at hk
                  simp only at hk
                  subst hk
                  cases r with
                  | error => rfl
                  | ok b =>
                    simp only
                    rw [ihr (i + 1) _ l2 x' (by omega) hs2]
                    simp only [after]
                    rcases (callEach c l2).run _ with ⟨q, s3⟩
                    cases q with
                    | error => rfl
                    | ok q => cases b <;> simp [Except.map]
        have := key nd.entries.len 0 res l x (by omega) (by rw [List.drop_zero]; exact h)
        exact this

/-- **C124 (any tree).** If the condition leaves the tree alone, a search with it calls it once for each object that the search without it returns, in that
order, and returns those for which it said yes; its other effects are those of these calls, and if it panics the search does. -/
theorem C124_condition_any (s : RState F) (hb : s.h.Bnd) (bb : Option (Box F)) (cond : Spatial F → Prog (Shared F σ) Bool)
    (hc : ∀ o x, ((cond o).run (s, x)).2.1 = s) (l : List (Spatial F)) (hl : SearchIntersect s bb = .ok l) (x : σ) :
    (SearchIntersectWithCondP bb (some cond)).run (s, x) = (callEach cond l).run (s, x) := by
  have := searchNodeP_cond hb bb hc (s.h.nodes.length + 1) (some s.t.root) [] l x hl
  rw [after_nil] at this
  exact this

theorem Sound.bnd {q : Bool} {lo hi : Nat} {s : RState F} (h : Sound q lo hi s) : s.h.Bnd := by
  obtain ⟨⟨K', X, ti⟩, -⟩ := h
  exact ti.inv.toOk.toBnd

section
variable [FloatOrd F]

/-- **C124.** In a tree reached by any history, for a condition that leaves the tree alone. -/
theorem C124_condition (grow : Nat → Nat) (min max : Int) (hmax : 2 ≤ max) (s : RState F) (hs : Reached grow min max s) (q : Box F)
    (cond : Spatial F → Prog (Shared F σ) Bool) (hc : ∀ o x, ((cond o).run (s, x)).2.1 = s) (x : σ) :
    (SearchIntersectWithCondP (some q) (some cond)).run (s, x) = (callEach cond ((contents s).filter (Meets q))).run (s, x) :=
  C124_condition_any s (hs.sound hmax).bnd (some q) cond hc _ (C02_search_exact grow min max hmax s hs q) x

end

/-! ## C125 -/

theorem Query.run_eq (srt : GoSort) (s : Shared F σ) (hb : s.1.h.Bnd) (q : Query F) : (q.prog srt).run s = (q.ask srt s.1, s) := by
  have key : ∀ {α : Type} {p : Prog (Shared F σ) α} {x : Go α} (f : α → Answer F), p.run s = (x, s) → (p.bind fun l => .done (.ok (f l))).run s = (x.map f, s) := by
    intro α p x f h
    rw [run_bind, h]
    cases x <;> rfl
  cases q with
  | search bb => exact key _ (SearchIntersectWithCond_run hb bb none)
  | searchCond bb c => exact key _ (SearchIntersectWithCond_run hb bb (some c))
  | byID id => exact key _ (SearchBySpatialID_run hb id)
  | nearest k p => exact key _ (NearestNeighbors_run hb srt k p)
  | boxes => exact key _ (GetAllBoundingBoxes_run hb)
  | size => rfl
  | depth => rfl

theorem Query.readOnly (srt : GoSort) (q : Query F) : (q.prog srt : Prog (Shared F σ) _).ReadOnly := by
  cases q with
  | search bb => exact (SearchIntersectWithCondP_ro _ fun c hc o => by cases hc).bind fun _ => trivial
  | searchCond bb c => exact (SearchIntersectWithCondP_ro _ fun c hc o => by cases hc; trivial).bind fun _ => trivial
  | byID id => exact (SearchBySpatialIDP_ro id).bind fun _ => trivial
  | nearest k p => exact (NearestNeighborsP_ro srt k p).bind fun _ => trivial
  | boxes => exact ReadOnly.bind ((ReadOnly.read _).bind fun _ => (ReadOnly.read _).bind fun _ => getAllBoxesP_ro _ _) fun _ => trivial
  | size => exact ReadOnly.read _
  | depth => exact ReadOnly.read _

end

section
variable {S α : Type}

/-- the number of steps to the end when the memory stays as it is -/
def stepsLeft : Prog S α → S → Nat
  | .done _, _ => 0
  | .step _ k, s => stepsLeft (k s) s + 1

/-- what goroutines that only read have come to after some schedule -/
theorem exec_readOnly (s : S) (ps : List (Prog S α)) (hro : ∀ p ∈ ps, p.ReadOnly) (sched : List Nat) :
    (exec sched (s, ps)).1 = s ∧ (exec sched (s, ps)).2.length = ps.length ∧
    ∀ i (hi : i < ps.length), ∃ p', (exec sched (s, ps)).2[i]? = some p' ∧ p'.ReadOnly ∧ p'.run s = ps[i].run s ∧
      stepsLeft p' s = stepsLeft ps[i] s - sched.count i := by
  induction sched generalizing ps with
  | nil => exact ⟨rfl, rfl, fun i hi => ⟨ps[i], List.getElem?_eq_getElem hi, hro _ (List.getElem_mem hi), rfl, rfl⟩⟩
  | cons j sched ih =>
    rw [exec, List.foldl_cons]
    by_cases hj : ∃ u k, ps[j]? = some (.step u k)
    · obtain ⟨u, k, hj⟩ := hj
      have hjl : j < ps.length := (List.getElem?_eq_some_iff.1 hj).1
      have hje : ps[j] = .step u k := (List.getElem?_eq_some_iff.1 hj).2
      have hr : (Prog.step u k : Prog S α).ReadOnly := hje ▸ hro _ (List.getElem_mem hjl)
      have e : stepOf (s, ps) j = (s, ps.set j (k s)) := by
        simp only [stepOf, hj, hr.1]
      rw [e]
      obtain ⟨h1, h2, h3⟩ := ih (ps.set j (k s)) (by
        intro p hp
        rcases List.mem_or_eq_of_mem_set hp with h | h
        · exact hro p h
        · exact h ▸ hr.2 s)
      refine ⟨h1, by rw [exec] at h2; rw [h2, List.length_set], fun i hi => ?_⟩
      obtain ⟨p', e1, e2, e3, e4⟩ := h3 i (by rw [List.length_set]; exact hi)
      refine ⟨p', e1, e2, ?_, ?_⟩
      · rw [e3]
        by_cases hij : j = i
        · subst hij
          rw [List.getElem_set_self, hje, Prog.run, hr.1]
        · rw [List.getElem_set_ne hij]
      · rw [e4]
        by_cases hij : j = i
        · subst hij
          rw [List.getElem_set_self, hje, stepsLeft, List.count_cons_self]
          omega
        · rw [List.getElem_set_ne hij, List.count_cons_of_ne hij]
    · have e : stepOf (s, ps) j = (s, ps) := by
        simp only [stepOf]
        split
        · rename_i u k h
          exact absurd ⟨u, k, h⟩ hj
        · rfl
      rw [e]
      obtain ⟨h1, h2, h3⟩ := ih ps hro
      refine ⟨h1, h2, fun i hi => ?_⟩
      obtain ⟨p', e1, e2, e3, e4⟩ := h3 i hi
      refine ⟨p', e1, e2, e3, ?_⟩
      rw [e4]
      by_cases hij : j = i
      · subst hij
        have : stepsLeft ps[j] s = 0 := by
          cases hp : ps[j] with
          | done => rfl
          | step u k => exact absurd ⟨u, k, by rw [List.getElem?_eq_getElem hi, hp]⟩ hj
        rw [this]
        omega
      · rw [List.count_cons_of_ne hij]

end

section
variable {F : Type} [GoFloat F]

/-- any number of queries in goroutines of their own, in any tree whose slices are in bounds -/
theorem queries_exec (srt : GoSort) (s : RState F) (hb : s.h.Bnd) (qs : List (Query F)) (sched : List Nat) :
    (exec sched ((s, ()), qs.map (Query.prog srt))).1 = (s, ()) ∧
    (∀ (i : Nat) (q : Query F) r, qs[i]? = some q → (exec sched ((s, ()), qs.map (Query.prog srt))).2[i]? = some (.done r) → r = q.ask srt s) ∧
    ((∀ (i : Nat) (q : Query F), qs[i]? = some q → stepsLeft (q.prog srt) (s, ()) ≤ sched.count i) →
      (exec sched ((s, ()), qs.map (Query.prog srt))).2 = qs.map fun q => .done (q.ask srt s)) := by
  obtain ⟨h1, h2, h3⟩ := exec_readOnly (s, ()) (qs.map (Query.prog srt)) (by
    intro p hp
    obtain ⟨q, -, rfl⟩ := List.mem_map.1 hp
    exact Query.readOnly srt q) sched
  refine ⟨h1, ?_, ?_⟩
  · intro i q r hq hr
    obtain ⟨hi, he⟩ := List.getElem?_eq_some_iff.1 hq
    obtain ⟨p', e1, -, e3, -⟩ := h3 i (by rw [List.length_map]; exact hi)
    rw [hr] at e1
    cases e1
    rw [List.getElem_map, he, Query.run_eq srt (s, ()) hb] at e3
    exact congrArg Prod.fst e3
  · intro hall
    apply List.ext_getElem?
    intro i
    by_cases hi : i < qs.length
    · obtain ⟨p', e1, -, e3, e4⟩ := h3 i (by rw [List.length_map]; exact hi)
      rw [e1, List.getElem?_map, List.getElem?_eq_getElem hi, Option.map]
      rw [List.getElem_map] at e3 e4
      have h0 : stepsLeft p' (s, ()) = 0 := by
        have := hall i qs[i] (List.getElem?_eq_getElem hi)
        omega
      rw [Query.run_eq srt (s, ()) hb] at e3
      cases p' with
      | done r => rw [show r = qs[i].ask srt s from congrArg Prod.fst e3]
      | step u k => simp [stepsLeft] at h0
    · rw [List.getElem?_eq_none (by rw [h2, List.length_map]; omega), List.getElem?_eq_none (by rw [List.length_map]; omega)]

variable [FloatOrd F]

/-- **C125.** Any number of queries on one tree, each in its own goroutine: whatever the schedule, the tree stays as it is and every query that has come to its
end has given the answer (or the panic) it gives when it runs alone. -/
theorem C125_schedule (srt : GoSort) (grow : Nat → Nat) (min max : Int) (hmax : 2 ≤ max) (s : RState F) (hs : Reached grow min max s)
    (qs : List (Query F)) (sched : List Nat) :
    (exec sched ((s, ()), qs.map (Query.prog srt))).1 = (s, ()) ∧
    ∀ (i : Nat) (q : Query F) r, qs[i]? = some q → (exec sched ((s, ()), qs.map (Query.prog srt))).2[i]? = some (.done r) → r = q.ask srt s :=
  ⟨(queries_exec srt s (hs.sound hmax).bnd qs sched).1, (queries_exec srt s (hs.sound hmax).bnd qs sched).2.1⟩

/-- **C125 (end).** There is a number of steps such that every schedule that gives each goroutine so many has brought them all to their ends. -/
theorem C125_finish (srt : GoSort) (grow : Nat → Nat) (min max : Int) (hmax : 2 ≤ max) (s : RState F) (hs : Reached grow min max s)
    (qs : List (Query F)) :
    ∃ N, ∀ sched : List Nat, (∀ i < qs.length, N ≤ sched.count i) →
      (exec sched ((s, ()), qs.map (Query.prog srt))).2 = qs.map fun q => .done (q.ask srt s) := by
  refine ⟨(qs.map fun q => stepsLeft (q.prog srt) (s, ())).sum, fun sched h => (queries_exec srt s (hs.sound hmax).bnd qs sched).2.2 fun i q hq => ?_⟩
  obtain ⟨hi, he⟩ := List.getElem?_eq_some_iff.1 hq
  refine le_trans (List.single_le_sum (by simp) _ (List.mem_map.2 ⟨q, he ▸ List.getElem_mem hi, rfl⟩)) (h i hi)

/-- **C125 (bulk loading).** The same for a bulk-loaded tree, after any deletions. -/
theorem C125_bulk (cfg : OmtCfg) (srt : GoSort) (hsrt : SortOk srt) (grow : Nat → Nat) (min max : Int) (hmax : 2 ≤ max)
    (objs : List (Spatial F)) (hn : max < objs.length) (hh : HeightOk cfg objs.length max) (s : RState F)
    (hs : BulkReached cfg srt grow min max objs s) (qs : List (Query F)) (sched : List Nat) :
    (exec sched ((s, ()), qs.map (Query.prog srt))).1 = (s, ()) ∧
    ∀ (i : Nat) (q : Query F) r, qs[i]? = some q → (exec sched ((s, ()), qs.map (Query.prog srt))).2[i]? = some (.done r) → r = q.ask srt s :=
  ⟨(queries_exec srt s (hs.sound hsrt hmax hn hh).bnd qs sched).1, (queries_exec srt s (hs.sound hsrt hmax hn hh).bnd qs sched).2.1⟩

end

/-! ## What goes wrong when the tree is changed meanwhile -/

/-- four points on a line -/
def lineOps : List (Op Float) :=
  [.insert ⟨"a", .nil, .point ⟨0, 0⟩⟩, .insert ⟨"b", .nil, .point ⟨1, 0⟩⟩, .insert ⟨"c", .nil, .point ⟨8, 0⟩⟩, .insert ⟨"d", .nil, .point ⟨9, 0⟩⟩]

/-- the window of the searches below, around all the points -/
def wideWindow : Option (Box Float) := some ⟨-100, -100, 100, 100⟩

/-- **C124** needs the tree to be left alone: a search whose condition deletes the object it is asked about, in a tree of four points,
returns three of them, one twice, and leaves the fourth in the tree. -/
theorem C124_deleting_false : ∃ s : RState Float, Reached id 1 4 s ∧ (contents s).map (·.ID) = ["a", "b", "c", "d"] ∧
    let r := (SearchIntersectWithCondP wideWindow (some (deleteIt id)) : Prog (Shared Float Unit) _).run (s, ())
    r.1.map (·.map (·.ID)) = .ok ["a", "c", "d", "d"] ∧ (contents r.2.1).map (·.ID) = ["b"] := by
  have h : (runAll id lineOps (NewEmptyTree 1 4)).map (fun r => ((contents r.1).map (·.ID),
      let x := (SearchIntersectWithCondP wideWindow (some (deleteIt id)) : Prog (Shared Float Unit) _).run (r.1, ())
      (x.1.map (·.map (·.ID)), (contents x.2.1).map (·.ID)))) = .ok (["a", "b", "c", "d"], .ok ["a", "c", "d", "d"], ["b"]) := by decide +kernel
  obtain ⟨⟨s, bs⟩, h1, h2⟩ := ok_of_map h
  simp only [Prod.mk.injEq] at h2
  exact ⟨s, ⟨_, bs, h1⟩, h2.1, h2.2.1, h2.2.2⟩

/-- the ids that a goroutine has returned -/
def returned (c : Shared Float Unit × List (Prog (Shared Float Unit) (Answer Float))) (i : Nat) : List String :=
  match c.2[i]? with
  | some (.done (.ok (.objects (l : List (Spatial Float))))) => l.map Spatial.ID
  | _ => []

/-- **C125** needs the goroutines to be queries: a search that an insertion overtakes, even one that happens in a single step, misses a point that was in
the tree before and is in it after. -/
theorem C125_insert_false : ∃ s : RState Float, Reached id 1 2 s ∧ ∃ sched : List Nat,
    let c := exec sched ((s, ()), [Query.prog insSort (.search wideWindow), insertNow id ⟨"x", .nil, .point ⟨7, 0⟩⟩])
    (contents s).map (·.ID) = ["a", "d", "c", "b"] ∧ (contents c.1.1).map (·.ID) = ["a", "x", "d", "c", "b"] ∧ returned c 0 = ["d", "c", "b"] := by
  have h : (runAll id lineOps (NewEmptyTree 1 2)).map (fun r =>
      let c := exec (List.replicate 6 0 ++ [1] ++ List.replicate 40 0) ((r.1, ()), [Query.prog insSort (.search wideWindow), insertNow id ⟨"x", .nil, .point ⟨7, 0⟩⟩])
      ((contents r.1).map (·.ID), (contents c.1.1).map (·.ID), returned c 0)) =
      .ok (["a", "d", "c", "b"], ["a", "x", "d", "c", "b"], ["d", "c", "b"]) := by decide +kernel
  obtain ⟨⟨s, bs⟩, h1, h2⟩ := ok_of_map h
  simp only [Prod.mk.injEq] at h2
  exact ⟨s, ⟨_, bs, h1⟩, _, h2.1, h2.2.1, h2.2.2⟩

/-- C125: two queries that take turns -/
example : (runAll id lineOps (NewEmptyTree 1 2)).map (fun r =>
    let c := exec ((List.replicate 40 [0, 1]).flatten) ((r.1, ()), [Query.prog insSort (.search wideWindow), Query.prog insSort (.nearest 2 ⟨8, 1⟩)])
    (returned c 0, returned c 1)) = .ok (["a", "d", "c", "b"], ["c", "d"]) := by decide +kernel

/-- a condition that counts how often it was called and says yes to the first two objects -/
def firstTwo (_ : Spatial Float) : Prog (Shared Float Nat) Bool := .step (fun s => (s.1, s.2 + 1)) fun s => .done (.ok (s.2 < 2))

/-- C124: such a condition leaves the tree alone; the search stops at no object but keeps two -/
example : (∀ (s : RState Float) o x, ((firstTwo o).run (s, x)).2.1 = s) ∧ (runAll id lineOps (NewEmptyTree 1 2)).map (fun r =>
    let x := (SearchIntersectWithCondP wideWindow (some firstTwo)).run (r.1, 0)
    (x.1.map (·.map (·.ID)), x.2.2)) = .ok (.ok ["a", "d"], 4) := ⟨fun _ _ _ => rfl, by decide +kernel⟩

end GoGeo
