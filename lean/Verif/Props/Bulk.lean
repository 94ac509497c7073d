import Verif.Rtree.Bulk3
import Verif.Spec.Bulk
import Verif.Props.RtreeDelete
import Verif.Props.RtreeInsert
import Verif.Props.Near
import Mathlib.Data.Nat.Log

/-!
# C12-C14: bulk loading

The sort is any function meeting the contract of `sort.Sort` (`SortOk`); the height is any that is
large enough (`HeightOk`), so that the rounding of `math.Log2` does not matter.  `Verif.Props.Bulk64` has the `float64`
computation of the height, and Go 1.15's sort.
-/

set_option linter.unusedSectionVars false

namespace GoGeo
open GoFloat Spec Heap
variable {F : Type} [GoFloat F]

/-- `bulkLoad` builds a sound tree with all the objects -/
theorem bulkLoad_spec {cfg : OmtCfg} {srt : GoSort} (hsrt : SortOk srt) (grow : Nat → Nat) {min max : Int}
    (hmax : 2 ≤ max) (objs : List (Spatial F)) (hne : objs ≠ []) (hh : HeightOk cfg objs.length max) :
    ∃ (s : RState F) (K : Nat) (X : Item F (K + 1)), bulkLoad cfg srt grow (NewEmptyTree min max) objs = .ok s ∧
      TInv false 1 max.toNat 0 s X ∧ X.objs.Perm objs ∧ s.t.size = objs.length ∧ s.t.MinChildren = min ∧
      s.t.MaxChildren = max := by
  obtain ⟨h1, h2⟩ := hh
  generalize hH : cfg.height objs.length max.toNat = H at h1 h2
  obtain ⟨j, rfl⟩ : ∃ j, H = j + 1 := ⟨H - 1, by omega⟩
  have hlen : 1 ≤ objs.length := by cases objs; exact absurd rfl hne; simp
  have hM : 2 ≤ max.toNat := by omega
  have hpow : 1 ≤ max.toNat ^ j := Nat.pow_pos (by omega)
  set st : RState F := NewEmptyTree min max with hst
  set es : List (Entry F) := objs.map fun o => ⟨BoundingBox o.Geom, none, o⟩ with hes
  set sl : Slice := ⟨st.h.arrs.length, 0, objs.length, objs.length⟩ with hsl
  set h0 : Heap F := { st.h with arrs := st.h.arrs ++ [es] } with hh0
  have hi0 : st.h.Inv true := (TInv.empty (F := F) (min := min) (max := max) (lo := 0) (hi := max.toNat) (r := 0) (by omega)
      ⟨by omega, by simp [NewEmptyTree]; omega, Or.inl (Nat.zero_le _)⟩).inv
  have hinv : h0.Inv false := by
    refine ⟨⟨?_, fun hmk ha hb hab => hi0.sep hmk ha hb hab⟩, fun hm _ => hi0.priv hm (Or.inr rfl)⟩
    intro n nd hn
    obtain ⟨a, ha, h3⟩ := hi0.bnd hn
    refine ⟨a, ?_, h3⟩
    show (st.h.arrs ++ [es])[_]? = _
    rw [List.getElem?_append_left (hi0.arr_lt hn)]; exact ha
  have harr : sl.arr < h0.arrs.length := by simp [hh0, hsl]
  have hof : h0.arrOf sl.arr = es := by simp [hh0, hsl, arrOf]
  have hel : es.length = objs.length := by simp [hes]
  have hslice : h0.slice sl = es := by
    rw [slice_eq_rng]; unfold Heap.rng
    rw [hof]
    show (es.drop 0).take objs.length = es
    rw [List.drop_zero, List.take_of_length_le (by omega)]
  have hfree : h0.Free sl.arr sl.off (sl.off + sl.len) := by
    intro i nd hn ha
    have := hi0.arr_lt hn
    have ha : nd.entries.arr = st.h.arrs.length := ha
    omega
  have hperm := hsrt.perm (Entry F) (dimLess 0) es
  obtain ⟨gs, rs⟩ := grown_setSlice hinv harr (s := sl) (es := srt (Entry F) (dimLess 0) es)
    (by rw [hof, hel]; show 0 + _ ≤ _; rw [Nat.zero_add]) (by rw [hperm.length_eq, hel]) sl.off
  have hsort : sortByDim srt 0 h0 sl = h0.setSlice sl (srt (Entry F) (dimLess 0) es) := by
    unfold sortByDim; rw [hslice]
  have pre : OmtPre (h0.setSlice sl (srt (Entry F) (dimLess 0) es)) sl := by
    refine ⟨gs.inv, lt_of_lt_of_le harr gs.al, ?_, le_rfl, hlen, gs.free hfree harr le_rfl le_rfl le_rfl, ?_⟩
    · rw [gs.arrL, hof, hel]; show 0 + _ ≤ _; rw [Nat.zero_add]
    · intro e he
      rw [slice_eq_rng, rs, hperm.mem_iff] at he
      obtain ⟨o, -, rfl⟩ := List.mem_map.1 he
      exact ⟨rfl, rfl⟩
  set s := (objs.length + max.toNat ^ j - 1) / max.toNat ^ j with hs
  have hs1 : s ≤ max.toNat := by
    rw [hs, Nat.div_le_iff_le_mul_add_pred hpow]
    rw [Nat.pow_succ] at h2; omega
  have hs2 : objs.length ≤ s * max.toNat ^ j := by
    have hd := Nat.div_add_mod (objs.length + max.toNat ^ j - 1) (max.toNat ^ j)
    have hm := Nat.mod_lt (objs.length + max.toNat ^ j - 1) hpow
    rw [← hs, Nat.mul_comm] at hd
    omega
  obtain ⟨h', x, e1, g1, b1, c1, o1⟩ := omt_spec hsrt grow ((j + 1 : Nat) : Int) max.toNat (by omega) (j + 2) j _ (cfg.slices s) sl s
    (by omega) pre hs1 hs2
  refine ⟨⟨h', { st.t with height := ((j + 1 : Nat) : Int), size := objs.length, root := x.id }⟩, j, x, ?_, ?_, ?_, rfl, rfl, rfl⟩
  · unfold bulkLoad
    have hmc : st.t.MaxChildren.toNat = max.toNat := rfl
    simp only [hmc, hH, Nat.add_sub_cancel]
    rw [← hes, ← hsl, ← hh0, ← hs, hsort]
    have : (((j + 1 : Nat) : Int)) = (j : Int) + 1 := by push_cast; rfl
    rw [this] at e1 ⊢
    rw [e1]
    rfl
  · refine ⟨g1.inv, rfl, b1.rep, b1.nd, b1.good, b1.fill, ⟨le_trans c1 hs1, fun _ => Nat.zero_le _⟩, ?_, ⟨hM, ?_, Or.inl le_rfl⟩, by omega⟩
    · show (((j + 1 : Nat) : Int)) = _
      push_cast; rfl
    · show ((max.toNat : Nat) : Int) = max
      omega
  · refine o1.trans ?_
    rw [slice_eq_rng, rs]
    refine (hperm.map _).trans (List.Perm.of_eq ?_)
    rw [hes, List.map_map]
    exact List.map_id objs

theorem Item.Fill.mono {lo lo' hi : Nat} (hl : lo' ≤ lo) : ∀ {j : Nat} {x : Item F j}, x.Fill lo hi → x.Fill lo' hi := by
  intro j
  induction j with
  | zero => intro x _; trivial
  | succ j ih =>
    intro x hx p hp
    obtain ⟨h1, h2⟩ := hx p hp
    refine ⟨?_, ih h2⟩
    cases j with
    | zero => trivial
    | succ j => exact ⟨le_trans hl h1.1, h1.2⟩

section
variable [FloatOrd F]

theorem bulk_sound {cfg : OmtCfg} {srt : GoSort} (hsrt : SortOk srt) (grow : Nat → Nat) {min max : Int}
    (hmax : 2 ≤ max) (objs : List (Spatial F)) (hn : max < objs.length) (hh : HeightOk cfg objs.length max) :
    ∃ s : RState F, NewMinMaxTree cfg srt grow min max objs = .ok s ∧ Sound false 0 max.toNat s ∧
      (contents s).Perm objs ∧ Size s = objs.length ∧ Shaped s ∧
      (∀ d n v, NodeAt s (d + 1) n → s.h.view n = some v → 1 ≤ v.entries.length) := by
  have hne : objs ≠ [] := by rintro rfl; simp at hn; omega
  obtain ⟨s, K, X, e, ti, hp, hz, hmin, hm⟩ := bulkLoad_spec hsrt grow (min := min) hmax objs hne hh
  have hp' : (contents s).Perm objs := by rw [contents_eq ti]; exact hp
  refine ⟨s, ?_, ?_, hp', hz, (shaped_of ti).1, (shaped_of ti).2.1⟩
  · unfold NewMinMaxTree
    rw [if_neg (by omega)]; exact e
  · have t0 : TInv false 0 max.toNat 0 s X :=
      ⟨ti.inv, ti.root, ti.rep, ti.nd, ti.good, ti.fill.mono (Nat.zero_le _), ti.cnt, ti.height,
        ⟨ti.lo.1, ti.lo.2.1, Or.inl (Nat.zero_le _)⟩, ti.r2⟩
    exact Sound.of t0 (by rw [hz, hp'.length_eq]) (Nat.zero_le _) (Or.inr rfl)

/-! ## C12 -/

/-- **C12.** Bulk loading never panics.  The tree stores exactly the given objects, `Size` is their
number, all leaves are at the same depth, no node is empty or overfull, the boxes are exact, and a
search returns exactly the objects whose box meets the query box. -/
theorem C12_bulk (cfg : OmtCfg) (srt : GoSort) (hsrt : SortOk srt) (grow : Nat → Nat) (min max : Int)
    (hmax : 2 ≤ max) (objs : List (Spatial F)) (hn : max < objs.length) (hh : HeightOk cfg objs.length max) :
    ∃ s : RState F, NewMinMaxTree cfg srt grow min max objs = .ok s ∧ (contents s).Perm objs ∧
      Size s = objs.length ∧ Shaped s ∧
      (∀ d n v, NodeAt s (d + 1) n → s.h.view n = some v → 1 ≤ v.entries.length) ∧
      ∀ q, ∃ res, SearchIntersect s (some q) = .ok res ∧ res.Perm (objs.filter (Meets q)) := by
  obtain ⟨s, h1, h2, h3, h4, h5, h6⟩ := bulk_sound hsrt grow (min := min) hmax objs hn hh
  refine ⟨s, h1, h3, h4, h5, h6, fun q => ⟨(contents s).filter (Meets q), ?_, h3.filter _⟩⟩
  unfold SearchIntersect
  rw [h2.search]
  congr 2
  funext o
  simp [hit, Meets, Box.IntersectPtr]

/-- **C12**, `NewTree` and `NewTreeWith` with ten objects or more: `max` is half their number, and a
height of two (what `math.Log2` gives) is enough. -/
theorem C12_newTree (cfg : OmtCfg) (srt : GoSort) (hsrt : SortOk srt) (grow : Nat → Nat)
    (objs : List (Spatial F)) (hn : 10 ≤ objs.length) (hh : cfg.height objs.length (objs.length / 2) = 2) :
    ∃ s : RState F, NewTree cfg srt grow objs = .ok s ∧ (contents s).Perm objs ∧
      Size s = objs.length ∧ Depth s = 2 ∧ Shaped s ∧
      ∀ q, ∃ res, SearchIntersect s (some q) = .ok res ∧ res.Perm (objs.filter (Meets q)) := by
  have hh' : HeightOk cfg objs.length ((objs.length / 2 : Nat) : Int) := by
    unfold HeightOk
    rw [Int.toNat_natCast, hh]
    refine ⟨by omega, ?_⟩
    have h5 : 5 ≤ objs.length / 2 := by omega
    have : 5 * (objs.length / 2) ≤ (objs.length / 2) ^ 2 := by rw [Nat.pow_two]; exact Nat.mul_le_mul_right _ h5
    omega
  obtain ⟨s, h1, h2, h3, h4, h5, h6⟩ := C12_bulk cfg srt hsrt grow ((objs.length / 6 : Nat) : Int)
    ((objs.length / 2 : Nat) : Int) (by omega) objs (by omega) hh'
  have hNT : NewTree cfg srt grow objs = NewMinMaxTree cfg srt grow ((objs.length / 6 : Nat) : Int) ((objs.length / 2 : Nat) : Int) objs := by
    unfold NewTree
    rw [if_neg (by omega)]
  refine ⟨s, by rw [hNT]; exact h1, h2, h3, ?_, h4, h6⟩
  unfold NewMinMaxTree at h1
  rw [if_neg (by omega)] at h1
  unfold bulkLoad at h1
  simp only [bind, Except.bind] at h1
  split at h1
  · cases h1
  · cases h1
    show ((cfg.height objs.length (((objs.length / 2 : Nat) : Int).toNat) : Nat) : Int) = 2
    rw [Int.toNat_natCast, hh]; rfl

/-! ## C14 -/

theorem Sound.deleteStep {q : Bool} {lo hi : Nat} {grow : Nat → Nat} {s s' : RState F} (hs : Sound q lo hi s) {op : Op F} {b : Bool}
    (hd : op.deletes) (h : op.run grow s = .ok (s', b)) : Sound q lo hi s' ∧ Step op (contents s) (contents s') b := by
  cases op with
  | insert o => exact hd.elim
  | upsert o => exact hd.elim
  | delete obj =>
    obtain ⟨h1, h2, -⟩ := hs.delete h
    exact ⟨h1, h2.imp id fun ⟨hb, o, ho, hp⟩ => ⟨hb, o, goEq_same ho, hp⟩⟩
  | deleteWith obj cmp => obtain ⟨h1, h2, -⟩ := hs.delete h; exact ⟨h1, h2⟩
  | deleteID id => exact hs.deleteID h

theorem Sound.runDeletes {q : Bool} {lo hi : Nat} {grow : Nat → Nat} (ops : List (Op F)) (hd : ∀ op ∈ ops, op.deletes) :
    ∀ {s s' : RState F} {bs : List Bool}, Sound q lo hi s → Spec.runAll grow ops s = .ok (s', bs) → Sound q lo hi s' := by
  induction ops with
  | nil => intro s s' bs hs h; cases h; exact hs
  | cons op ops ih =>
    intro s s' bs hs h
    rw [Spec.runAll] at h
    cases hr : op.run grow s with
    | error e => rw [hr] at h; cases h
    | ok r =>
      obtain ⟨s1, b⟩ := r
      rw [hr] at h
      simp only [bind, Except.bind] at h
      cases hr2 : Spec.runAll grow ops s1 with
      | error e => rw [hr2] at h; cases h
      | ok r2 =>
        obtain ⟨s2, bs2⟩ := r2
        rw [hr2] at h
        cases h
        exact ih (fun op hop => hd op (List.mem_cons_of_mem _ hop)) (hs.deleteStep (hd op List.mem_cons_self) hr).1 hr2

theorem Spec.BulkReached.sound {cfg : OmtCfg} {srt : GoSort} (hsrt : SortOk srt) {grow : Nat → Nat} {min max : Int}
    (hmax : 2 ≤ max) {objs : List (Spatial F)} (hn : max < objs.length) (hh : HeightOk cfg objs.length max)
    {s : RState F} (hs : BulkReached cfg srt grow min max objs s) : Sound false 0 max.toNat s := by
  obtain ⟨s0, ops, bs, h1, h2, h3⟩ := hs
  obtain ⟨s1, e1, h4, -⟩ := bulk_sound hsrt grow (min := min) hmax objs hn hh
  rw [h1] at e1; cases e1
  exact h4.runDeletes ops h2 h3

/-- **C14.** Starting from a bulk-loaded tree, each deletion that returns does to the stored objects
what `Step` says (one matching object less, or nothing), although leaves share a backing array. -/
theorem C14_step (cfg : OmtCfg) (srt : GoSort) (hsrt : SortOk srt) (grow : Nat → Nat) (min max : Int)
    (hmax : 2 ≤ max) (objs : List (Spatial F)) (hn : max < objs.length) (hh : HeightOk cfg objs.length max)
    (s s' : RState F) (op : Op F) (b : Bool) (hs : BulkReached cfg srt grow min max objs s) (hd : op.deletes)
    (hop : op.run grow s = .ok (s', b)) :
    Step op (contents s) (contents s') b ∧ Size s' = (contents s').length ∧ 
      ∀ q, SearchIntersect s' (some q) = .ok ((contents s').filter (Meets q)) := by
  obtain ⟨h1, h2⟩ := (hs.sound hsrt hmax hn hh).deleteStep hd hop
  refine ⟨h2, h1.2.1, fun q => ?_⟩
  unfold SearchIntersect
  rw [h1.search]
  congr 2
  funext o
  simp [hit, Meets, Box.IntersectPtr]

/-- **C14.** In every tree reached by bulk loading and deletions, a search returns exactly the stored
objects whose box meets the query box, and `Size` is their number. -/
theorem C14_search (cfg : OmtCfg) (srt : GoSort) (hsrt : SortOk srt) (grow : Nat → Nat) (min max : Int)
    (hmax : 2 ≤ max) (objs : List (Spatial F)) (hn : max < objs.length) (hh : HeightOk cfg objs.length max)
    (s : RState F) (hs : BulkReached cfg srt grow min max objs s) (q : Box F) :
    SearchIntersect s (some q) = .ok ((contents s).filter (Meets q)) ∧ Size s = (contents s).length ∧
      ∀ o ∈ contents s, o ∈ objs := by
  have h1 := hs.sound hsrt hmax hn hh
  refine ⟨?_, h1.2.1, ?_⟩
  · unfold SearchIntersect
    rw [h1.search]
    congr 2
    funext o
    simp [hit, Meets, Box.IntersectPtr]
  · obtain ⟨s0, ops, bs, e1, hd, hr⟩ := hs
    obtain ⟨s1, e2, h4, h5, -⟩ := bulk_sound hsrt grow (min := min) hmax objs hn hh
    rw [e1] at e2; cases e2
    have key : ∀ (ops : List (Op F)), (∀ op ∈ ops, op.deletes) → ∀ (s s' : RState F) (bs : List Bool),
        Sound false 0 max.toNat s → runAll grow ops s = .ok (s', bs) → ∀ o ∈ contents s', o ∈ contents s := by
      intro ops
      induction ops with
      | nil => intro _ s s' bs hs h; cases h; exact fun o h => h
      | cons op ops ih =>
        intro hd s s' bs hs h
        rw [Spec.runAll] at h
        cases hr : op.run grow s with
        | error e => rw [hr] at h; cases h
        | ok r =>
          obtain ⟨s1, b⟩ := r
          rw [hr] at h
          simp only [bind, Except.bind] at h
          cases hr2 : Spec.runAll grow ops s1 with
          | error e => rw [hr2] at h; cases h
          | ok r2 =>
            obtain ⟨s2, bs2⟩ := r2
            rw [hr2] at h
            cases h
            obtain ⟨g1, g2⟩ := hs.deleteStep (hd op List.mem_cons_self) hr
            intro o ho
            have ho1 := ih (fun op hop => hd op (List.mem_cons_of_mem _ hop)) s1 s2 bs2 g1 hr2 o ho
            have del : ∀ {cmp : Cond2 F} {obj : Spatial F}, DelOne cmp obj (contents s) (contents s1) b → o ∈ contents s := by
              rintro cmp obj (⟨-, e⟩ | ⟨-, x, -, e⟩)
              · rw [← e]; exact ho1
              · exact e.mem_iff.2 (List.mem_cons_of_mem _ ho1)
            cases op with
            | insert o => exact (hd _ List.mem_cons_self).elim
            | upsert o => exact (hd _ List.mem_cons_self).elim
            | delete obj =>
              obtain ⟨-, e⟩ | ⟨-, x, -, e⟩ := (g2 : DelSame obj (contents s) (contents s1) b)
              · rw [← e]; exact ho1
              · exact e.mem_iff.2 (List.mem_cons_of_mem _ ho1)
            | deleteWith obj cmp => exact del g2
            | deleteID id =>
              obtain ⟨gone, -, e, -⟩ := g2
              exact e.mem_iff.2 (List.mem_append_right _ ho1)
    exact fun o ho => h5.mem_iff.1 (key ops hd _ _ bs h4 hr o ho)

end

/-! ## C13 -/

section
variable [FloatOrd F]

/-- **C13**, partial: when the constructor does not bulk load (at most `max` objects), a later `Insert`
that returns adds its object and loses none.  For a bulk-loaded tree the property is false, see
`C13_insert_after_bulk_false`. -/
theorem C13_insert_partial (cfg : OmtCfg) (srt : GoSort) (grow : Nat → Nat) (min max : Int)
    (hmax : 2 ≤ max) (objs : List (Spatial F)) (hn : objs.length ≤ max) (s s' : RState F)
    (hs : NewMinMaxTree cfg srt grow min max objs = .ok s) (o : Spatial F) (h : Insert grow s o = .ok s') :
    (contents s').Perm (o :: objs) ∧
      ∀ q, ∃ res, SearchIntersect s' (some q) = .ok res ∧ res.Perm ((o :: objs).filter (Meets q)) := by
  unfold NewMinMaxTree at hs
  rw [if_pos hn] at hs
  have hall : insertAll grow (NewEmptyTree min max) (objs ++ [o]) = .ok s' := by
    unfold insertAll
    rw [List.foldlM_append, hs]
    simp only [bind, Except.bind, List.foldlM_cons, List.foldlM_nil, h, pure, Except.pure]
  obtain ⟨K, X, ti, hperm, -, hm⟩ := insertAll_spec (lo := 1) (hi := max.toNat) (r := 2) grow (objs ++ [o])
    (TInv.empty (min := min) (max := max) (le_refl 2)
      ⟨by omega, by simp [NewEmptyTree]; omega, Or.inl (le_refl 1)⟩) hall
  have hp : (objs ++ [o]).Perm (o :: objs) := List.perm_append_comm
  refine ⟨?_, fun q => ?_⟩
  · rw [contents_eq ti]
    refine hperm.trans ?_
    simpa [objs_eq] using hp
  · obtain ⟨res, h1, h2⟩ := C01_search_exact_any grow min max hmax (objs ++ [o]) s' hall q
    exact ⟨res, h1, h2.trans (hp.filter _)⟩

end

/-! ## concrete instances -/

/-- a height as `bulkLoad` computes it when `math.Log2` is exact -/
def exactCfg : OmtCfg := ⟨fun n M => Nat.clog M n, Nat.sqrt⟩

theorem exactCfg_ok (n : Nat) (hn : 2 ≤ n) (max : Int) (hm : 2 ≤ max) : HeightOk exactCfg n max := by
  have h2 : 1 < max.toNat := by omega
  exact ⟨Nat.clog_pos h2 hn, Nat.le_pow_clog h2 n⟩

/-- five points -/
def bulkObjs : List (Spatial Float) :=
  [⟨"a", .nil, .point ⟨3, 1⟩⟩, ⟨"b", .nil, .point ⟨1, 2⟩⟩, ⟨"c", .nil, .point ⟨7, 7⟩⟩, ⟨"d", .nil, .point ⟨5, 5⟩⟩,
   ⟨"e", .nil, .point ⟨2, 9⟩⟩]

/-- they are bulk loaded into a tree of depth three, and two are deleted -/
example : SortOk insSort ∧ HeightOk exactCfg bulkObjs.length 2 ∧
    ((NewMinMaxTree exactCfg insSort id 1 2 bulkObjs).bind fun s =>
      (runAll id [.delete ⟨"a", .nil, .point ⟨3, 1⟩⟩, .deleteID "c"] s).map fun r =>
        (Depth s, (contents s).map (·.ID), r.2, (contents r.1).map (·.ID))) =
    .ok (3, ["b", "e", "a", "d", "c"], [true, true], ["b", "e", "d"]) :=
  ⟨insSort_ok, exactCfg_ok 5 (by decide) 2 (by decide), by decide +kernel⟩

/-- fourteen points, for `NewTree` -/
example : exactCfg.height 14 (14 / 2) = 2 := by decide +kernel

/-- **C13** is false: five points are bulk loaded with `max = 4`; after one more insertion the point
`d` is no longer stored, the new point is stored twice, and `Size` says six. -/
theorem C13_insert_after_bulk_false :
    ∃ s s' : RState Float, NewMinMaxTree exactCfg insSort id 1 4 bulkObjs = .ok s ∧
      Insert id s ⟨"f", .nil, .point ⟨1, 1⟩⟩ = .ok s' ∧
      (contents s').map (·.ID) = ["b", "e", "a", "f", "f", "c"] ∧ Size s' = 6 ∧
      (SearchIntersect s' (some ⟨5, 5, 5, 5⟩)).map (fun l => l.map (·.ID)) = .ok [] := by
  have h : ((NewMinMaxTree exactCfg insSort id 1 4 bulkObjs).bind fun s =>
      (Insert id s ⟨"f", .nil, .point ⟨1, 1⟩⟩).map fun s' => ((contents s').map (·.ID), Size s',
        (SearchIntersect s' (some ⟨5, 5, 5, 5⟩)).map (fun l => l.map (·.ID)))) =
      .ok (["b", "e", "a", "f", "f", "c"], 6, .ok []) := by decide +kernel
  cases hs : NewMinMaxTree exactCfg insSort id 1 4 bulkObjs with
  | error e => rw [hs] at h; cases h
  | ok s =>
    rw [hs] at h
    obtain ⟨s', h1, h2⟩ := ok_of_map h
    simp only [Prod.mk.injEq] at h2
    exact ⟨s, s', rfl, h1, h2.1, h2.2.1, h2.2.2⟩

end GoGeo
