import Verif.Rtree.Sim6
import Verif.Props.Bulk

/-!
# C13: what survives insertions into a bulk-loaded tree

`C13_insert_after_bulk_false` shows that an insertion can overwrite an object of another leaf.  The theorems
here say what every sequence of insertions keeps all the same.
-/

set_option linter.unusedSectionVars false

namespace GoGeo
open GoFloat Spec Heap
variable {F : Type} [GoFloat F] [FloatOrd F]

theorem hit_meets (q : Box F) : hit (some q) none = (Meets q : Spatial F → Bool) := by
  funext o
  simp [hit, Meets, Box.IntersectPtr]

/-- **C13**, partial: after bulk loading, deletions, and any sequence of insertions that returns,
`Size` is the number of objects stored, which grew by the number of insertions; every object stored is one
of the earlier ones or one of those inserted; every search returns only stored objects whose box meets the
query; and the last object inserted is found.  What is missing is that the earlier objects are all still there, which is
false (`C13_insert_after_bulk_false`). -/
theorem C13_inserts_after_bulk_partial (cfg : OmtCfg) (srt : GoSort) (hsrt : SortOk srt) (grow : Nat → Nat)
    (min max : Int) (hmax : 2 ≤ max) (objs : List (Spatial F)) (hn : max < objs.length)
    (hh : HeightOk cfg objs.length max) (s s' : RState F) (hs : BulkReached cfg srt grow min max objs s)
    (later : List (Spatial F)) (h : insertAll grow s later = .ok s') :
    Size s' = Size s + later.length ∧ Size s' = (contents s').length ∧
      (∀ o ∈ contents s', o ∈ contents s ∨ o ∈ later) ∧
      ∀ q, ∃ res, SearchIntersect s' (some q) = .ok res ∧ res.Sublist ((contents s').filter (Meets q)) ∧
        ∀ o, later.getLast? = some o → Meets q o = true → o ∈ res := by
  have sd := hs.sound hsrt hmax hn hh
  obtain ⟨⟨K, X, ti⟩, hsz, -⟩ := sd
  have hc := contents_eq ti
  have d := DInv.of_TInv (P := fun o => o ∈ contents s ∨ o ∈ later) ti
    (fun o ho => Or.inl (hc ▸ ho))
  obtain ⟨k', K', X', d', e1, e2, e3⟩ := d.insertAll grow later (fun o ho => Or.inr ho) h
  refine ⟨e1, ?_, d'.contents_P, fun q => ?_⟩
  · show s'.t.size = _
    have hsz : s.t.size = ((contents s).length : Int) := hsz
    rw [e1, e2, hsz]
    push_cast; rfl
  · obtain ⟨R, r1, r2, r3⟩ := d'.search (some q) none
    rw [hit_meets] at r2 r3
    refine ⟨R, r1, r2, fun o ho hm => ?_⟩
    obtain ⟨n, n1, n2, n3⟩ := e3 o ho
    exact r3 n n1 o (n2 ▸ n3) n3 hm

/-- **C13**, partial: one insertion after bulk loading and deletions, exactly.  Either it is right, or one
earlier object is lost and the new object is stored twice; nothing else can happen.  In both cases `Size` is
the number of objects stored, and every object stored is found by the searches that should find it.  What is
missing is that the first case is the only one, which is false (`C13_insert_after_bulk_false`). -/
theorem C13_insert_after_bulk_partial (cfg : OmtCfg) (srt : GoSort) (hsrt : SortOk srt) (grow : Nat → Nat)
    (min max : Int) (hmax : 2 ≤ max) (objs : List (Spatial F)) (hn : max < objs.length)
    (hh : HeightOk cfg objs.length max) (s s' : RState F) (hs : BulkReached cfg srt grow min max objs s)
    (o : Spatial F) (h : Insert grow s o = .ok s') :
    ((contents s').Perm (o :: contents s) ∨
      ∃ lost rest, (contents s).Perm (lost :: rest) ∧ (contents s').Perm (o :: o :: rest)) ∧
    Size s' = Size s + 1 ∧ Size s' = (contents s').length ∧
    ∀ q, ∃ res, SearchIntersect s' (some q) = .ok res ∧ res.Sublist ((contents s').filter (Meets q)) ∧
      ∀ x ∈ contents s', Meets q x = true → x ∈ res := by
  have sd := hs.sound hsrt hmax hn hh
  obtain ⟨⟨K, X, ti⟩, hsz, -⟩ := sd
  have hsz : s.t.size = ((contents s).length : Int) := hsz
  have hc := contents_eq ti
  unfold Insert at h
  cases h1 : GoGeo.insert grow s (⟨BoundingBox o.Geom, none, o⟩ : Entry F) 1 with
  | error e => rw [h1] at h; cases h
  | ok s1 =>
    rw [h1] at h
    cases h
    obtain ⟨k', K', X', d, e1, e2, e3⟩ := ti.insert_shared grow o h1
    rw [← hc] at e2
    have hlen : (contents s1).length = (contents s).length + 1 := by
      rcases e2 with e2 | ⟨lost, rest, p1, p2⟩
      · simpa using e2.length_eq
      · have := p1.length_eq
        have := p2.length_eq
        simp only [List.length_cons] at *
        omega
    refine ⟨e2, ?_, ?_, fun q => ?_⟩
    · show s1.t.size + 1 = s.t.size + 1
      rw [e1]
    · show s1.t.size + 1 = ((contents s1).length : Int)
      rw [e1, hsz, hlen]; push_cast; rfl
    · obtain ⟨R, r1, r2, r3⟩ := d.search (some q) none
      rw [hit_meets] at r2 r3
      refine ⟨R, r1, r2, fun x hx hm => ?_⟩
      obtain ⟨n, n1, n2, n3⟩ := e3 x hx
      exact r3 n n1 x n2 n3 hm

section
variable {K : Type} [Field K] [LinearOrder K] [IsStrictOrderedRing K] [FloatVal F K]
include K

/-- **C13**, partial: insertions into a bulk-loaded tree never panic, whatever they overwrite, when the
coordinates are bounded -/
theorem C13_inserts_return_partial (cfg : OmtCfg) (srt : GoSort) (hsrt : SortOk srt) (grow : Nat → Nat)
    (min max : Int) (hmax : 2 ≤ max) (objs : List (Spatial F)) (hn : max < objs.length)
    (hh : HeightOk cfg objs.length max) (hco : ∀ o ∈ objs, CoordsOk o.Geom) (later : List (Spatial F))
    (hcl : ∀ o ∈ later, CoordsOk o.Geom) :
    ∃ s s', NewMinMaxTree cfg srt grow min max objs = .ok s ∧ insertAll grow s later = .ok s' := by
  have hne : objs ≠ [] := by rintro rfl; simp at hn; omega
  obtain ⟨s, J, X, e, ti, hp, -⟩ := bulkLoad_spec hsrt grow (min := min) hmax objs hne hh
  have hes : 1 ≤ X.es.length := by
    rw [Nat.one_le_iff_ne_zero]
    intro h0
    have h1 := List.length_eq_zero_iff.1 h0
    have : X.objs = [] := by rw [objs_eq, h1]; rfl
    rw [this] at hp
    exact hne hp.nil_eq.symm
  have ti1 : TInv false 1 max.toNat 1 s X :=
    ⟨ti.inv, ti.root, ti.rep, ti.nd, ti.good, ti.fill, ⟨ti.cnt.1, fun _ => hes⟩, ti.height, ti.lo, by omega⟩
  have d := DInv.of_TInv (P := fun o => CoordsOk o.Geom) ti1 (fun o ho => hco o (hp.mem_iff.1 ho))
  obtain ⟨s', hs'⟩ := d.insertAll_total (le_refl 1) (le_refl 1) (fun o ho => ho) grow later hcl
  refine ⟨s, s', ?_, hs'⟩
  unfold NewMinMaxTree
  rw [if_neg (by omega)]
  exact e

end

/-- the five points of `C13_insert_after_bulk_false`, one deletion, and two insertions: the last one is found -/
example : SortOk insSort ∧ HeightOk exactCfg bulkObjs.length 4 ∧
    ((NewMinMaxTree exactCfg insSort id 1 4 bulkObjs).bind fun s =>
      (runAll id [.delete ⟨"a", .nil, .point ⟨3, 1⟩⟩] s).bind fun r =>
        (insertAll id r.1 [⟨"f", .nil, .point ⟨1, 1⟩⟩, ⟨"g", .nil, .point ⟨6, 6⟩⟩]).map fun s' =>
          ((contents r.1).map (·.ID), (contents s').map (·.ID), Size s')) =
    .ok (["b", "e", "d", "c"], ["b", "e", "f", "d", "c", "g"], 6) :=
  ⟨insSort_ok, exactCfg_ok 5 (by decide) 4 (by decide), by decide +kernel⟩

/-- both cases of `C13_insert_after_bulk_partial` occur: into the last leaf, and into another one -/
example :
    ((NewMinMaxTree exactCfg insSort id 1 4 bulkObjs).bind fun s =>
      (Insert id s ⟨"g", .nil, .point ⟨7, 8⟩⟩).bind fun s1 =>
        (Insert id s ⟨"f", .nil, .point ⟨1, 1⟩⟩).map fun s2 =>
          ((contents s).map (·.ID), (contents s1).map (·.ID), (contents s2).map (·.ID))) =
    .ok (["b", "e", "a", "d", "c"], ["b", "e", "a", "d", "c", "g"], ["b", "e", "a", "f", "f", "c"]) := by
  decide +kernel

end GoGeo
