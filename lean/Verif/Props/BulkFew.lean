import Verif.Props.Bulk64
import Verif.Props.RandomId

/-! # C12 for fewer objects than `bulkLoad` needs -/

namespace GoGeo
open GoFloat GoSqrt Spec

/-- **C12**, no more objects than `max`: they are inserted one by one. -/
theorem C12_few_float64 (lib : Math64) (srt : GoSort) (grow : Nat → Nat) (min max : Int) (hp : ParamsOk min max)
    (objs : List (Spatial Float)) (hn : (objs.length : Int) ≤ max) (hc : ∀ o ∈ objs, CoordsOk o.Geom) :
    ∃ s : RState Float, NewMinMaxTree64 lib srt grow min max objs = .ok s ∧ (contents s).Perm objs ∧ Size s = objs.length ∧ Balanced s ∧
      ∀ q, ∃ res, SearchIntersect s (some q) = .ok res ∧ res.Perm (objs.filter (Meets q)) := by
  have hmax2 : 2 ≤ max := by have := hp.pos; have := hp.half; omega
  obtain ⟨s, h1, h2⟩ := C01_search_exact grow min max hmax2 objs hc
  obtain ⟨h3, h4⟩ := insert_contents hmax2 h1
  refine ⟨s, ?_, h3, h4, ?_, h2⟩
  · unfold NewMinMaxTree64
    rw [if_pos hn]
    exact h1
  · exact (C09_balanced grow min max hp objs s h1).1

/-- **C12**, `NewTree` and `NewTreeWith` with fewer than ten objects. -/
theorem C12_newTree_few_float64 (lib : Math64) (srt : GoSort) (grow : Nat → Nat) (objs : List (Spatial Float)) (hn : objs.length < 10)
    (hc : ∀ o ∈ objs, CoordsOk o.Geom) :
    ∃ s : RState Float, NewTree64 lib srt grow objs = .ok s ∧ (contents s).Perm objs ∧ Size s = objs.length ∧ Balanced s ∧
      ∀ q, ∃ res, SearchIntersect s (some q) = .ok res ∧ res.Perm (objs.filter (Meets q)) := by
  unfold NewTree64
  rw [if_pos hn]
  exact C12_few_float64 lib srt grow 2 10 ⟨by norm_num, by norm_num⟩ objs (by omega) hc

/-- nine objects, among them an empty and a NaN one: `NewTree` holds them all -/
example : ∃ s : RState Float, NewTree64 someMath64 goSort id (sampleObjs.take 9) = .ok s ∧ Size s = 9 ∧ Balanced s := by
  obtain ⟨s, h1, -, h2, h3, -⟩ := C12_newTree_few_float64 someMath64 goSort id (sampleObjs.take 9) (by decide)
    (fun o ho => coordsOk_check (by revert o; decide +kernel))
  exact ⟨s, h1, by rw [h2]; rfl, h3⟩

end GoGeo
