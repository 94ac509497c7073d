import Verif.Geo.Convex

set_option linter.unusedSectionVars false

/-! # Pairs of segments in exact arithmetic -/

namespace GoGeo
open GoFloat Spec

section
variable {K : Type} [Field K] [LinearOrder K] [IsStrictOrderedRing K]

/-- `r × s` -/
def segD (a b c d : K × K) : K := (b.1 - a.1) * (d.2 - c.2) - (b.2 - a.2) * (d.1 - c.1)
/-- `(q - p) × s` -/
def segN1 (a c d : K × K) : K := (c.1 - a.1) * (d.2 - c.2) - (c.2 - a.2) * (d.1 - c.1)
/-- `(q - p) × r` -/
def segN2 (a b c : K × K) : K := (c.1 - a.1) * (b.2 - a.2) - (c.2 - a.2) * (b.1 - a.1)

/-- the segment with exact end points -/
def seg (a b : K × K) : LineSegment (XR K) := ⟨pt a, pt b⟩

theorem segRel_fin (a b c d : K × K) : SegmentRelation (seg a b) (seg c d) =
    if segD a b c d = 0 then (if segN2 a b c = 0 then .touch else .disjoint)
    else if 0 < segN1 a c d / segD a b c d ∧ segN1 a c d / segD a b c d < 1 ∧
        0 < segN2 a b c / segD a b c d ∧ segN2 a b c / segD a b c d < 1 then .intersect
    else if (segN1 a c d / segD a b c d = 0 ∨ segN1 a c d / segD a b c d = 1) ∧
        (segN2 a b c / segD a b c d = 0 ∨ segN2 a b c / segD a b c d = 1) then .touch
    else .disjoint := by
  have hD : (ConvertSegToVector (seg a b)).Cross (ConvertSegToVector (seg c d)) = .fin (segD a b c d) := by
    simp only [ConvertSegToVector, ConvertPointToVector, Vector2.Cross, seg, pt, XR.fin_sub, XR.fin_mul, segD]
  have hN1 : (ConvertPointToVector (seg a b).Start (seg c d).Start).Cross (ConvertSegToVector (seg c d)) = .fin (segN1 a c d) := by
    simp only [ConvertSegToVector, ConvertPointToVector, Vector2.Cross, seg, pt, XR.fin_sub, XR.fin_mul, segN1]
  have hN2 : (ConvertPointToVector (seg a b).Start (seg c d).Start).Cross (ConvertSegToVector (seg a b)) = .fin (segN2 a b c) := by
    simp only [ConvertSegToVector, ConvertPointToVector, Vector2.Cross, seg, pt, XR.fin_sub, XR.fin_mul, segN2]
  unfold SegmentRelation
  simp only [hD, hN1, hN2, GoFloat.ne, GoFloat.gt, XR.fin_lit, XR.fin_eq, Nat.cast_zero, Nat.cast_one]
  by_cases h : segD a b c d = 0
  · by_cases h' : segN2 a b c = 0 <;> simp [h, h']
  · simp only [XR.fin_div _ _ h, XR.fin_lt, XR.fin_eq, h, decide_false, Bool.false_and, Bool.not_false, if_true, if_false,
      Bool.and_eq_true, Bool.or_eq_true, decide_eq_true_eq, and_assoc]
    simp

theorem meet {a b c d : K × K} (h : segD a b c d ≠ 0) (t u : K) :
    along a b t = along c d u ↔ t = segN1 a c d / segD a b c d ∧ u = segN2 a b c / segD a b c d := by
  constructor
  · intro e
    have e1 := congrArg Prod.fst e
    have e2 := congrArg Prod.snd e
    simp only [along] at e1 e2
    constructor
    · rw [eq_div_iff h]; unfold segD segN1
      linear_combination (d.2 - c.2) * e1 - (d.1 - c.1) * e2
    · rw [eq_div_iff h]; unfold segD segN2
      linear_combination (b.2 - a.2) * e1 - (b.1 - a.1) * e2
  · rintro ⟨rfl, rfl⟩
    refine Prod.ext ?_ ?_
    · simp only [along]
      field_simp
      unfold segD segN1 segN2; ring
    · simp only [along]
      field_simp
      unfold segD segN1 segN2; ring

theorem parallel_iff (a b c d : K × K) : Parallel a b c d ↔ segD a b c d = 0 := by
  unfold Parallel segD; exact sub_eq_zero.symm

theorem inSeg_swap (a b x : K × K) : InSeg a b x ↔ InSeg b a x := by
  have key : ∀ (a b : K × K) (t : K), along a b t = along b a (1 - t) := by
    intro a b t; unfold along; refine Prod.ext ?_ ?_ <;> simp only <;> ring
  constructor <;> rintro ⟨t, h0, h1, rfl⟩ <;> exact ⟨1 - t, by linarith, by linarith, key _ _ _⟩

theorem properCross_symm (a b c d : K × K) : ProperCross a b c d ↔ ProperCross c d a b := by
  unfold ProperCross
  have h1 : Parallel a b c d ↔ Parallel c d a b := by
    rw [parallel_iff, parallel_iff]
    have : segD c d a b = -segD a b c d := by unfold segD; ring
    rw [this, neg_eq_zero]
  rw [h1]
  refine and_congr_right fun _ => ?_
  exact existsUnique_congr fun x => and_comm

theorem properCross_rev (a b c d : K × K) : ProperCross a b c d ↔ ProperCross b a c d := by
  unfold ProperCross
  have h1 : Parallel a b c d ↔ Parallel b a c d := by
    rw [parallel_iff, parallel_iff]
    have : segD b a c d = -segD a b c d := by unfold segD; ring
    rw [this, neg_eq_zero]
  rw [h1]
  refine and_congr_right fun _ => ?_
  exact existsUnique_congr fun x => by rw [inSeg_swap a b]

theorem segRel_intersect (a b c d : K × K) : SegmentRelation (seg a b) (seg c d) = .intersect ↔ ProperCross a b c d := by
  rw [segRel_fin]
  unfold ProperCross
  rw [parallel_iff]
  by_cases h : segD a b c d = 0
  · rw [if_pos h]
    simp only [h, not_true_eq_false, false_and, iff_false]
    split <;> simp
  · rw [if_neg h]
    simp only [h, not_false_eq_true, true_and]
    constructor
    · intro hh
      split at hh
      · rename_i hc
        refine ⟨along a b (segN1 a c d / segD a b c d), ⟨⟨_, hc.1, hc.2.1, rfl⟩, ⟨_, hc.2.2.1, hc.2.2.2, (meet h _ _).2 ⟨rfl, rfl⟩⟩⟩, ?_⟩
        rintro x ⟨⟨t, _, _, rfl⟩, ⟨u, _, _, hu⟩⟩
        rw [((meet h t u).1 hu).1]
      · split at hh <;> simp at hh
    · rintro ⟨x, ⟨⟨t, t0, t1, rfl⟩, ⟨u, u0, u1, hu⟩⟩, _⟩
      obtain ⟨rfl, rfl⟩ := (meet h t u).1 hu
      rw [if_pos ⟨t0, t1, u0, u1⟩]

end
end GoGeo
