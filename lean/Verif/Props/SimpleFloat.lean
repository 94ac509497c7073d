import Verif.Props.SimpleRegion
import Verif.Props.RoundingCentroid

/-!
# C144: area, orientation and centroid of simple polygons in float64
-/

namespace GoGeo.Region
open MeasureTheory Set Spec Real GoFloat FloatVal

theorem cyc_real (f : ℚ × ℚ → ℚ × ℚ → ℚ) (g : ℝ × ℝ → ℝ × ℝ → ℝ) (h : ∀ p q, g (real p) (real q) = ((f p q : ℚ) : ℝ)) (c : List (ℚ × ℚ)) :
    cycSum g (c.map real) = ((cycSum f c : ℚ) : ℝ) := by
  unfold cycSum
  rw [← List.map_rotate, List.zipWith_map]
  have : ∀ l m : List (ℚ × ℚ), (List.zipWith (fun p q => g (real p) (real q)) l m).sum = (((List.zipWith f l m).sum : ℚ) : ℝ) := by
    intro l
    induction l with
    | nil => simp
    | cons a l ih =>
      intro m
      cases m with
      | nil => simp
      | cons b m =>
        simp only [List.zipWith_cons_cons, List.sum_cons]
        rw [ih, h, Rat.cast_add]
  exact this _ _

theorem fanArea_real (o : ℚ × ℚ) (c : List (ℚ × ℚ)) : fanArea (real o) (c.map real) = ((fanArea o c : ℚ) : ℝ) := by
  unfold fanArea
  refine cyc_real _ _ (fun p q => ?_) c
  rw [turn_real]
  push_cast
  rfl

section
variable {F : Type} [GoFloat F] [FloatVal F ℚ] [FloatErr F ℚ]

/-- **C144 (area).** GetArea in float64 of a simple polygon of `n ≤ 2^20` corners with coordinates up to `M` is within `n (n + 5) M² / 2^53` of the Lebesgue measure of
the set of points inside it. -/
theorem C144_area {M : ℚ} {ps : List (Point F)} {c : List (ℚ × ℚ)} (hc : AtAll M ps (c ++ c.take 1)) (h1 : 1 ≤ M) (h2 : M ≤ 2 ^ 100)
    (hn : c.length ≤ 2 ^ 20) (hs : SimpleRing (c.map real)) (holes : List (List (Point F))) :
    ∃ a : ℚ, val (GetArea (.polygon (ps :: holes))) = .fin a ∧
      |(a : ℝ) - (volume {z | EvenOdd (c.map real) z}).toReal| ≤ c.length * (c.length + 5) * (M * M) / 2 ^ 53 := by
  obtain ⟨a, ha, hb⟩ := C102_area hc h1 h2 hn (0, 0) holes
  obtain ⟨A, hA, hv, hg, -⟩ := C140_area (c.map real) hs []
  rw [(C32_area_fan (real (0, 0)) (c.map real) []).1, XR.fin.injEq, fanArea_real] at hg
  refine ⟨a, ha, ?_⟩
  rw [hv, ENNReal.toReal_ofReal hA.le, ← hg]
  exact_mod_cast hb

/-- **C144 (orientation).** If that bound is less than the measure of the set of points inside the polygon, IsCCW in float64 says whether the ring goes round them
counter-clockwise. -/
theorem C144_ccw {M : ℚ} {ps : List (Point F)} {c : List (ℚ × ℚ)} (hc : AtAll M ps (c ++ c.take 1)) (h1 : 1 ≤ M) (h2 : M ≤ 2 ^ 100)
    (hn : c.length ≤ 2 ^ 20) (hs : SimpleRing (c.map real)) (holes : List (List (Point F)))
    (hbig : c.length * (c.length + 5) * (M * M) / 2 ^ 53 < (volume {z | EvenOdd (c.map real) z}).toReal) (z : ℝ × ℝ) (hz : ¬ OnRing (c.map real) z)
    (hin : EvenOdd (c.map real) z) : winding (c.map real) z = if IsCCW (ps :: holes) then 1 else -1 := by
  obtain ⟨A, hA, hv, hg, -⟩ := C140_area (c.map real) hs []
  rw [(C32_area_fan (real (0, 0)) (c.map real) []).1, XR.fin.injEq, fanArea_real] at hg
  rw [hv, ENNReal.toReal_ofReal hA.le, ← hg] at hbig
  have hi := C102_ccw hc h1 h2 hn (0, 0) holes (by exact_mod_cast hbig)
  rw [(C140_ccw (c.map real) hs [] z hz).1 hin]
  have : IsCCW [ring (c.map real)] = IsCCW (ps :: holes) := by
    rw [Bool.eq_iff_iff, hi, (C32_area_fan (real (0, 0)) (c.map real) []).2, fanArea_real]
    exact_mod_cast Iff.rfl
  rw [this]

omit [FloatErr F ℚ] in
theorem atAll_within {M : ℚ} {ps : List (Point F)} {xs : List (ℚ × ℚ)} (h : AtAll M ps xs) : ∀ x ∈ xs, Within M x := by
  induction h with
  | nil => intro x hx; cases hx
  | cons h1 t ih =>
    intro x hx
    rcases List.mem_cons.1 hx with rfl | hx
    · exact h1.2
    · exact ih x hx

theorem fanMoment_real (o : ℚ × ℚ) (c : List (ℚ × ℚ)) : fanMomentX (real o) (c.map real) = ((fanMomentX o c : ℚ) : ℝ) ∧
    fanMomentY (real o) (c.map real) = ((fanMomentY o c : ℚ) : ℝ) := by
  unfold fanMomentX fanMomentY
  constructor <;>
  · refine cyc_real _ _ (fun p q => ?_) c
    rw [turn_real]
    push_cast
    rfl

/-- **C144 (centroid).** If the measure of the set of points inside a simple polygon of `n ≤ 2^20` corners with coordinates up to `M ≤ 2^60` is at least `n (n + 8) M² / 2^50`, both
coordinates of Centroid in float64 are within `4 n (n + 8) M³ / (2^53 A)` of those of the centre of mass of that set, `A` its measure. -/
theorem C144_centroid {M : ℚ} {ps : List (Point F)} {c : List (ℚ × ℚ)} (hc : AtAll M ps (c ++ c.take 1)) (h1 : 1 ≤ M) (h2 : M ≤ 2 ^ 60)
    (hn : c.length ≤ 2 ^ 20) (hs : SimpleRing (c.map real)) (holes : List (List (Point F)))
    (hbig : c.length * (c.length + 8) * (M * M) / 2 ^ 50 ≤ (volume {z | EvenOdd (c.map real) z}).toReal) :
    ∃ (g : Point F) (x y : ℚ), Centroid (.polygon (ps :: holes)) = .ok g ∧ At g (x, y) ∧
      |(x : ℝ) - ⨍ z in {z | EvenOdd (c.map real) z}, z.1| ≤ 4 * c.length * (c.length + 8) * (M * M * M) / 2 ^ 53 / (volume {z | EvenOdd (c.map real) z}).toReal ∧
      |(y : ℝ) - ⨍ z in {z | EvenOdd (c.map real) z}, z.2| ≤ 4 * c.length * (c.length + 8) * (M * M * M) / 2 ^ 53 / (volume {z | EvenOdd (c.map real) z}).toReal := by
  obtain ⟨A, hA, hv, hg, -⟩ := C140_area (c.map real) hs []
  rw [(C32_area_fan (real (0, 0)) (c.map real) []).1, XR.fin.injEq, fanArea_real] at hg
  rw [hv, ENNReal.toReal_ofReal hA.le] at hbig ⊢
  have h0 : fanArea (0, 0) c ≠ 0 := by
    intro h
    rw [h] at hg
    simp at hg
    exact hA.ne hg
  have h0' : fanArea (real (0, 0)) (c.map real) ≠ 0 := by rw [fanArea_real]; exact_mod_cast h0
  have hcen := C140_centroid (c.map real) hs []
  obtain ⟨g, hg', hl⟩ := C140_left (c.map real) hs []
  have hcen := Prod.ext_iff.1 (pt_inj (Except.ok.inj (hg'.symm.trans hcen)))
  have hg' := Prod.ext_iff.1 (pt_inj (Except.ok.inj ((C34_centroid_fan (real (0, 0)) _ [] h0').symm.trans hg')))
  rw [(fanMoment_real _ c).1, (fanMoment_real _ c).2, fanArea_real] at hg'
  simp only at hcen hg'
  have hw : ∀ v ∈ c.map real, |v.1| ≤ M ∧ |v.2| ≤ M := by
    intro v hv'
    obtain ⟨w, hw, rfl⟩ := List.mem_map.1 hv'
    have := atAll_within hc w (List.mem_append_left _ hw)
    refine ⟨?_, ?_⟩
    · show |((w.1 : ℚ) : ℝ)| ≤ M
      exact_mod_cast this.1
    · show |((w.2 : ℚ) : ℝ)| ≤ M
      exact_mod_cast this.2
  have a := hl (-M, 1) (-M, 0) fun v hv' => by have := abs_le.1 (hw v hv').1; simp only [turn]; linarith
  have b := hl (M, 0) (M, 1) fun v hv' => by have := abs_le.1 (hw v hv').1; simp only [turn]; linarith
  have a' := hl (0, -M) (1, -M) fun v hv' => by have := abs_le.1 (hw v hv').2; simp only [turn]; linarith
  have b' := hl (1, M) (0, M) fun v hv' => by have := abs_le.1 (hw v hv').2; simp only [turn]; linarith
  simp only [turn] at a b a' b'
  have gx : |g.1| ≤ M := abs_le.2 ⟨by linarith, by linarith⟩
  have gy : |g.2| ≤ M := abs_le.2 ⟨by linarith, by linarith⟩
  rw [← hg'.1] at gx
  rw [← hg'.2] at gy
  have hb' : (c.length : ℚ) * (c.length + 8) * (M * M) ≤ |fanArea (0, 0) c| * 2 ^ 50 := by
    rw [div_le_iff₀ (by positivity), ← hg] at hbig
    exact_mod_cast hbig
  obtain ⟨q, x, y, hq, hat, ex, ey⟩ := C119_polygon hc h1 h2 hn (0, 0) holes h0 hb'
  have loose : ∀ m : ℚ, |m| ≤ M → 2 * (c.length : ℚ) * (c.length + 8) * (M * M) * (M + |m|) / |fanArea (0, 0) c| / 2 ^ 53 ≤
      4 * c.length * (c.length + 8) * (M * M * M) / 2 ^ 53 / |fanArea (0, 0) c| := by
    intro m hm
    have e : 4 * (c.length : ℚ) * (c.length + 8) * (M * M * M) / 2 ^ 53 / |fanArea (0, 0) c| =
        2 * (c.length : ℚ) * (c.length + 8) * (M * M) * (M + M) / |fanArea (0, 0) c| / 2 ^ 53 := by ring
    rw [e]
    gcongr
  have ex := ex.trans (loose _ (by exact_mod_cast gx))
  have ey := ey.trans (loose _ (by exact_mod_cast gy))
  refine ⟨q, x, y, hq, hat, ?_, ?_⟩
  · rw [← hcen.1, ← hg'.1, ← hg]
    exact_mod_cast ex
  · rw [← hcen.2, ← hg'.2, ← hg]
    exact_mod_cast ey

end

/-- non-vacuity: the dart `(0,0) (4,0) (1,1) (0,4)`, whose inside has measure 4 -/
example : IsCCW [[fpt 0 0, fpt 4 0, fpt 1 1, fpt 0 4, fpt 0 0]] = true ∧ (∀ z, ¬ OnRing dart z → EvenOdd dart z → winding dart z = 1) ∧
    ∃ (g : Point Float) (x y : ℚ), Centroid (.polygon [[fpt 0 0, fpt 4 0, fpt 1 1, fpt 0 4, fpt 0 0]]) = .ok g ∧ At g (x, y) ∧
      |(x : ℝ) - ⨍ z in {z | EvenOdd dart z}, z.1| ≤ 4 * 4 * (4 + 8) * (4 * 4 * 4) / 2 ^ 53 / 4 ∧
      |(y : ℝ) - ⨍ z in {z | EvenOdd dart z}, z.2| ≤ 4 * 4 * (4 + 8) * (4 * 4 * 4) / 2 ^ 53 / 4 := by
  have hc := fpt_all 4 (by norm_num) [(0, 0), (4, 0), (1, 1), (0, 4), (0, 0)] (by decide)
  have hc' : AtAll (4 : ℚ) [fpt 0 0, fpt 4 0, fpt 1 1, fpt 0 4, fpt 0 0]
      ([((0 : ℚ), (0 : ℚ)), (4, 0), (1, 1), (0, 4)] ++ [((0 : ℚ), (0 : ℚ)), (4, 0), (1, 1), (0, 4)].take 1) := by simpa using hc
  have hd : ([((0 : ℚ), (0 : ℚ)), (4, 0), (1, 1), (0, 4)] : List (ℚ × ℚ)).map real = dart := by norm_num [real, dart]
  have hs : SimpleRing (([((0 : ℚ), (0 : ℚ)), (4, 0), (1, 1), (0, 4)] : List (ℚ × ℚ)).map real) := by rw [hd]; exact dart_simple
  have hv : (volume {z | EvenOdd dart z}).toReal = 4 := by
    obtain ⟨A, hA, hv, hg, -⟩ := C140_area dart dart_simple []
    rw [(C32_area_fan (0, 0) dart []).1, XR.fin.injEq] at hg
    rw [hv, ENNReal.toReal_ofReal hA.le, ← hg]
    norm_num [dart, fanArea, cycSum, turn]
  have hcc : IsCCW [[fpt 0 0, fpt 4 0, fpt 1 1, fpt 0 4, fpt 0 0]] = true := by decide +kernel
  refine ⟨hcc, ?_, ?_⟩
  · intro z hz hin
    have := C144_ccw hc' (by norm_num) (by norm_num) (by norm_num) hs [] (by rw [hd, hv]; norm_num) z (by rw [hd]; exact hz) (by rw [hd]; exact hin)
    rwa [hd, hcc, if_pos rfl] at this
  · have := C144_centroid hc' (by norm_num) (by norm_num) (by norm_num) hs [] (by rw [hd, hv]; norm_num)
    rw [hd, hv] at this
    simpa using this

end GoGeo.Region
