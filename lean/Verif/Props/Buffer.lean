import Verif.Props.Angle
import Verif.Props.Measure
import Mathlib.Analysis.SpecialFunctions.Complex.Arg

/-!
# C139: the region of a buffer
-/

namespace GoGeo
open GoFloat Spec Real

/-- the point at the angle of `x` steps of 15° on the circle of radius `w` around `c` -/
noncomputable def onCircle (c : ℝ × ℝ) (w x : ℝ) : ℝ × ℝ := (c.1 + w * cos (x * (π / 12)), c.2 + w * sin (x * (π / 12)))

/-- the 24 corners of the buffer -/
noncomputable def corners24 (c : ℝ × ℝ) (w : ℝ) : List (ℝ × ℝ) := (List.range 24).map fun k : ℕ => onCircle c w k

theorem onCircle_24 (c : ℝ × ℝ) (w : ℝ) : onCircle c w (24 : ℕ) = onCircle c w (0 : ℕ) := by
  unfold onCircle
  rw [show ((24 : ℕ) : ℝ) * (π / 12) = 2 * π by push_cast; ring]
  simp

theorem corners24_sides (c : ℝ × ℝ) (w : ℝ) : sides (corners24 c w) = (List.range 24).map fun k : ℕ => (onCircle c w k, onCircle c w (k + 1 : ℕ)) := by
  have h : ∀ f : ℕ → ℝ × ℝ, f 24 = f 0 → sides ((List.range 24).map f) = (List.range 24).map fun k => (f k, f (k + 1)) := by
    intro f hf
    have : (List.range 24).map (fun k => (f k, f (k + 1))) = (List.range 23).map (fun k => (f k, f (k + 1))) ++ [(f 23, f 24)] := rfl
    rw [this, hf]
    rfl
  exact h (fun k => onCircle c w k) (onCircle_24 c w)

theorem buffer_ring (c : ℝ × ℝ) (w : ℝ) (hw : 0 ≤ w) (fuel : ℕ) (hf : 26 ≤ fuel) :
    pointBuffer (F := XR ℝ) fuel (pt c) (.fin w) = .ok (some (ring (corners24 c w))) := by
  rw [C52_buffer c w hw fuel hf]
  congr 2
  have h : ∀ f : ℕ → ℝ × ℝ, f 24 = f 0 → (List.range 25).map (fun k => pt (f k)) = ring ((List.range 24).map f) := by
    intro f hf
    have : (List.range 25).map (fun k => pt (f k)) = (List.range 24).map (fun k => pt (f k)) ++ [pt (f 24)] := rfl
    rw [this, hf]
    rfl
  exact h (fun k => onCircle c w k) (onCircle_24 c w)

/-- where a point is relative to a side, in polar coordinates around the centre -/
theorem turn_polar (c : ℝ × ℝ) (w : ℝ) (k : ℕ) (ρ φ : ℝ) :
    turn (onCircle c w k) (onCircle c w (k + 1 : ℕ)) (c.1 + ρ * cos φ, c.2 + ρ * sin φ) =
      2 * w * sin (π / 24) * (w * cos (π / 24) - ρ * cos (φ - (k + 1 / 2) * (π / 12))) := by
  set a : ℝ := (k + 1 / 2) * (π / 12) with ha
  have e1 : (k : ℝ) * (π / 12) = a - π / 24 := by rw [ha]; ring
  have e2 : ((k + 1 : ℕ) : ℝ) * (π / 12) = a + π / 24 := by rw [ha]; push_cast; ring
  unfold turn onCircle
  rw [e1, e2, cos_sub, sin_sub, cos_add, sin_add, cos_sub]
  have h := sin_sq_add_cos_sq a
  linear_combination (2 * w ^ 2 * sin (π / 24) * cos (π / 24)) * h

theorem turn_centre (c : ℝ × ℝ) (w : ℝ) (k : ℕ) : turn c (onCircle c w k) (onCircle c w (k + 1 : ℕ)) = w ^ 2 * sin (π / 12) := by
  have e2 : ((k + 1 : ℕ) : ℝ) * (π / 12) = k * (π / 12) + π / 12 := by push_cast; ring
  unfold turn onCircle
  rw [e2, cos_add, sin_add]
  have h := sin_sq_add_cos_sq ((k : ℝ) * (π / 12))
  linear_combination (w ^ 2 * sin (π / 12)) * h

theorem polar (c p : ℝ × ℝ) : ∃ φ, p = (c.1 + eucl p c * cos φ, c.2 + eucl p c * sin φ) := by
  refine ⟨Complex.arg ⟨p.1 - c.1, p.2 - c.2⟩, ?_⟩
  have h : eucl p c = ‖(⟨p.1 - c.1, p.2 - c.2⟩ : ℂ)‖ := by
    rw [Complex.norm_eq_sqrt_sq_add_sq]; rfl
  rw [h, Complex.norm_mul_cos_arg, Complex.norm_mul_sin_arg]
  ext <;> simp

theorem sin24_pos : 0 < sin (π / 24) := sin_pos_of_pos_of_lt_pi (by positivity) (by linarith [pi_pos])
theorem cos24_pos : 0 < cos (π / 24) := cos_pos_of_mem_Ioo ⟨by linarith [pi_pos], by linarith [pi_pos]⟩

/-- left of all sides of the buffer: nearer to the centre than the sides in all 24 directions -/
theorem inside_buffer (c : ℝ × ℝ) (w : ℝ) (hw : 0 < w) (ρ φ : ℝ) : InsideConvex (corners24 c w) (c.1 + ρ * cos φ, c.2 + ρ * sin φ) ↔
    ∀ k : ℕ, k < 24 → ρ * cos (φ - (k + 1 / 2) * (π / 12)) < w * cos (π / 24) := by
  unfold InsideConvex
  rw [corners24_sides]
  constructor
  · intro h k hk
    have := h _ (List.mem_map.2 ⟨k, List.mem_range.2 hk, rfl⟩)
    rw [turn_polar] at this
    have h2 : 0 < 2 * w * sin (π / 24) := by have := sin24_pos; positivity
    have := (mul_pos_iff_of_pos_left h2).1 this
    linarith
  · intro h e he
    obtain ⟨k, hk, rfl⟩ := List.mem_map.1 he
    have := h k (List.mem_range.1 hk)
    show 0 < turn (onCircle c w k) (onCircle c w (k + 1 : ℕ)) _
    rw [turn_polar]
    have h2 : 0 < 2 * w * sin (π / 24) := by have := sin24_pos; positivity
    exact mul_pos h2 (by linarith)

/-- **C139 (region).** The region of the buffer of width `w > 0` around `c` lies within the disk of radius `w` and contains
the disk of radius `w · cos 7.5°`. -/
theorem C139_region (c : ℝ × ℝ) (w : ℝ) (hw : 0 < w) (fuel : ℕ) (hf : 26 ≤ fuel) : ∃ r : List (ℝ × ℝ),
    pointBuffer (F := XR ℝ) fuel (pt c) (.fin w) = .ok (some (ring r)) ∧
    (∀ p, InsideConvex r p → eucl p c < w) ∧ (∀ p, eucl p c < w * cos (π / 24) → InsideConvex r p) := by
  refine ⟨corners24 c w, buffer_ring c w hw.le fuel hf, fun p hp => ?_, fun p hp => ?_⟩
  · obtain ⟨φ, h⟩ := polar c p
    rw [h] at hp
    rw [inside_buffer c w hw] at hp
    set m := ⌊φ / (π / 12)⌋ with hm
    have hγ : 0 < π / 12 := by positivity
    have h1 : (m : ℝ) * (π / 12) ≤ φ := (le_div_iff₀ hγ).1 (Int.floor_le _)
    have h2 : φ < (m + 1 : ℝ) * (π / 12) := (div_lt_iff₀ hγ).1 (Int.lt_floor_add_one _)
    have hk : (m % 24).toNat < 24 := by omega
    have h3 := hp _ hk
    have e : (((m % 24).toNat : ℕ) : ℝ) = m - 24 * ((m / 24 : ℤ) : ℝ) := by
      have : (((m % 24).toNat : ℕ) : ℤ) = m - 24 * (m / 24) := by omega
      exact_mod_cast this
    rw [e, show φ - ((m : ℝ) - 24 * ((m / 24 : ℤ) : ℝ) + 1 / 2) * (π / 12) = (φ - (m + 1 / 2) * (π / 12)) + ((m / 24 : ℤ) : ℝ) * (2 * π) by ring,
      cos_add_int_mul_two_pi] at h3
    have h4 : cos (π / 24) ≤ cos (φ - (m + 1 / 2) * (π / 12)) := by
      rw [← cos_abs (φ - (m + 1 / 2) * (π / 12))]
      refine cos_le_cos_of_nonneg_of_le_pi (abs_nonneg _) (by linarith [pi_pos]) (abs_le.2 ⟨by linarith, by linarith⟩)
    have h5 := mul_le_mul_of_nonneg_left h4 (eucl_nonneg p c)
    have h6 : eucl p c * cos (π / 24) < w * cos (π / 24) := by linarith
    exact lt_of_mul_lt_mul_right h6 cos24_pos.le
  · obtain ⟨φ, h⟩ := polar c p
    rw [h, inside_buffer c w hw]
    intro k _
    have h5 := mul_le_mul_of_nonneg_left (cos_le_one (φ - (k + 1 / 2) * (π / 12))) (eucl_nonneg p c)
    linarith

theorem circle_turn (c : ℝ × ℝ) (w : ℝ) (k j : ℕ) :
    turn (onCircle c w k) (onCircle c w (k + 1 : ℕ)) (onCircle c w j) =
      4 * w ^ 2 * sin (π / 24) * (sin ((j - k : ℝ) * (π / 24)) * sin ((j - (k + 1) : ℝ) * (π / 24))) := by
  have := turn_polar c w k w (j * (π / 12))
  have e : (c.1 + w * cos (j * (π / 12)), c.2 + w * sin (j * (π / 12))) = onCircle c w j := rfl
  rw [e] at this
  rw [this]
  have h := cos_sub_cos (π / 24) (j * (π / 12) - (k + 1 / 2) * (π / 12))
  rw [show (π / 24 + (j * (π / 12) - (k + 1 / 2) * (π / 12))) / 2 = (j - k : ℝ) * (π / 24) by ring,
    show (π / 24 - (j * (π / 12) - (k + 1 / 2) * (π / 12))) / 2 = -((j - (k + 1) : ℝ) * (π / 24)) by ring, sin_neg] at h
  linear_combination (2 * w ^ 2 * sin (π / 24)) * h

theorem circle_turn_pos (c : ℝ × ℝ) (w : ℝ) (hw : 0 < w) (k j : ℕ) (hk : k < 24) (hj : j < 24) (h1 : j ≠ k) (h2 : j ≠ k + 1)
    (h3 : ¬ (k = 23 ∧ j = 0)) : 0 < turn (onCircle c w k) (onCircle c w (k + 1 : ℕ)) (onCircle c w j) := by
  rw [circle_turn]
  refine mul_pos (by have := sin24_pos; positivity) ?_
  have hpi := pi_pos
  rcases Nat.lt_or_ge j k with h | h
  · have a1 : (j : ℝ) + 1 ≤ k := by exact_mod_cast h
    have a2 : (k : ℝ) + 1 < j + 24 := by exact_mod_cast (by omega : k + 1 < j + 24)
    apply mul_pos_of_neg_of_neg
    · apply sin_neg_of_neg_of_neg_pi_lt
      · nlinarith
      · nlinarith
    · apply sin_neg_of_neg_of_neg_pi_lt
      · nlinarith
      · nlinarith
  · have a1 : (k : ℝ) + 2 ≤ j := by exact_mod_cast (by omega : k + 2 ≤ j)
    have a2 : (j : ℝ) < k + 24 := by exact_mod_cast (by omega : j < k + 24)
    apply mul_pos
    · apply sin_pos_of_pos_of_lt_pi
      · nlinarith
      · nlinarith
    · apply sin_pos_of_pos_of_lt_pi
      · nlinarith
      · nlinarith

theorem onCircle_inj (c : ℝ × ℝ) (w : ℝ) (hw : 0 < w) (k j : ℕ) (hj : j < 24) (hkj : k < j) : onCircle c w k ≠ onCircle c w j := by
  intro h
  have hpi := pi_pos
  have e1 := congrArg Prod.fst h
  have e2 := congrArg Prod.snd h
  simp only [onCircle] at e1 e2
  have c1 : cos (k * (π / 12)) = cos (j * (π / 12)) := mul_left_cancel₀ hw.ne' (by linarith)
  have c2 : sin (k * (π / 12)) = sin (j * (π / 12)) := mul_left_cancel₀ hw.ne' (by linarith)
  have a1 : (k : ℝ) + 1 ≤ j := by exact_mod_cast hkj
  have a2 : (j : ℝ) + 1 ≤ 24 := by exact_mod_cast hj
  have a3 : (0 : ℝ) ≤ k := Nat.cast_nonneg k
  have h1 : cos (j * (π / 12) - k * (π / 12)) = 1 := by
    rw [cos_sub, c1, c2]
    nlinarith [sin_sq_add_cos_sq ((j : ℝ) * (π / 12))]
  have h2 := (cos_eq_one_iff_of_lt_of_lt (by nlinarith) (by nlinarith)).1 h1
  nlinarith

theorem corners24_convex (c : ℝ × ℝ) (w : ℝ) (hw : 0 < w) : StrictlyConvex (corners24 c w) := by
  refine ⟨by simp [corners24], ?_, ?_⟩
  · unfold corners24
    rw [List.Nodup, List.pairwise_map]
    refine List.pairwise_lt_range.imp_of_mem ?_
    intro a b _ hb hab
    exact onCircle_inj c w hw a b (List.mem_range.1 hb) hab
  · intro e he v hv h1 h2
    rw [corners24_sides] at he
    obtain ⟨k, hk, rfl⟩ := List.mem_map.1 he
    obtain ⟨j, hj, rfl⟩ := List.mem_map.1 hv
    refine circle_turn_pos c w hw k j (List.mem_range.1 hk) (List.mem_range.1 hj) ?_ ?_ ?_
    · rintro rfl; exact h1 rfl
    · rintro rfl; exact h2 rfl
    · rintro ⟨rfl, rfl⟩; exact h2 (onCircle_24 c w).symm

theorem cycSum_sides (f : ℝ × ℝ → ℝ × ℝ → ℝ) (l : List (ℝ × ℝ)) : cycSum f l = ((sides l).map fun e => f e.1 e.2).sum := by
  unfold cycSum sides
  rw [List.zip_eq_zipWith, List.map_zipWith]

theorem fanArea_buffer (c : ℝ × ℝ) (w : ℝ) : fanArea c (corners24 c w) = 12 * w ^ 2 * sin (π / 12) := by
  unfold fanArea
  rw [cycSum_sides, corners24_sides, List.map_map]
  have : (List.range 24).map ((fun e : (ℝ × ℝ) × (ℝ × ℝ) => turn c e.1 e.2 / 2) ∘ fun k : ℕ => (onCircle c w k, onCircle c w (k + 1 : ℕ))) =
      (List.range 24).map fun _ => w ^ 2 * sin (π / 12) / 2 := by
    apply List.map_congr_left
    intro k _
    simp only [Function.comp, turn_centre]
  rw [this]
  simp
  ring

theorem sum_cos24 (g : ℕ → ℝ) (hg : ∀ k, g (k + 12) = - g k) : ((List.range 24).map fun k => g k + g (k + 1)).sum = 0 := by
  have h := fun k => hg k
  have e : ((List.range 24).map fun k => g k + g (k + 1)) =
      (List.range 12).map (fun k => g k + g (k + 1)) ++ (List.range 12).map (fun k => g (k + 12) + g (k + 1 + 12)) := rfl
  rw [e, List.sum_append]
  have e2 : (List.range 12).map (fun k => g (k + 12) + g (k + 1 + 12)) = (List.range 12).map (fun k => -(g k + g (k + 1))) := by
    apply List.map_congr_left
    intro k _
    rw [hg, hg]; ring
  rw [e2, ← List.sum_map_add]
  simp

theorem moment_buffer (c : ℝ × ℝ) (w o : ℝ) (g : ℕ → ℝ) (hg : ∀ k, g (k + 12) = - g k) (x : ℝ × ℝ → ℝ) (hx : ∀ k : ℕ, x (onCircle c w k) = o + w * g k) :
    cycSum (fun p q => turn c p q / 2 * ((o + x p + x q) / 3)) (corners24 c w) = o * (12 * w ^ 2 * sin (π / 12)) := by
  rw [cycSum_sides, corners24_sides, List.map_map]
  have : (List.range 24).map ((fun e : (ℝ × ℝ) × (ℝ × ℝ) => turn c e.1 e.2 / 2 * ((o + x e.1 + x e.2) / 3)) ∘
      fun k : ℕ => (onCircle c w k, onCircle c w (k + 1 : ℕ))) =
      (List.range 24).map fun k => o * (w ^ 2 * sin (π / 12) / 2) + w ^ 3 * sin (π / 12) / 6 * (g k + g (k + 1)) := by
    apply List.map_congr_left
    intro k _
    simp only [Function.comp, turn_centre, hx]
    ring
  rw [this, List.sum_map_add, List.sum_map_mul_left, List.sum_map_mul_left, sum_cos24 g hg]
  simp only [List.map_const', List.length_range, List.sum_replicate, nsmul_eq_mul]
  push_cast
  ring

theorem cos_half (k : ℕ) : cos ((k + 12 : ℕ) * (π / 12)) = - cos (k * (π / 12)) := by
  rw [show ((k + 12 : ℕ) : ℝ) * (π / 12) = k * (π / 12) + π by push_cast; ring, cos_add_pi]

theorem sin_half (k : ℕ) : sin ((k + 12 : ℕ) * (π / 12)) = - sin (k * (π / 12)) := by
  rw [show ((k + 12 : ℕ) : ℝ) * (π / 12) = k * (π / 12) + π by push_cast; ring, sin_add_pi]

/-- **C139 (area and centroid).** The buffer of width `w > 0` around `c` is a strictly convex polygon, counter-clockwise, with area
`12 w² sin 15°` and centroid `c`. -/
theorem C139_area (c : ℝ × ℝ) (w : ℝ) (hw : 0 < w) (fuel : ℕ) (hf : 26 ≤ fuel) : ∃ r : List (ℝ × ℝ),
    pointBuffer (F := XR ℝ) fuel (pt c) (.fin w) = .ok (some (ring r)) ∧ StrictlyConvex r ∧ IsCCW [ring r] = true ∧
    GetArea (.polygon [ring r]) = .fin (12 * w ^ 2 * sin (π / 12)) ∧ Centroid (.polygon [ring r]) = .ok (pt c) := by
  have hs : 0 < sin (π / 12) := sin_pos_of_pos_of_lt_pi (by positivity) (by linarith [pi_pos])
  have hA : 0 < fanArea c (corners24 c w) := by rw [fanArea_buffer]; positivity
  refine ⟨corners24 c w, buffer_ring c w hw.le fuel hf, corners24_convex c w hw, (C32_area_fan c _ []).2.2 hA, ?_, ?_⟩
  · rw [(C32_area_fan c _ []).1, abs_of_pos hA, fanArea_buffer]
  · rw [C34_centroid_fan c _ [] hA.ne']
    have h1 : fanMomentX c (corners24 c w) = c.1 * (12 * w ^ 2 * sin (π / 12)) :=
      moment_buffer c w c.1 (fun k => cos (k * (π / 12))) cos_half Prod.fst (fun _ => rfl)
    have h2 : fanMomentY c (corners24 c w) = c.2 * (12 * w ^ 2 * sin (π / 12)) :=
      moment_buffer c w c.2 (fun k => sin (k * (π / 12))) sin_half Prod.snd (fun _ => rfl)
    rw [← fanArea_buffer c w] at h1 h2
    rw [h1, h2, mul_div_cancel_right₀ _ hA.ne', mul_div_cancel_right₀ _ hA.ne']

/-- **C139 (against the disk).** The area of the buffer is between 98.8 % of the area of the disk and all of it. -/
theorem C139_disk (w : ℝ) (hw : 0 < w) : 988 / 1000 * (π * w ^ 2) < 12 * w ^ 2 * sin (π / 12) ∧ 12 * w ^ 2 * sin (π / 12) < π * w ^ 2 := by
  have h1 := sin_lt (x := π / 12) (by positivity)
  have h2 := sin_gt_sub_cube (x := π / 12) (by positivity)
  have hw2 : 0 < w ^ 2 := by positivity
  have h3 := pi_lt_d2
  have h4 := pi_gt_d2
  constructor
  · have h5 : π ^ 2 < 10 := by nlinarith
    have h6 : π ^ 3 < 10 * π := by nlinarith
    have : 988 / 1000 * π < 12 * sin (π / 12) := by
      have e : 12 * (π / 12 - (π / 12) ^ 3 / 6) = π - π ^ 3 / 864 := by ring
      linarith
    nlinarith
  · nlinarith

end GoGeo
