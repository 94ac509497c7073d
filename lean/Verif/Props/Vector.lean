import Verif.Props.Angle
import Verif.Props.Grid
import Verif.Go.F64Near
import Verif.Spec.Numeral

/-!
# Vector arithmetic: C117
-/

namespace GoGeo
open GoFloat FloatVal Spec Real

/-- the vector with the given coordinates, in exact arithmetic -/
def vec (u : ℝ × ℝ) : Vector2 (XR ℝ) := ⟨.fin u.1, .fin u.2⟩

/-- the value a float64 vector stands for -/
def VecAt (v : Vector2 Float) (u : ℚ × ℚ) : Prop := val v.X = .fin u.1 ∧ val v.Y = .fin u.2

/-! ## exact arithmetic -/

/-- **C117.** In exact arithmetic `Add`, `Sub`, `Multiply` and `Divide` are the operations of the plane as a vector space: sum, difference and the multiples by `k` and `1/k`. -/
theorem C117_space (u w : ℝ × ℝ) (k : ℝ) :
    (vec u).Add (vec w) = vec (u + w) ∧ (vec u).Sub (vec w) = vec (u - w) ∧ (vec u).Multiply (.fin k) = vec (k • u) ∧
      (k ≠ 0 → (vec u).Divide (.fin k) = .ok (vec (k⁻¹ • u))) ∧ (vec u).Divide (.fin 0) = .error .explicit := by
  refine ⟨rfl, rfl, ?_, fun hk => ?_, ?_⟩
  · unfold Vector2.Multiply vec
    simp only [XR.fin_mul, Prod.smul_fst, Prod.smul_snd, smul_eq_mul, mul_comm]
  · unfold Vector2.Divide
    rw [if_neg (by rw [XR.fin_lit, XR.fin_eq]; simpa using hk)]
    unfold Vector2.Multiply vec
    simp only [XR.fin_lit, Nat.cast_one]
    rw [XR.fin_div _ _ hk]
    simp only [XR.fin_mul, Prod.smul_fst, Prod.smul_snd, smul_eq_mul, one_div, mul_comm]
  · unfold Vector2.Divide
    rw [if_pos (by rw [XR.fin_lit, XR.fin_eq]; simp)]

theorem len_fin (u : ℝ × ℝ) : (vec u).Length = .fin √(u.1 * u.1 + u.2 * u.2) := vecLength_fin _ _

theorem lenSq_fin (u : ℝ × ℝ) : (vec u).LengthSq = .fin (u.1 * u.1 + u.2 * u.2) := rfl

/-- **C117.** Whatever is added can be subtracted again, a sum does not depend on the order, and a vector divided by `k` and multiplied by `k` is unchanged. -/
theorem C117_inverse (u w t : ℝ × ℝ) (k : ℝ) (hk : k ≠ 0) :
    ((vec u).Add (vec w)).Sub (vec w) = vec u ∧ (vec u).Add (vec w) = (vec w).Add (vec u) ∧
      ((vec u).Add (vec w)).Add (vec t) = (vec u).Add ((vec w).Add (vec t)) ∧
      ((vec u).Divide (.fin k)).map (fun v => v.Multiply (.fin k)) = .ok (vec u) ∧
      ((vec u).Add (vec w)).Multiply (.fin k) = ((vec u).Multiply (.fin k)).Add ((vec w).Multiply (.fin k)) := by
  have h1 := C117_space (u + w) w k
  have h2 := C117_space u w k
  have h3 := C117_space w u k
  have h4 := C117_space (u + w) t k
  have h5 := C117_space w t k
  have h6 := C117_space u (w + t) k
  have h7 := C117_space (k⁻¹ • u) w k
  have h8 := C117_space (k • u) (k • w) k
  refine ⟨?_, ?_, ?_, ?_, ?_⟩
  · rw [h2.1, h1.2.1, add_sub_cancel_right]
  · rw [h2.1, h3.1, add_comm]
  · rw [h2.1, h4.1, h5.1, h6.1, add_assoc]
  · rw [h2.2.2.2.1 hk]
    show Except.ok _ = _
    beta_reduce
    rw [h7.2.2.1, smul_smul, mul_inv_cancel₀ hk, one_smul]
  · rw [h2.1, h1.2.2.1, h2.2.2.1, h3.2.2.1, h8.1, smul_add]

/-- **C117.** `Length` is the distance of the point from the origin and `LengthSq` its square; `LengthSq` is the dot product of the vector with itself. -/
theorem C117_length (u : ℝ × ℝ) : (vec u).Length = .fin (eucl u 0) ∧ (vec u).LengthSq = .fin (eucl u 0 ^ 2) ∧ (vec u).LengthSq = (vec u).Dot (vec u) := by
  have h : eucl u 0 = √(u.1 * u.1 + u.2 * u.2) := by
    unfold eucl
    congr 1
    simp only [Prod.fst_zero, Prod.snd_zero]
    ring
  refine ⟨by rw [len_fin, h], ?_, rfl⟩
  rw [lenSq_fin, h, sq_sqrt (add_nonneg (mul_self_nonneg _) (mul_self_nonneg _))]

/-- **C117.** The dot product is zero exactly for perpendicular vectors (Pythagoras: the square of the length of the sum is the sum of the squares),
the cross product exactly for parallel ones (one is a multiple of the other); the dot product is symmetric and the cross product changes its sign when the
vectors are exchanged. -/
theorem C117_products (u w : ℝ × ℝ) : ∃ d c : ℝ, (vec u).Dot (vec w) = .fin d ∧ (vec w).Dot (vec u) = .fin d ∧
    (vec u).Cross (vec w) = .fin c ∧ (vec w).Cross (vec u) = .fin (-c) ∧
    (d = 0 ↔ eucl (u + w) 0 ^ 2 = eucl u 0 ^ 2 + eucl w 0 ^ 2) ∧ (c = 0 ↔ (∃ k : ℝ, u = k • w) ∨ ∃ k : ℝ, w = k • u) ∧
    d ^ 2 + c ^ 2 = (eucl u 0 * eucl w 0) ^ 2 := by
  have e : ∀ v : ℝ × ℝ, eucl v 0 ^ 2 = v.1 ^ 2 + v.2 ^ 2 := fun v => by
    unfold eucl
    rw [sq_sqrt (add_nonneg (sq_nonneg _) (sq_nonneg _))]
    simp
  refine ⟨u.1 * w.1 + u.2 * w.2, u.1 * w.2 - u.2 * w.1, rfl, ?_, rfl, ?_, ?_, ?_, ?_⟩
  · show XR.fin _ = _
    congr 1; ring
  · show XR.fin _ = _
    congr 1; ring
  · rw [e, e, e]
    simp only [Prod.fst_add, Prod.snd_add]
    constructor <;> intro h <;> nlinarith
  · constructor
    · intro h
      by_cases hu : u = 0
      · exact .inl ⟨0, by rw [hu, zero_smul]⟩
      · have hp : u.1 ^ 2 + u.2 ^ 2 ≠ 0 := by
          intro h0
          have h1 : u.1 = 0 := by nlinarith [sq_nonneg u.1, sq_nonneg u.2]
          have h2 : u.2 = 0 := by nlinarith [sq_nonneg u.1, sq_nonneg u.2]
          exact hu (Prod.ext h1 h2)
        refine .inr ⟨(u.1 * w.1 + u.2 * w.2) / (u.1 ^ 2 + u.2 ^ 2), Prod.ext ?_ ?_⟩
        · simp only [Prod.smul_fst, smul_eq_mul]
          rw [div_mul_eq_mul_div, eq_div_iff hp]
          linear_combination -u.2 * h
        · simp only [Prod.smul_snd, smul_eq_mul]
          rw [div_mul_eq_mul_div, eq_div_iff hp]
          linear_combination u.1 * h
    · rintro (⟨k, rfl⟩ | ⟨k, rfl⟩) <;> simp only [Prod.smul_fst, Prod.smul_snd, smul_eq_mul] <;> ring
  · rw [mul_pow, e, e]; ring

/-- **C117.** The length of a sum is at most the sum of the lengths, and multiplying by `k` multiplies the length by `|k|`. -/
theorem C117_triangle (u w : ℝ × ℝ) (k : ℝ) : ∃ a b s m : ℝ, (vec u).Length = .fin a ∧ (vec w).Length = .fin b ∧ ((vec u).Add (vec w)).Length = .fin s ∧
    ((vec u).Multiply (.fin k)).Length = .fin m ∧ s ≤ a + b ∧ m = |k| * a := by
  refine ⟨_, _, _, _, len_fin u, len_fin w, by rw [(C117_space u w k).1, len_fin], by rw [(C117_space u w k).2.2.1, len_fin], ?_, ?_⟩
  · have nn : ∀ v : ℝ × ℝ, 0 ≤ v.1 * v.1 + v.2 * v.2 := fun v => add_nonneg (mul_self_nonneg _) (mul_self_nonneg _)
    have hu := sq_sqrt (nn u)
    have hw := sq_sqrt (nn w)
    have pu := sqrt_nonneg (u.1 * u.1 + u.2 * u.2)
    have pw := sqrt_nonneg (w.1 * w.1 + w.2 * w.2)
    rw [sqrt_le_left (by positivity)]
    set a := √(u.1 * u.1 + u.2 * u.2)
    set b := √(w.1 * w.1 + w.2 * w.2)
    have h : u.1 * w.1 + u.2 * w.2 ≤ a * b := by
      apply abs_le_of_sq_le_sq' _ (by positivity) |>.2
      rw [mul_pow, hu, hw]
      nlinarith [sq_nonneg (u.1 * w.2 - u.2 * w.1)]
    simp only [Prod.fst_add, Prod.snd_add]
    nlinarith
  · simp only [Prod.smul_fst, Prod.smul_snd, smul_eq_mul]
    rw [show k * u.1 * (k * u.1) + k * u.2 * (k * u.2) = k ^ 2 * (u.1 * u.1 + u.2 * u.2) by ring, sqrt_mul (sq_nonneg k), sqrt_sq_eq_abs]

example : ∃ d c : ℝ, (vec (3, 4)).Dot (vec (-4, 3)) = .fin d ∧ (vec (3, 4)).Cross (vec (-4, 3)) = .fin c ∧ d = 0 ∧ c ≠ 0 := by
  obtain ⟨d, c, h1, -, h2, -, h3, h4, -⟩ := C117_products (3, 4) (-4, 3)
  refine ⟨d, c, h1, h2, h3.2 ?_, fun h => ?_⟩
  · unfold eucl
    rw [sq_sqrt (by positivity), sq_sqrt (by positivity), sq_sqrt (by positivity)]
    norm_num
  · rcases h4.1 h with ⟨k, hk⟩ | ⟨k, hk⟩
    · have a := congrArg Prod.fst hk
      have b := congrArg Prod.snd hk
      simp at a b
      nlinarith
    · have a := congrArg Prod.fst hk
      have b := congrArg Prod.snd hk
      simp at a b
      nlinarith

/-! ## float64 -/

theorem nearest_of_rnd {f : Float} {q : ℚ} (hf : val f = F64.rndX (.fin q)) (hq : InRange q) : IsNearest f q := by
  obtain ⟨r, hr⟩ := (F64.rndX_fin_iff q).2 hq
  exact ⟨r, hf.trans hr, fun y w hy => F64.rndX_nearest hr y hy⟩

/-- **C117, float64.** Every coordinate of a sum, a difference or a multiple is a `float64` nearest to the exact result, when that is in range. -/
theorem C117_float (v w : Vector2 Float) (k : Float) (u x : ℚ × ℚ) (c : ℚ) (hv : VecAt v u) (hw : VecAt w x) (hk : val k = .fin c) :
    (InRange (u.1 + x.1) → IsNearest (v.Add w).X (u.1 + x.1)) ∧ (InRange (u.2 + x.2) → IsNearest (v.Add w).Y (u.2 + x.2)) ∧
    (InRange (u.1 - x.1) → IsNearest (v.Sub w).X (u.1 - x.1)) ∧ (InRange (u.2 - x.2) → IsNearest (v.Sub w).Y (u.2 - x.2)) ∧
    (InRange (u.1 * c) → IsNearest (v.Multiply k).X (u.1 * c)) ∧ (InRange (u.2 * c) → IsNearest (v.Multiply k).Y (u.2 * c)) := by
  have a : ∀ {f g : Float} {y z : ℚ}, val f = .fin y → val g = .fin z → InRange (y + z) → IsNearest (f + g) (y + z) := fun {f g y z} hf hg h =>
    nearest_of_rnd (by rw [val_add, hf, hg]; rfl) h
  have s : ∀ {f g : Float} {y z : ℚ}, val f = .fin y → val g = .fin z → InRange (y - z) → IsNearest (f - g) (y - z) := fun {f g y z} hf hg h =>
    nearest_of_rnd (val_sub_fin hf hg) h
  have m : ∀ {f g : Float} {y z : ℚ}, val f = .fin y → val g = .fin z → InRange (y * z) → IsNearest (f * g) (y * z) := fun {f g y z} hf hg h =>
    nearest_of_rnd (by rw [val_mul, hf, hg]; rfl) h
  exact ⟨a hv.1 hw.1, a hv.2 hw.2, s hv.1 hw.1, s hv.2 hw.2, m hv.1 hk, m hv.2 hk⟩

/-- **C117, float64.** On a grid of few bits nothing is rounded: sums, differences, dot and cross products and squared lengths are exact. -/
theorem C117_grid {k : ℕ} (hk : k ≤ 500) (v w : Vector2 Float) (u x : ℚ × ℚ) (hv : VecAt v u) (hw : VecAt w x) (gu : OnGrid 26 k u) (gx : OnGrid 26 k x) :
    VecAt (v.Add w) (u + x) ∧ VecAt (v.Sub w) (u - x) ∧ val (v.Dot w) = .fin (u.1 * x.1 + u.2 * x.2) ∧ val (v.Cross w) = .fin (u.1 * x.2 - u.2 * x.1) ∧
      val v.LengthSq = .fin (u.1 ^ 2 + u.2 ^ 2) := by
  obtain ⟨m, n, hm, hn, rfl⟩ := gu
  obtain ⟨m', n', hm', hn', rfl⟩ := gx
  have pr : ∀ a b : ℤ, |a| ≤ 2 ^ 26 → |b| ≤ 2 ^ 26 → |a * b| ≤ 2 ^ 52 := by
    intro a b ha hb
    rw [abs_mul]
    calc |a| * |b| ≤ 2 ^ 26 * 2 ^ 26 := mul_le_mul ha hb (abs_nonneg _) (by positivity)
      _ = 2 ^ 52 := by norm_num
  have ad : ∀ a b : ℤ, |a| ≤ 2 ^ 52 → |b| ≤ 2 ^ 52 → |a + b| ≤ 2 ^ 53 := fun a b ha hb => (abs_add_le a b).trans (by norm_num at *; omega)
  have sd : ∀ a b : ℤ, |a| ≤ 2 ^ 52 → |b| ≤ 2 ^ 52 → |a - b| ≤ 2 ^ 53 := fun a b ha hb => (abs_sub a b).trans (by norm_num at *; omega)
  have up : ∀ a : ℤ, |a| ≤ 2 ^ 26 → |a| ≤ 2 ^ 52 := fun a ha => ha.trans (by norm_num)
  have hk' : k ≤ 1074 := by omega
  have hkk : k + k ≤ 1074 := by omega
  have mu : ∀ {f g : Float} {a b : ℤ}, val f = .fin ((a : ℚ) / 2 ^ k) → val g = .fin ((b : ℚ) / 2 ^ k) → |a| ≤ 2 ^ 26 → |b| ≤ 2 ^ 26 →
      val (f * g) = .fin (((a * b : ℤ) : ℚ) / 2 ^ (k + k)) := fun hf hg ha hb => grid_mul hf hg ((pr _ _ ha hb).trans (by norm_num)) hkk
  refine ⟨⟨?_, ?_⟩, ⟨?_, ?_⟩, ?_, ?_, ?_⟩
  · exact (grid_add hv.1 hw.1 (ad _ _ (up _ hm) (up _ hm')) hk').trans (by simp only [Prod.fst_add]; push_cast; rw [add_div])
  · exact (grid_add hv.2 hw.2 (ad _ _ (up _ hn) (up _ hn')) hk').trans (by simp only [Prod.snd_add]; push_cast; rw [add_div])
  · exact (grid_sub hv.1 hw.1 (sd _ _ (up _ hm) (up _ hm')) hk').trans (by simp only [Prod.fst_sub]; push_cast; rw [sub_div])
  · exact (grid_sub hv.2 hw.2 (sd _ _ (up _ hn) (up _ hn')) hk').trans (by simp only [Prod.snd_sub]; push_cast; rw [sub_div])
  · refine (grid_add (mu hv.1 hw.1 hm hm') (mu hv.2 hw.2 hn hn') (ad _ _ (pr _ _ hm hm') (pr _ _ hn hn')) hkk).trans ?_
    rw [pow_add]; push_cast; congr 1; field_simp
  · refine (grid_sub (mu hv.1 hw.2 hm hn') (mu hv.2 hw.1 hn hm') (sd _ _ (pr _ _ hm hn') (pr _ _ hn hm')) hkk).trans ?_
    rw [pow_add]; push_cast; congr 1; field_simp
  · refine (grid_add (mu hv.1 hv.1 hm hm) (mu hv.2 hv.2 hn hn) (ad _ _ (pr _ _ hm hm) (pr _ _ hn hn)) hkk).trans ?_
    rw [pow_add]; push_cast; congr 1; field_simp

/-- C117 in float64 on (3, 4) and (-4, 3) -/
example : val ((⟨3, 4⟩ : Vector2 Float).Dot ⟨-4, 3⟩) = .fin 0 ∧ val ((⟨3, 4⟩ : Vector2 Float).Cross ⟨-4, 3⟩) = .fin 25 ∧ val (⟨3, 4⟩ : Vector2 Float).LengthSq = .fin 25 := by
  have h := C117_grid (k := 0) (by norm_num) ⟨3, 4⟩ ⟨-4, 3⟩ (3, 4) (-4, 3) ⟨by decide +kernel, by decide +kernel⟩ ⟨by decide +kernel, by decide +kernel⟩
    ⟨3, 4, by norm_num, by norm_num, by norm_num⟩ ⟨-4, 3, by norm_num, by norm_num, by norm_num⟩
  norm_num at h
  exact ⟨h.2.2.1, h.2.2.2.1, h.2.2.2.2⟩

/-- **C117 is false in float64**: what is added cannot be subtracted again, and because a division is a multiplication with the rounded reciprocal,
(49, 0) divided by 49 is not (1, 0). -/
theorem C117_false :
    ((⟨1, 0⟩ : Vector2 Float).Add ⟨9007199254740992, 0⟩).Sub ⟨9007199254740992, 0⟩ = ⟨0, 0⟩ ∧
    (match (⟨49, 0⟩ : Vector2 Float).Divide 49 with | .ok v => lt v.X 1 | .error _ => false) = true := by
  decide +kernel

end GoGeo
