import Verif.Go.F64

/-! # Squares of opposite `float64` numbers are the same bits -/

namespace GoGeo.F64
open Float.Model

theorem canon_unique {m₁ m₂ : ℕ} {e₁ e₂ : ℤ} (h₁ : Canon m₁ e₁) (h₂ : Canon m₂ e₂)
    (h : (m₁ : ℚ) * 2 ^ e₁ = (m₂ : ℚ) * 2 ^ e₂) : m₁ = m₂ ∧ e₁ = e₂ := by
  have := canon_cmp h₁ h₂
  rw [compare_eq_iff_eq.2 h] at this
  cases hc : compare e₁ e₂ with
  | lt => rw [hc] at this; cases this
  | gt => rw [hc] at this; cases this
  | eq =>
    rw [hc] at this
    exact ⟨compare_eq_iff_eq.1 this, compare_eq_iff_eq.1 hc⟩

theorem mul_self_of_neg {u v : UnpackedFloat} (hu : Good u) (hv : Good v) (h : valU u = XR.neg (valU v)) :
    UnpackedFloat.mul Format.binary64 u u = UnpackedFloat.mul Format.binary64 v v := by
  cases u with
  | notANumber =>
    cases v with
    | notANumber => rfl
    | infinity s => cases s <;> simp [valU, XR.neg, sgnX] at h
    | zero s => cases s <;> simp [valU, XR.neg, sgnX] at h
    | finite s m e hm => cases s <;> simp [valU, XR.neg, sgnX] at h
  | infinity s =>
    cases v with
    | notANumber => cases s <;> simp [valU, XR.neg, sgnX] at h
    | infinity s' => cases s <;> cases s' <;> rfl
    | zero s' => cases s <;> cases s' <;> simp [valU, XR.neg, sgnX] at h
    | finite s' m e hm => cases s <;> cases s' <;> simp [valU, XR.neg, sgnX] at h
  | zero s =>
    cases v with
    | notANumber => cases s <;> simp [valU, XR.neg, sgnX] at h
    | infinity s' => cases s <;> cases s' <;> simp [valU, XR.neg, sgnX] at h
    | zero s' => cases s <;> cases s' <;> rfl
    | finite s' m e hm =>
      have := fval_pos hm e
      cases s <;> cases s' <;> simp [valU, XR.neg, sgnX, hm.ne', hm.ne, zpow_ne_zero] at h
  | finite s m e hm =>
    cases v with
    | notANumber => cases s <;> simp [valU, XR.neg, sgnX] at h
    | infinity s' => cases s <;> cases s' <;> simp [valU, XR.neg, sgnX] at h
    | zero s' => cases s <;> cases s' <;> simp [valU, XR.neg, sgnX, hm.ne', hm.ne, zpow_ne_zero] at h
    | finite s' m' e' hm' =>
      have p1 := fval_pos hm e
      have p2 := fval_pos hm' e'
      have key : (m : ℚ) * 2 ^ e = (m' : ℚ) * 2 ^ e' := by
        cases s <;> cases s' <;> simp [valU, XR.neg, sgnX] at h <;> linarith
      obtain ⟨rfl, rfl⟩ := canon_unique hu.1 hv.1 key
      cases s <;> cases s' <;> rfl

end GoGeo.F64

namespace GoGeo
open F64 FloatVal

theorem float_mul_def (a b : Float) : a * b = ⟨.pack (Float.Model.UnpackedFloat.mul Float.Model.Format.binary64 a.toModel.unpack b.toModel.unpack)⟩ := rfl

theorem float_sub_sq (a b : Float) : (a - b) * (a - b) = (b - a) * (b - a) := by
  rw [float_mul_def, float_mul_def, mul_self_of_neg (good_f _) (good_f _)]
  show val (a - b) = XR.neg (val (b - a))
  rw [val_sub, val_sub, ← rnd_neg]
  congr 1
  cases val a <;> cases val b <;> simp [XR.sub, XR.neg, XR.add]

end GoGeo
