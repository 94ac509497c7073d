import Verif.Spec.Math64
import Verif.Props.Bulk
import Verif.Go.QuickSortOk
import Mathlib.Analysis.Complex.ExponentialBounds

/-!
# C12: bulk loading with the `float64` arithmetic of `bulkLoad` and the `sort.Sort` of Go 1.15
-/

namespace GoGeo
open GoFloat GoSqrt GoInt Spec FloatVal

theorem val_ofNat {n : Nat} (h : n ≤ 2 ^ 53) : val (ofInt (n : Int) : Float) = .fin (n : ℚ) := by
  rw [FloatVal.val_ofInt]
  have := FloatVal.rnd_rep (F := Float) n 0 h (by norm_num)
  simpa using this

/-- the logarithm of one more than a power -/
theorem log_gap {N M k : ℕ} (h : M ^ k < N) (hM : 1 ≤ M) : k * Real.log M + 1 / N ≤ Real.log N := by
  have hN : (0 : ℝ) < N := by exact_mod_cast (by omega : 0 < N)
  have hMk : (0 : ℝ) < (M : ℝ) ^ k := by
    have : (0 : ℝ) < M := by exact_mod_cast hM
    positivity
  have h1 : ((M : ℝ) ^ k) + 1 ≤ N := by exact_mod_cast h
  have h2 := Real.one_sub_inv_le_log_of_pos (x := N / (M : ℝ) ^ k) (by positivity)
  rw [Real.log_div hN.ne' hMk.ne', Real.log_pow, inv_div] at h2
  have h3 : 1 / (N : ℝ) ≤ 1 - (M : ℝ) ^ k / N := by
    rw [le_sub_iff_add_le, ← add_div, div_le_one hN]; linarith
  linarith

theorem log_le_28 {N : ℕ} (h1 : 1 ≤ N) (h : N ≤ 2 ^ 40) : Real.log N ≤ 28 := by
  have : Real.log N ≤ Real.log ((2 : ℝ) ^ 40) := Real.log_le_log (by exact_mod_cast h1) (by exact_mod_cast h)
  rw [Real.log_pow] at this
  have := Real.log_two_lt_d9
  norm_num at *
  linarith

/-- the quotient of the two logarithms as computed -/
theorem logQuot_near {lib : Math64} (hl : Math64Ok lib) {N M : ℕ} (hM : 2 ≤ M) (hMN : M < N) (hN : N ≤ 2 ^ 40) :
    NearR (lib.log2 (ofInt N) / lib.log2 (ofInt M)) (Real.log N / Real.log M) (Real.log N / Real.log M * (3 / 2 ^ 47)) := by
  have hlM : Real.log 2 ≤ Real.log M := Real.log_le_log two_pos (by exact_mod_cast hM)
  have hlN : Real.log M ≤ Real.log N := Real.log_le_log (by exact_mod_cast (by omega : 0 < M)) (by exact_mod_cast hMN.le)
  have hl2 := Real.log_two_gt_d9
  have h28 := log_le_28 (by omega) hN
  have eN := hl.log2 N (by omega) hN
  have eM := hl.log2 M hM (by omega)
  simp only [Real.logb] at eN eM
  set a := Real.log N
  set b := Real.log M
  have hb : 0 < b := by linarith
  have hc : 0 < Real.log 2 := by linarith
  set c := Real.log 2
  have hq : 1 ≤ a / b := by rw [one_le_div hb]; exact hlN
  have hq2 : a / b ≤ 56 := by rw [div_le_iff₀ hb]; norm_num at *; linarith
  have hbc : 0 < b / c := div_pos hb hc
  have hac : 0 < a / c := div_pos (by linarith) hc
  have hqq : |a / c| / (b / c) = a / b := by rw [abs_of_pos hac]; field_simp
  have h := NearR.div (E := a / b * (2 / 2 ^ 47 + 1 / 2 ^ 60)) (B := 2 * (a / b)) eN eM
    (by rw [div_lt_iff₀ (by positivity)]; norm_num; linarith) ?_ ?_ ?_
  · have e1 : a / c / (b / c) = a / b := by field_simp
    rw [e1] at h
    refine h.mono ?_
    have : (1 : ℝ) / 2 ^ 250 ≤ 1 / 2 ^ 60 := one_div_le_one_div_of_le (by positivity) (pow_le_pow_right₀ one_le_two (by norm_num))
    norm_num at *
    linarith
  · rw [hqq]
    have e2 : (a / c / 2 ^ 47 + a / b * (b / c / 2 ^ 47)) / (b / c - b / c / 2 ^ 47) = a / b * (2 / (2 ^ 47 - 1)) := by
      field_simp
      ring
    rw [e2]
    refine mul_le_mul_of_nonneg_left ?_ (by linarith)
    norm_num
  · rw [hqq]
    norm_num
    linarith
  · have : (112 : ℝ) ≤ 2 ^ 250 := le_trans (by norm_num) (pow_le_pow_right₀ one_le_two (by norm_num : 7 ≤ 250))
    linarith

/-- the height -/
theorem height_spec {lib : Math64} (hl : Math64Ok lib) {N M : ℕ} (hM : 2 ≤ M) (hMN : M < N) (hN : N ≤ 2 ^ 40) :
    ∃ H : ℕ, val (lib.ceil (lib.log2 (ofInt N) / lib.log2 (ofInt M))) = .fin (H : ℚ) ∧ 1 ≤ H ∧ N ≤ M ^ H ∧ M ^ (H - 1) ≤ 2 ^ 41 ∧
      (N ≤ 2 * M + 1 → 5 ≤ M → H = 2) ∧ M ^ (H - 1) ≤ N := by
  obtain ⟨v, hv, hd⟩ := logQuot_near hl hM hMN hN
  have hlM : Real.log 2 ≤ Real.log M := Real.log_le_log two_pos (by exact_mod_cast hM)
  have hlN : Real.log M ≤ Real.log N := Real.log_le_log (by exact_mod_cast (by omega : 0 < M)) (by exact_mod_cast hMN.le)
  have hl2 := Real.log_two_gt_d9
  have h28 := log_le_28 (by omega) hN
  have hM0 : (0 : ℝ) < M := by exact_mod_cast (by omega : 0 < M)
  have hN0 : (0 : ℝ) < N := by exact_mod_cast (by omega : 0 < N)
  have hb : 0 < Real.log M := by linarith
  have hq : 1 ≤ Real.log N / Real.log M := by rw [one_le_div hb]; exact hlN
  have hq2 : Real.log N / Real.log M ≤ 56 := by rw [div_le_iff₀ hb]; norm_num at *; linarith
  obtain ⟨hd1, hd2⟩ := abs_le.1 hd
  have hsm : Real.log N / Real.log M * (3 / 2 ^ 47) ≤ Real.log N / Real.log M * (1 / 56) :=
    mul_le_mul_of_nonneg_left (by norm_num) (by linarith)
  have hv0 : (0 : ℝ) < v := by linarith
  have hv1 : (v : ℝ) ≤ 57 := by linarith
  have hv0' : (0 : ℚ) < v := by exact_mod_cast hv0
  have hv1' : v ≤ (57 : ℚ) := by exact_mod_cast hv1
  have hvlog : (v : ℝ) * Real.log M ≤ Real.log N * (1 + 3 / 2 ^ 47) := by
    have : (v : ℝ) ≤ Real.log N / Real.log M * (1 + 3 / 2 ^ 47) := by linarith
    calc (v : ℝ) * Real.log M ≤ Real.log N / Real.log M * (1 + 3 / 2 ^ 47) * Real.log M := mul_le_mul_of_nonneg_right this hb.le
      _ = _ := by field_simp
  have hvlog2 : Real.log N * (1 - 3 / 2 ^ 47) ≤ (v : ℝ) * Real.log M := by
    have : Real.log N / Real.log M * (1 - 3 / 2 ^ 47) ≤ v := by linarith
    calc Real.log N * (1 - 3 / 2 ^ 47) = Real.log N / Real.log M * (1 - 3 / 2 ^ 47) * Real.log M := by field_simp
      _ ≤ _ := mul_le_mul_of_nonneg_right this hb.le
  have key : ∀ k : ℕ, M ^ k < N → (k : ℝ) < v := by
    intro k hk
    have h1 := log_gap hk (by omega)
    have h2 : Real.log N * (3 / 2 ^ 47) < 1 / N := by
      have hNR : (N : ℝ) ≤ 2 ^ 40 := by exact_mod_cast hN
      have h3 : (1 : ℝ) / 2 ^ 40 ≤ 1 / N := one_div_le_one_div_of_le hN0 hNR
      norm_num at *
      linarith
    by_contra hcon
    rw [not_lt] at hcon
    have := mul_le_mul_of_nonneg_right hcon hb.le
    linarith
  have hceil : 0 < ⌈v⌉ := Int.ceil_pos.2 hv0'
  obtain ⟨H, hH⟩ : ∃ H : ℕ, ⌈v⌉ = H := ⟨⌈v⌉.toNat, by omega⟩
  have hle : (v : ℝ) ≤ H := by
    have : v ≤ (H : ℚ) := by have := Int.le_ceil v; rw [hH] at this; exact_mod_cast this
    exact_mod_cast this
  have hlt : (H : ℝ) - 1 < v := by
    have : (H : ℚ) < v + 1 := by have := Int.ceil_lt_add_one v; rw [hH] at this; exact_mod_cast this
    have : (H : ℝ) < v + 1 := by exact_mod_cast this
    linarith
  refine ⟨H, ?_, by omega, ?_, ?_, ?_, ?_⟩
  · rw [hl.ceil _ v hv hv0'.le (by linarith [show (57 : ℚ) ≤ 2 ^ 52 by norm_num]), hH]; simp
  · by_contra hcon
    have := key H (by omega)
    linarith
  · have h1 : ((H - 1 : ℕ) : ℝ) * Real.log M ≤ Real.log (2 ^ 41 : ℝ) := by
      have e : ((H - 1 : ℕ) : ℝ) = (H : ℝ) - 1 := by push_cast [Nat.cast_sub (by omega : 1 ≤ H)]; ring
      have h3 : Real.log N ≤ Real.log ((2 : ℝ) ^ 40) := Real.log_le_log hN0 (by exact_mod_cast hN)
      have h4 := mul_le_mul_of_nonneg_right hlt.le hb.le
      rw [e]
      rw [Real.log_pow] at h3 ⊢
      norm_num at *
      linarith
    rw [← Real.log_pow] at h1
    have h2 := (Real.log_le_log_iff (by positivity) (by positivity)).1 h1
    exact_mod_cast h2
  · intro hN2 h5
    have hgt := key 1 (by simpa using hMN)
    have h1 : 1 < H := by
      by_contra hcon
      have : (H : ℝ) ≤ 1 := by exact_mod_cast (by omega : H ≤ 1)
      norm_num at hgt
      linarith
    have h2 : H ≤ 2 := by
      have hNM : 2 * N ≤ M ^ 2 := by
        have : 5 * M ≤ M * M := Nat.mul_le_mul_right _ h5
        rw [Nat.pow_two]; omega
      have h3 : Real.log 2 + Real.log N ≤ 2 * Real.log M := by
        have : Real.log (2 * N) ≤ Real.log ((M : ℝ) ^ 2) := Real.log_le_log (by positivity) (by exact_mod_cast hNM)
        rwa [Real.log_mul two_ne_zero hN0.ne', Real.log_pow] at this
      have h4 : (v : ℝ) * Real.log M ≤ 2 * Real.log M := by norm_num at *; linarith
      have h5 : (v : ℝ) ≤ 2 := le_of_mul_le_mul_right h4 hb
      have h6 : (H : ℝ) < 3 := by linarith
      have : H < 3 := by exact_mod_cast h6
      omega
    omega
  · by_contra hcon
    have e : ((H - 1 : ℕ) : ℝ) = (H : ℝ) - 1 := by push_cast [Nat.cast_sub (by omega : 1 ≤ H)]; ring
    have h1 : Real.log ((N + 1 : ℕ) : ℝ) ≤ ((H - 1 : ℕ) : ℝ) * Real.log M := by
      rw [← Real.log_pow]
      exact Real.log_le_log (by positivity) (by exact_mod_cast (by omega : N + 1 ≤ M ^ (H - 1)))
    have h2 := log_gap (N := N + 1) (M := N) (k := 1) (by simp) (by omega)
    have h3 : (1 : ℝ) / (2 ^ 40 + 1) ≤ 1 / ((N + 1 : ℕ) : ℝ) :=
      one_div_le_one_div_of_le (by positivity) (by push_cast; have : (N : ℝ) ≤ 2 ^ 40 := by exact_mod_cast hN
                                                   linarith)
    have h4 := mul_le_mul_of_nonneg_right hlt.le hb.le
    rw [e] at h1
    norm_num at *
    linarith

theorem truncX_nat (n : ℕ) : truncX (.fin (n : ℚ)) = n := by
  rw [truncX, if_neg (not_lt.2 (Nat.cast_nonneg n)), Int.floor_natCast]

/-- the quotient `N / nsub`, rounded, and rounded up to an integer -/
theorem ceil_div_spec {lib : Math64} (hl : Math64Ok lib) {f g : Float} {N d : ℕ} (hf : val f = .fin (N : ℚ)) (hg : val g = .fin (d : ℚ))
    (hd : 1 ≤ d) (hd2 : d ≤ 2 ^ 41) (hN : N ≤ 2 ^ 40) : val (lib.ceil (f / g)) = .fin (((N + d - 1) / d : ℕ) : ℚ) := by
  have hd0 : (0 : ℚ) < d := by exact_mod_cast hd
  have hdq : (1 : ℚ) ≤ d := by exact_mod_cast hd
  have hNq : (N : ℚ) ≤ 2 ^ 40 := by exact_mod_cast hN
  have hdq2 : (d : ℚ) ≤ 2 ^ 41 := by exact_mod_cast hd2
  have hN0 : (0 : ℚ) ≤ N := Nat.cast_nonneg N
  have hqN : (N : ℚ) / d ≤ N := div_le_self hN0 hdq
  have hq0 : (0 : ℚ) ≤ N / d := by positivity
  have hv : val (f / g) = rnd Float (.fin ((N : ℚ) / d)) := by
    rw [val_div f g (by rw [hg]; simpa using hd0.ne'), hf, hg]
    simp [XR.div, hd0.ne']
  obtain ⟨y, e1, h1⟩ := FloatErr.rnd_err (F := Float) ((N : ℚ) / d) (by
    rw [abs_of_nonneg hq0]
    exact (hqN.trans hNq).trans (pow_le_pow_right₀ one_le_two (by norm_num)))
  rw [e1] at hv
  generalize hc : (N + d - 1) / d = c
  have hc1 : N ≤ c * d := by
    have := Nat.div_add_mod (N + d - 1) d
    have := Nat.mod_lt (N + d - 1) (by omega : d > 0)
    rw [hc, Nat.mul_comm] at *
    rw [Nat.mul_comm]
    omega
  have hc2 : c * d ≤ N + d - 1 := by rw [← hc]; exact Nat.div_mul_le_self _ _
  have hcN : c ≤ 2 ^ 42 := by
    have : c ≤ c * d := Nat.le_mul_of_pos_right _ (by omega)
    have : (2 : ℕ) ^ 40 + 2 ^ 41 ≤ 2 ^ 42 := by norm_num
    omega
  have hle : (N : ℚ) / d ≤ c := by rw [div_le_iff₀ hd0]; exact_mod_cast hc1
  have hy : y ≤ c := by
    have h := FloatVal.rnd_mono (F := Float) (.fin ((N : ℚ) / d)) (.fin (c : ℚ)) (by simpa [XR.le] using hle)
    have hr := FloatVal.rnd_rep (F := Float) c 0 (by omega) (by norm_num)
    rw [pow_zero, mul_one] at hr
    rw [e1, hr] at h
    simpa [XR.le] using h
  have hy0 : 0 ≤ y := by
    have h := FloatVal.rnd_mono (F := Float) (.fin 0) (.fin ((N : ℚ) / d)) (by simpa [XR.le] using hq0)
    rw [e1, FloatVal.rnd_zero] at h
    simpa [XR.le] using h
  have hgt : (c : ℚ) - 1 < y := by
    have h2 : (c : ℚ) - 1 + 1 / d ≤ N / d := by
      rw [le_div_iff₀ hd0, add_mul, one_div, inv_mul_cancel₀ hd0.ne', sub_mul, one_mul]
      have : ((c * d + 1 : ℕ) : ℚ) ≤ ((N + d : ℕ) : ℚ) := by exact_mod_cast (by omega : c * d + 1 ≤ N + d)
      push_cast at this
      linarith
    have h3 := (abs_le.1 h1).1
    rw [abs_of_nonneg hq0] at h3
    have h4 : (N : ℚ) / d / 2 ^ 53 ≤ 1 / d * (1 / 2) := by
      rw [div_div, div_le_iff₀ (by positivity)]
      field_simp
      norm_num at *
      linarith
    have h5 : (1 : ℚ) / 2 ^ 1075 < 1 / d * (1 / 2) := by
      have a1 : (1 : ℚ) / 2 ^ 1075 ≤ 1 / 2 ^ 43 := one_div_le_one_div_of_le (by positivity) (pow_le_pow_right₀ one_le_two (by norm_num))
      have a2 : (1 : ℚ) / 2 ^ 41 ≤ 1 / d := one_div_le_one_div_of_le hd0 hdq2
      norm_num at a2 ⊢
      refine lt_of_le_of_lt (le_trans (le_of_eq (by norm_num)) a1) ?_
      norm_num
      linarith
    linarith
  have hceil : ⌈y⌉ = (c : ℤ) := by
    rw [Int.ceil_eq_iff]
    push_cast
    exact ⟨hgt, hy⟩
  rw [hl.ceil _ y hv hy0 (hy.trans (by
    have : (c : ℚ) ≤ ((2 ^ 42 : ℕ) : ℚ) := by exact_mod_cast hcN
    refine this.trans ?_
    norm_num)), hceil]
  simp

/-- the three numbers -/
theorem omtSizes_spec {lib : Math64} (hl : Math64Ok lib) {n M : ℕ} (hM : 2 ≤ M) (hMN : M < n) (hN : n ≤ 2 ^ 40) :
    ∃ H S : ℕ, omtSizes lib n M = (H, S, (n + M ^ (H - 1) - 1) / M ^ (H - 1)) ∧ 1 ≤ H ∧ n ≤ M ^ H ∧
      (n ≤ 2 * M + 1 → 5 ≤ M → H = 2) ∧ M ^ (H - 1) ≤ n := by
  obtain ⟨H, hH, h1, h2, h3, h4, h5⟩ := height_spec hl hM hMN hN
  have hvN : val (ofInt (n : Int) : Float) = .fin (n : ℚ) := val_ofNat (by omega)
  have hvM : val (ofInt (M : Int) : Float) = .fin (M : ℚ) := val_ofNat (by omega)
  have hH41 : H ≤ 64 := by
    by_contra hcon
    have : 2 ^ 64 ≤ M ^ (H - 1) := (Nat.pow_le_pow_left hM 64).trans (Nat.pow_le_pow_right (by omega) (by omega))
    omega
  have hsub : val (lib.ceil (lib.log2 (ofInt n) / lib.log2 (ofInt M)) - lit 1) = .fin (((H - 1 : ℕ)) : ℚ) := by
    have hl1 : val (lit 1 : Float) = .fin (1 : ℚ) := by
      have := FloatVal.val_dec (F := Float) 1 0
      have hr := FloatVal.rnd_rep (F := Float) 1 0 (by norm_num) (by norm_num)
      simp at this hr
      rw [← this] at hr
      exact hr
    rw [val_sub, hH, hl1]
    have hr := FloatVal.rnd_rep (F := Float) (H - 1) 0 (by omega) (by norm_num)
    rw [pow_zero, mul_one] at hr
    have e : XR.sub (.fin (H : ℚ)) (.fin 1) = .fin ((H - 1 : ℕ) : ℚ) := by
      simp only [XR.sub, XR.neg, XR.add]
      push_cast [Nat.cast_sub h1]
      rw [sub_eq_add_neg]
    rw [e, hr]
  have hpow := hl.pow _ _ M (H - 1) hvM hsub (by omega) (by omega)
  rw [← Nat.cast_pow] at hpow
  have hs := ceil_div_spec hl hvN hpow (Nat.one_le_pow _ _ (by omega)) h3 hN
  refine ⟨H, (omtSizes lib n M).2.1, ?_, h1, h2, h4, h5⟩
  refine Prod.ext ?_ (Prod.ext rfl ?_)
  · show (truncX (val (lib.ceil (lib.log2 (ofInt (n : Int)) / lib.log2 (ofInt (M : Int)))))).toNat = H
    rw [hH, truncX_nat, Int.toNat_natCast]
  · show (truncX (val (lib.ceil (ofInt (n : Int) / lib.pow (ofInt (M : Int)) (lib.ceil (lib.log2 (ofInt (n : Int)) / lib.log2 (ofInt (M : Int))) - lit 1))))).toNat
      = (n + M ^ (H - 1) - 1) / M ^ (H - 1)
    rw [hs, truncX_nat, Int.toNat_natCast]

/-- the `float64` arithmetic does what `Verif.Rtree.Bulk` leaves open -/
theorem bulkLoad64_eq {lib : Math64} (hl : Math64Ok lib) (srt : GoSort) (grow : Nat → Nat) {min max : Int} (hmax : 2 ≤ max)
    (objs : List (Spatial Float)) (hn : max < objs.length) (hN : objs.length ≤ 2 ^ 40) :
    ∃ cfg : OmtCfg, bulkLoad64 lib srt grow (NewEmptyTree min max) objs = bulkLoad cfg srt grow (NewEmptyTree min max) objs ∧
      HeightOk cfg objs.length max ∧ (objs.length ≤ 2 * max + 1 → 5 ≤ max → cfg.height objs.length max.toNat = 2) ∧
      max.toNat ^ (cfg.height objs.length max.toNat - 1) ≤ objs.length := by
  obtain ⟨M, rfl⟩ : ∃ M : ℕ, max = M := ⟨max.toNat, by omega⟩
  obtain ⟨H, S, e, h1, h2, h3, h4⟩ := omtSizes_spec hl (n := objs.length) (M := M) (by omega) (by omega) hN
  refine ⟨⟨fun _ _ => H, fun _ => S⟩, ?_, ⟨h1, h2⟩, fun a b => h3 (by omega) (by omega), by simpa using h4⟩
  have e' : omtSizes lib objs.length (NewEmptyTree min (M : Int) : RState Float).t.MaxChildren = (H, S, (objs.length + M ^ (H - 1) - 1) / M ^ (H - 1)) := e
  unfold bulkLoad64 bulkLoad
  simp only [e']
  rfl

/-- **C12** for the program as it runs: with the `sort.Sort` of Go 1.15 and `float64` arithmetic, bulk loading any list of more than `max` objects (at most
2^40) does not panic and gives a well-shaped tree with exactly these objects, and searching it returns exactly those whose boxes meet the query. -/
theorem C12_float64 (lib : Math64) (hl : Math64Ok lib) (grow : Nat → Nat) (min max : Int) (hmax : 2 ≤ max)
    (objs : List (Spatial Float)) (hn : max < objs.length) (hN : objs.length ≤ 2 ^ 40) :
    ∃ s : RState Float, NewMinMaxTree64 lib goSort grow min max objs = .ok s ∧ (contents s).Perm objs ∧
      Size s = objs.length ∧ Shaped s ∧
      (∀ d n v, NodeAt s (d + 1) n → s.h.view n = some v → 1 ≤ v.entries.length) ∧
      ∀ q, ∃ res, SearchIntersect s (some q) = .ok res ∧ res.Perm (objs.filter (Meets q)) := by
  obtain ⟨cfg, e, hh, -⟩ := bulkLoad64_eq hl goSort grow (min := min) hmax objs hn hN
  have e2 : NewMinMaxTree64 lib goSort grow min max objs = NewMinMaxTree cfg goSort grow min max objs := by
    unfold NewMinMaxTree64 NewMinMaxTree
    rw [if_neg (by omega), if_neg (by omega), e]
  rw [e2]
  exact C12_bulk cfg goSort goSort_ok grow min max hmax objs hn hh

/-- **C12**, `NewTree` and `NewTreeWith` with ten objects or more, as they run: the tree has depth two. -/
theorem C12_newTree_float64 (lib : Math64) (hl : Math64Ok lib) (grow : Nat → Nat)
    (objs : List (Spatial Float)) (hn : 10 ≤ objs.length) (hN : objs.length ≤ 2 ^ 40) :
    ∃ s : RState Float, NewTree64 lib goSort grow objs = .ok s ∧ (contents s).Perm objs ∧
      Size s = objs.length ∧ Depth s = 2 ∧ Shaped s ∧
      ∀ q, ∃ res, SearchIntersect s (some q) = .ok res ∧ res.Perm (objs.filter (Meets q)) := by
  obtain ⟨cfg, e, hh, h2, -⟩ := bulkLoad64_eq hl goSort grow (min := ((objs.length / 6 : Nat) : Int)) (max := ((objs.length / 2 : Nat) : Int)) (by omega) objs
    (by omega) hN
  have e2 : NewTree64 lib goSort grow objs = NewTree cfg goSort grow objs := by
    unfold NewTree64 NewMinMaxTree64 NewTree NewMinMaxTree
    rw [if_neg (by omega), if_neg (by omega), if_neg (by omega), if_neg (by omega), e]
  rw [e2]
  refine C12_newTree cfg goSort goSort_ok grow objs hn ?_
  have := h2 (by omega) (by omega)
  rwa [Int.toNat_natCast] at this

/-! ### the assumptions can be met -/

theorem exists_log2 (n : ℕ) (h1 : 2 ≤ n) (h2 : n ≤ 2 ^ 40) : ∃ g : Float, NearR g (Real.logb 2 n) (Real.logb 2 n / 2 ^ 47) := by
  have hy1 : 1 ≤ Real.logb 2 n := by
    rw [Real.le_logb_iff_rpow_le (by norm_num) (by exact_mod_cast (by omega : 0 < n))]
    simpa using (by exact_mod_cast h1 : (2 : ℝ) ≤ n)
  have hy2 : Real.logb 2 n ≤ 40 := by
    rw [Real.logb_le_iff_le_rpow (by norm_num) (by exact_mod_cast (by omega : 0 < n))]
    have : (n : ℝ) ≤ 2 ^ (40 : ℕ) := by exact_mod_cast h2
    exact_mod_cast this
  set y := Real.logb 2 n
  have hm1 := Nat.floor_le (a := y * 2 ^ 47) (by positivity)
  have hm2 := Nat.lt_floor_add_one (y * 2 ^ 47)
  set m := ⌊y * 2 ^ 47⌋₊
  have hm : m ≤ 2 ^ 53 := by
    have : (m : ℝ) ≤ ((2 ^ 53 : ℕ) : ℝ) := by
      have : y * 2 ^ 47 ≤ 40 * 2 ^ 47 := by gcongr
      push_cast
      linarith
    exact_mod_cast this
  refine ⟨ofInt (m : Int) / ofInt ((2 ^ 47 : ℕ) : Int), (m : ℚ) / 2 ^ 47, ?_, ?_⟩
  · have h47 : val (ofInt ((2 ^ 47 : ℕ) : Int) : Float) = .fin ((2 ^ 47 : ℕ) : ℚ) := val_ofNat (by norm_num)
    rw [val_div _ _ (by rw [h47]; simp), val_ofNat hm, h47]
    have := FloatVal.rnd_frac (F := Float) m 47 hm (by norm_num)
    push_cast
    rw [← this]
    congr 1
  · push_cast
    rw [abs_le]
    constructor
    · rw [neg_le_sub_iff_le_add, ← add_div, le_div_iff₀ (by positivity)]; linarith
    · rw [sub_le_iff_le_add, div_le_iff₀ (by positivity), add_mul, div_mul_cancel₀ _ (by positivity)]; linarith

open Classical in
/-- a package math -/
noncomputable def someMath64 : Math64 where
  log2 f := if h : ∃ n : ℕ, (2 ≤ n ∧ n ≤ 2 ^ 40) ∧ val f = .fin (n : ℚ) then (exists_log2 h.choose h.choose_spec.1.1 h.choose_spec.1.2).choose else f
  ceil f := match val f with
    | .fin q => ofInt ⌈q⌉
    | _ => f
  floor f := f
  pow f g := match val f, val g with
    | .fin a, .fin b => ofInt ⌊a ^ b.num.toNat⌋
    | _, _ => f

theorem someMath64_ok : Math64Ok someMath64 where
  log2 n h1 h2 := by
    have h53 : n ≤ 2 ^ 53 := le_trans h2 (by norm_num)
    have h : ∃ m : ℕ, (2 ≤ m ∧ m ≤ 2 ^ 40) ∧ val (ofInt (n : Int) : Float) = .fin (m : ℚ) := ⟨n, ⟨h1, h2⟩, val_ofNat h53⟩
    have e : h.choose = n := by
      have h3 := h.choose_spec.2
      generalize h.choose = m at h3
      have h3 := (val_ofNat h53).symm.trans h3
      have h4 : (n : ℚ) = (m : ℚ) := by injection h3
      exact_mod_cast h4.symm
    have hs := (exists_log2 h.choose h.choose_spec.1.1 h.choose_spec.1.2).choose_spec
    simp only [someMath64, dif_pos h]
    have e2 : Real.logb 2 (h.choose : ℝ) = Real.logb 2 (n : ℝ) := by rw [e]
    rw [← e2]
    exact hs
  ceil f q hq h0 h1 := by
    simp only [someMath64, hq]
    have hc0 : 0 ≤ ⌈q⌉ := Int.ceil_nonneg h0
    obtain ⟨c, hc⟩ : ∃ c : ℕ, ⌈q⌉ = c := ⟨⌈q⌉.toNat, by omega⟩
    have hc1 : ⌈q⌉ ≤ 2 ^ 52 := Int.ceil_le.2 (by exact_mod_cast h1)
    rw [hc, val_ofNat (by omega)]
    simp
  pow f g m k hf hg h1 h2 := by
    simp only [someMath64, hf, hg]
    have e : ((k : ℚ)).num.toNat = k := by simp
    rw [e, ← Nat.cast_pow, Int.floor_natCast, val_ofNat h2]

/-- **C12** is about something: a thousand points -/
example : ∃ s : RState Float, NewTree64 someMath64 goSort id (List.replicate 1000 ⟨"a", .nil, .point ⟨1, 2⟩⟩) = .ok s ∧ Size s = 1000 := by
  obtain ⟨s, h1, -, h2, -⟩ := C12_newTree_float64 someMath64 someMath64_ok id (List.replicate 1000 ⟨"a", .nil, .point ⟨1, 2⟩⟩)
    (by rw [List.length_replicate]; norm_num) (by rw [List.length_replicate]; norm_num)
  exact ⟨s, h1, by rw [h2, List.length_replicate]; rfl⟩

end GoGeo
