import Verif.Props.WindingAngle

/-!
# Simple rings go round every point at most once
-/

namespace GoGeo.Region
open Set Spec Real

/-! ### the sides of a ring with distinct corners -/

theorem sides_fst (c : List (ℝ × ℝ)) : (sides c).map Prod.fst = c := by
  unfold sides
  exact List.map_fst_zip (by simp)

theorem sides_nodup {c : List (ℝ × ℝ)} (h : c.Nodup) : (sides c).Nodup :=
  List.Nodup.of_map Prod.fst (by rw [sides_fst]; exact h)

theorem sides_first {c : List (ℝ × ℝ)} (h : c.Nodup) {e f : (ℝ × ℝ) × (ℝ × ℝ)} (he : e ∈ sides c) (hf : f ∈ sides c) (hef : e.1 = f.1) : e = f := by
  have : ((sides c).map Prod.fst).Nodup := by rw [sides_fst]; exact h
  exact List.inj_on_of_nodup_map this he hf hef

theorem sides_get {c : List (ℝ × ℝ)} {e : (ℝ × ℝ) × (ℝ × ℝ)} (he : e ∈ sides c) : ∃ (i : ℕ) (hi : i < c.length),
    e = (c[i], c[(i + 1) % c.length]'(Nat.mod_lt _ (by omega))) := by
  obtain ⟨i, hi, rfl⟩ := List.mem_iff_getElem.1 he
  have hi' : i < c.length := by simpa [sides] using hi
  refine ⟨i, hi', ?_⟩
  simp only [sides, List.getElem_zip, List.getElem_rotate]

theorem sides_ne {c : List (ℝ × ℝ)} (hl : 3 ≤ c.length) (h : c.Nodup) {e : (ℝ × ℝ) × (ℝ × ℝ)} (he : e ∈ sides c) : e.1 ≠ e.2 := by
  obtain ⟨i, hi, rfl⟩ := sides_get he
  intro heq
  have := (List.Nodup.getElem_inj_iff h).1 heq
  rcases Nat.lt_or_ge (i + 1) c.length with h1 | h1
  · rw [Nat.mod_eq_of_lt h1] at this; omega
  · have h2 : i + 1 = c.length := by omega
    rw [h2, Nat.mod_self] at this
    omega

/-- a value that is the same at both ends of every side is the same at all corners -/
theorem corners_same {c : List (ℝ × ℝ)} {g : ℝ × ℝ → ℤ} (h : ∀ e ∈ sides c, g e.1 = g e.2) {a b : ℝ × ℝ} (ha : a ∈ c) (hb : b ∈ c) : g a = g b := by
  have key : ∀ (i : ℕ) (hi : i < c.length), g c[i] = g (c[0]'(by omega)) := by
    intro i
    induction i with
    | zero => intro hi; rfl
    | succ i ih =>
      intro hi
      rw [← ih (by omega)]
      have hm : (c[i], c[i + 1]) ∈ sides c := by
        rw [List.mem_iff_getElem]
        refine ⟨i, by simp [sides]; omega, ?_⟩
        simp [sides, List.getElem_zip, List.getElem_rotate, Nat.mod_eq_of_lt hi]
      exact (h _ hm).symm
  obtain ⟨i, hi, rfl⟩ := List.mem_iff_getElem.1 ha
  obtain ⟨j, hj, rfl⟩ := List.mem_iff_getElem.1 hb
  rw [key i hi, key j hj]

theorem side_fst_mem {c : List (ℝ × ℝ)} {e : (ℝ × ℝ) × (ℝ × ℝ)} (he : e ∈ sides c) : e.1 ∈ c := by
  have := List.mem_map_of_mem (f := Prod.fst) he
  rwa [sides_fst] at this

/-- one side apart -/
theorem apart {α : Type} {m : List α} (hm : m.Nodup) {e : α} (he : e ∈ m) : ∃ m' : List α, m'.Nodup ∧ (∀ g, g ∈ m' ↔ g ∈ m ∧ g ≠ e) ∧
    ∀ f : α → ℝ, (m.map f).sum = f e + (m'.map f).sum := by
  obtain ⟨s, t, rfl⟩ := List.append_of_mem he
  have hp : (s ++ e :: t).Perm (e :: (s ++ t)) := List.perm_middle
  have hn := hp.nodup_iff.1 hm
  rw [List.nodup_cons] at hn
  refine ⟨s ++ t, hn.2, fun g => ?_, fun f => ?_⟩
  · rw [hp.mem_iff, List.mem_cons]
    constructor
    · intro hg
      exact ⟨Or.inr hg, by rintro rfl; exact hn.1 hg⟩
    · rintro ⟨h1 | h1, h2⟩
      · exact absurd h1 h2
      · exact h1
  · rw [(hp.map f).sum_eq, List.map_cons, List.sum_cons]

/-! ### the winding number near the ring has two values -/

/-- an open interval of two turns has at most two values -/
theorem two_values {ι : Type} (P : ι → Prop) (W : ι → ℤ) (a : ℝ) (h : ∀ i, P i → a < 2 * π * W i ∧ 2 * π * W i < a + 4 * π) :
    ∃ k : ℤ, ∀ i, P i → W i = k ∨ W i = k + 1 := by
  have hp : 0 < 2 * π := by positivity
  refine ⟨⌊a / (2 * π)⌋ + 1, fun i hi => ?_⟩
  obtain ⟨h1, h2⟩ := h i hi
  have f1 := Int.floor_le (a / (2 * π))
  have f2 := Int.lt_floor_add_one (a / (2 * π))
  have g1 : a / (2 * π) < W i := by rw [div_lt_iff₀ hp]; linarith
  have g2 : (W i : ℝ) < a / (2 * π) + 2 := by
    rw [← sub_lt_iff_lt_add, lt_div_iff₀ hp]; nlinarith
  have k1 : (⌊a / (2 * π)⌋ : ℝ) < W i := by linarith
  have k2 : (W i : ℝ) < ⌊a / (2 * π)⌋ + 3 := by linarith
  have k1' : ⌊a / (2 * π)⌋ < W i := by exact_mod_cast k1
  have k2' : W i < ⌊a / (2 * π)⌋ + 3 := by exact_mod_cast k2
  omega

/-- near `x` the winding number of the points off the ring has at most the two values `k` and `k + 1` -/
def Near (c : List (ℝ × ℝ)) (x : ℝ × ℝ) (k : ℤ) : Prop :=
  ∃ δ > 0, ∀ z ∈ Metric.ball x δ, ¬ OnRing c z → winding c z = k ∨ winding c z = k + 1

theorem near_mid {c : List (ℝ × ℝ)} (hd : c.Nodup) {x : ℝ × ℝ} {e : (ℝ × ℝ) × (ℝ × ℝ)} (he : e ∈ sides c)
    (h : ∀ g ∈ sides c, OnSeg g.1 g.2 x → g = e) : ∃ k, Near c x k := by
  obtain ⟨m, -, hm, hsum⟩ := apart (sides_nodup hd) he
  have hc : ContinuousAt (fun z => (m.map fun g => ang g.1 g.2 z).sum) x := by
    refine sum_cont m (fun g z => ang g.1 g.2 z) x fun g hg => ang_cont fun hon => ?_
    obtain ⟨h2, h1⟩ := (hm g).1 hg
    exact h1 (h g h2 hon)
  obtain ⟨δ, hδ, hR⟩ := Metric.continuousAt_iff.1 hc (π / 2) (by positivity)
  set R := (m.map fun g => ang g.1 g.2 x).sum with hRd
  obtain ⟨k, hk⟩ := two_values (fun z => z ∈ Metric.ball x δ ∧ ¬ OnRing c z) (winding c) (R - 2 * π) (by
    rintro z ⟨hz, hoff⟩
    have h1 := hR hz
    rw [Real.dist_eq, abs_lt] at h1
    have h2 := winding_angle hoff
    rw [hsum fun g => ang g.1 g.2 z] at h2
    obtain ⟨h3, h4⟩ := ang_lt (u := e.1) (v := e.2) (z := z) fun hon => hoff ⟨e, he, hon⟩
    have := pi_pos
    constructor <;> linarith [h1.1, h1.2])
  exact ⟨k, δ, hδ, fun z hz hoff => hk z ⟨hz, hoff⟩⟩

theorem near_corner {c : List (ℝ × ℝ)} (hd : c.Nodup) {x p q : ℝ × ℝ} (he : (p, x) ∈ sides c) (hf : (x, q) ∈ sides c)
    (hp : p ≠ x) (hq : q ≠ x) (hA : ang p q x ≠ 0)
    (h : ∀ g ∈ sides c, OnSeg g.1 g.2 x → g = (p, x) ∨ g = (x, q)) : ∃ k, Near c x k := by
  have hpi := pi_pos
  obtain ⟨m₁, hd₁, hm₁, hsum₁⟩ := apart (sides_nodup hd) he
  have hef : (x, q) ∈ m₁ := (hm₁ _).2 ⟨hf, fun h => hp (Prod.mk.inj h).1.symm⟩
  obtain ⟨m, -, hm₂, hsum₂⟩ := apart hd₁ hef
  have hm : ∀ g ∈ m, g ∈ sides c ∧ ¬ OnSeg g.1 g.2 x := by
    intro g hg
    obtain ⟨h2, h1⟩ := (hm₂ g).1 hg
    obtain ⟨h4, h3⟩ := (hm₁ g).1 h2
    exact ⟨h4, fun hon => (h g h4 hon).elim h3 h1⟩
  have hc : ContinuousAt (fun z => (m.map fun g => ang g.1 g.2 z).sum) x :=
    sum_cont m (fun g z => ang g.1 g.2 z) x fun g hg => ang_cont (hm g hg).2
  set R := (m.map fun g => ang g.1 g.2 x).sum with hRd
  obtain ⟨N, hN⟩ : ∃ N : ℤ, R = 2 * π * N - ang p q x := by
    have h1 : ∀ m : List ((ℝ × ℝ) × (ℝ × ℝ)), (∀ g ∈ m, ¬ OnSeg g.1 g.2 x) → ∃ N : ℤ,
        (m.map fun g => ang g.1 g.2 x).sum = (m.map fun g => theta x g.2 - theta x g.1).sum + 2 * π * N := by
      intro m
      induction m with
      | nil => intro _; exact ⟨0, by simp⟩
      | cons g m ih =>
        intro hg
        obtain ⟨N, hN⟩ := ih fun g hg' => hg g (List.mem_cons_of_mem _ hg')
        have hgx := hg g List.mem_cons_self
        obtain ⟨n, hn⟩ := ang_mod (u := g.1) (v := g.2) (z := x) (by intro e; apply hgx; rw [← e]; exact (end_on _ _).1)
          (fun e => hgx ((congrArg (OnSeg g.1 g.2) e).mp (end_on _ _).2))
        refine ⟨n + N, ?_⟩
        simp only [List.map_cons, List.sum_cons, hN, hn]
        push_cast
        ring
    obtain ⟨N, h1⟩ := h1 m fun g hg => (hm g hg).2
    have h2 := sides_tel c (theta x)
    rw [hsum₁ fun e => theta x e.2 - theta x e.1, hsum₂ fun e => theta x e.2 - theta x e.1] at h2
    obtain ⟨n, hn⟩ := ang_mod hp hq
    refine ⟨N + n, ?_⟩
    rw [hRd, h1, hn]
    push_cast
    simp only at h2
    linarith
  have hA' : ang p q x ≤ π := Complex.arg_le_pi _
  have hA'' : -π < ang p q x := Complex.neg_pi_lt_arg _
  obtain ⟨δ, hδ, hR⟩ := Metric.continuousAt_iff.1 hc (|ang p q x| / 2) (by have := abs_pos.2 hA; positivity)
  have main : ∀ z ∈ Metric.ball x δ, ¬ OnRing c z → 2 * π * N - ang p q x - 2 * π - |ang p q x| / 2 < 2 * π * winding c z ∧
      2 * π * winding c z < 2 * π * N - ang p q x + 2 * π + |ang p q x| / 2 := by
    intro z hz hoff
    have h1 := hR hz
    rw [Real.dist_eq, abs_lt, ← hRd, hN] at h1
    have h2 := winding_angle hoff
    rw [hsum₁ fun g => ang g.1 g.2 z, hsum₂ fun g => ang g.1 g.2 z] at h2
    obtain ⟨h3, h4⟩ := ang_lt (u := p) (v := x) (z := z) fun hon => hoff ⟨_, he, hon⟩
    obtain ⟨h5, h6⟩ := ang_lt (u := x) (v := q) (z := z) fun hon => hoff ⟨_, hf, hon⟩
    constructor <;> linarith [h1.1, h1.2]
  rcases lt_or_gt_of_ne hA with hs | hs
  · rw [abs_of_neg hs] at main
    obtain ⟨k, hk⟩ := two_values (fun z => z ∈ Metric.ball x δ ∧ ¬ OnRing c z) (winding c) (2 * π * N - π) (by
      rintro z ⟨hz, hoff⟩
      obtain ⟨a1, a2⟩ := main z hz hoff
      have b1 : (N - 1 : ℤ) < winding c z := int_lt (by push_cast; linarith)
      have b2 : winding c z < N + 2 := int_lt (by push_cast; linarith)
      have b1' : ((N : ℝ)) ≤ winding c z := by exact_mod_cast (by omega : N ≤ winding c z)
      have b2' : (winding c z : ℝ) ≤ N + 1 := by exact_mod_cast (by omega : winding c z ≤ N + 1)
      constructor <;> nlinarith)
    exact ⟨k, δ, hδ, fun z hz hoff => hk z ⟨hz, hoff⟩⟩
  · rw [abs_of_pos hs] at main
    obtain ⟨k, hk⟩ := two_values (fun z => z ∈ Metric.ball x δ ∧ ¬ OnRing c z) (winding c) (2 * π * N - 4 * π + π) (by
      rintro z ⟨hz, hoff⟩
      obtain ⟨a1, a2⟩ := main z hz hoff
      have b1 : (N - 2 : ℤ) < winding c z := int_lt (by push_cast; linarith)
      have b2 : winding c z < N + 1 := int_lt (by push_cast; linarith)
      have b1' : ((N : ℝ)) - 1 ≤ winding c z := by exact_mod_cast (by omega : N - 1 ≤ winding c z)
      have b2' : (winding c z : ℝ) ≤ N := by exact_mod_cast (by omega : winding c z ≤ N)
      constructor <;> nlinarith)
    exact ⟨k, δ, hδ, fun z hz hoff => hk z ⟨hz, hoff⟩⟩

/-- consecutive sides of a simple ring do not go back over each other -/
theorem corner_open {c : List (ℝ × ℝ)} (hc : SimpleRing c) {p x q : ℝ × ℝ} (he : (p, x) ∈ sides c) (hf : (x, q) ∈ sides c) (hp : p ≠ x)
    (hq : q ≠ x) : ang p q x ≠ 0 := by
  intro h0
  obtain ⟨h1, h2⟩ := Complex.arg_eq_zero_iff.1 h0
  set r := (cx (q - x) / cx (p - x)).re with hr
  have e : cx (q - x) = r * cx (p - x) := by
    rw [← div_eq_iff (cx_ne hp)]
    apply Complex.ext
    · rw [Complex.ofReal_re]
    · rw [Complex.ofReal_im, h2]
  have e1 := congrArg Complex.re e
  have e2 := congrArg Complex.im e
  simp only [cx, Prod.fst_sub, Prod.snd_sub, Complex.mul_re, Complex.mul_im, Complex.ofReal_re, Complex.ofReal_im, zero_mul, sub_zero, add_zero] at e1 e2
  have hr0 : 0 < r := by
    refine lt_of_le_of_ne h1 fun h => hq ?_
    rw [← h] at e1 e2
    ext <;> linarith
  have hs : 0 < min 1 r / 2 := by positivity
  have hs1 : min 1 r / 2 < 1 := by have := min_le_left 1 r; linarith
  have hsr : min 1 r / 2 ≤ r := by have := min_le_right 1 r; linarith
  set s := min 1 r / 2 with hsd
  have hy1 : OnSeg p x (along x p s) := ⟨1 - s, by linarith, by linarith, by unfold along; ext <;> simp <;> ring⟩
  have hy2 : OnSeg x q (along x p s) := by
    refine ⟨s / r, by positivity, by rw [div_le_one hr0]; exact hsr, ?_⟩
    unfold along
    rw [e1, e2]
    ext <;> simp <;> field_simp
  have hne : ((p, x) : (ℝ × ℝ) × (ℝ × ℝ)) ≠ (x, q) := fun h => hp (Prod.mk.inj h).1
  have hin : ∀ t, along x p s = along x p t → s = t := by
    intro t ht
    have a1 := congrArg Prod.fst ht
    have a2 := congrArg Prod.snd ht
    simp only [along] at a1 a2
    by_contra hst
    have b1 : (s - t) * (p.1 - x.1) = 0 := by linarith
    have b2 : (s - t) * (p.2 - x.2) = 0 := by linarith
    have hst' := sub_ne_zero.2 hst
    apply hp
    ext
    · have := (mul_eq_zero.1 b1).resolve_left hst'; linarith
    · have := (mul_eq_zero.1 b2).resolve_left hst'; linarith
  rcases hc.2.2 _ he _ hf hne _ hy1 hy2 with ⟨h3, _⟩ | ⟨h3, _⟩
  · have := hin 0 (h3.trans (by simp [along])); linarith
  · have := hin 1 (h3.trans (by simp [along])); linarith

theorem near_ring {c : List (ℝ × ℝ)} (hc : SimpleRing c) {x : ℝ × ℝ} (hx : OnRing c x) : ∃ k, Near c x k := by
  obtain ⟨hl, hd, hs⟩ := hc
  obtain ⟨e, he, hon⟩ := hx
  by_cases h : ∀ g ∈ sides c, OnSeg g.1 g.2 x → g = e
  · exact near_mid hd he h
  · push Not at h
    obtain ⟨f, hf, hfx, hne⟩ := h
    have key : ∀ e ∈ sides c, ∀ f ∈ sides c, e ≠ f → x = e.2 → x = f.1 → OnSeg e.1 e.2 x → ∃ k, Near c x k := by
      intro e he f hf hne h1 h2 hon
      obtain ⟨p, x'⟩ := e
      obtain ⟨x'', q⟩ := f
      simp only at h1 h2
      subst h1
      subst h2
      have hp := sides_ne hl hd he
      have hq := (sides_ne hl hd hf).symm
      refine near_corner hd he hf hp hq (corner_open ⟨hl, hd, hs⟩ he hf hp hq) fun g hg hgx => ?_
      by_contra hc
      rw [not_or] at hc
      rcases hs _ he g hg (Ne.symm hc.1) x hon hgx with ⟨h1, h2⟩ | ⟨h1, h2⟩
      · exact hc.2 (sides_first hd hg hf h2.symm)
      · exact hp h1.symm
    rcases hs e he f hf hne.symm x hon hfx with ⟨h1, h2⟩ | ⟨h1, h2⟩
    · exact key e he f hf hne.symm h1 h2 hon
    · exact key f hf e he hne h2 h1 hfx

/-! ### both values occur -/

theorem along_cont (u v : ℝ × ℝ) : Continuous (along u v) := by unfold along; fun_prop

theorem along_inj {u v : ℝ × ℝ} (h : u ≠ v) {s t : ℝ} (ht : along u v s = along u v t) : s = t := by
  have a1 := congrArg Prod.fst ht
  have a2 := congrArg Prod.snd ht
  simp only [along] at a1 a2
  by_contra hst
  have b1 : (s - t) * (v.1 - u.1) = 0 := by linarith
  have b2 : (s - t) * (v.2 - u.2) = 0 := by linarith
  have hst' := sub_ne_zero.2 hst
  apply h
  ext
  · have := (mul_eq_zero.1 b1).resolve_left hst'; linarith
  · have := (mul_eq_zero.1 b2).resolve_left hst'; linarith

theorem seg_turn {u v z : ℝ × ℝ} (h : OnSeg u v z) : turn u v z = 0 := by
  obtain ⟨t, -, -, rfl⟩ := h
  unfold turn along
  ring

/-- crossing a side in its middle changes the winding number -/
theorem cross_mid {c : List (ℝ × ℝ)} (hd : c.Nodup) {u v : ℝ × ℝ} (he : (u, v) ∈ sides c) (huv : u ≠ v) {t : ℝ} (ht0 : 0 < t) (ht1 : t < 1)
    (h : ∀ g ∈ sides c, OnSeg g.1 g.2 (along u v t) → g = (u, v)) {δ : ℝ} (hδ : 0 < δ) :
    ∃ y ∈ Metric.ball (along u v t) δ, ∃ z ∈ Metric.ball (along u v t) δ, ¬ OnRing c y ∧ ¬ OnRing c z ∧ winding c y < winding c z := by
  set x := along u v t with hx
  have hpi := pi_pos
  obtain ⟨m, -, hm, hsum⟩ := apart (sides_nodup hd) he
  have hoff : ∀ g ∈ m, ¬ OnSeg g.1 g.2 x := by
    intro g hg hon
    obtain ⟨h2, h1⟩ := (hm g).1 hg
    exact h1 (h g h2 hon)
  have hc : ContinuousAt (fun z => (m.map fun g => ang g.1 g.2 z).sum) x := sum_cont m (fun g z => ang g.1 g.2 z) x fun g hg => ang_cont (hoff g hg)
  obtain ⟨η, hη, hR⟩ := Metric.continuousAt_iff.1 hc (π / 2) (by positivity)
  have hL : 0 < (v.1 - u.1) ^ 2 + (v.2 - u.2) ^ 2 := by
    by_contra hn
    have h1 : (v.1 - u.1) ^ 2 = 0 := by nlinarith [sq_nonneg (v.1 - u.1), sq_nonneg (v.2 - u.2)]
    have h2 : (v.2 - u.2) ^ 2 = 0 := by nlinarith [sq_nonneg (v.1 - u.1), sq_nonneg (v.2 - u.2)]
    apply huv
    ext
    · have := pow_eq_zero_iff (two_ne_zero) |>.1 h1; linarith
    · have := pow_eq_zero_iff (two_ne_zero) |>.1 h2; linarith
  -- the neighbourhood of the crossing point
  have hU : ∀ᶠ z in nhds x, z ∈ Metric.ball x δ ∧ z ∈ Metric.ball x η ∧ (∀ g ∈ m, ¬ OnSeg g.1 g.2 z) ∧
      (v.1 - z.1) * (u.1 - z.1) + (v.2 - z.2) * (u.2 - z.2) < 0 := by
    have o1 : IsOpen {z | ∀ g ∈ m, ¬ OnSeg g.1 g.2 z} := by
      have : {z | ∀ g ∈ m, ¬ OnSeg g.1 g.2 z} = ⋂ g ∈ {g | g ∈ m}, {z | OnSeg g.1 g.2 z}ᶜ := by ext z; simp
      rw [this]
      exact (List.finite_toSet m).isOpen_biInter fun g _ => (seg_compact _ _).isClosed.isOpen_compl
    have o2 : IsOpen {z : ℝ × ℝ | (v.1 - z.1) * (u.1 - z.1) + (v.2 - z.2) * (u.2 - z.2) < 0} := isOpen_lt (by fun_prop) continuous_const
    filter_upwards [Metric.ball_mem_nhds x hδ, Metric.ball_mem_nhds x hη, o1.mem_nhds hoff, o2.mem_nhds (by
      show (v.1 - x.1) * (u.1 - x.1) + (v.2 - x.2) * (u.2 - x.2) < 0
      have : (v.1 - x.1) * (u.1 - x.1) + (v.2 - x.2) * (u.2 - x.2) = -(t * (1 - t) * ((v.1 - u.1) ^ 2 + (v.2 - u.2) ^ 2)) := by
        rw [hx]; unfold along; ring
      rw [this]
      have : 0 < t * (1 - t) := mul_pos ht0 (by linarith)
      have := mul_pos this hL
      linarith)] with z h1 h2 h3 h4
    exact ⟨h1, h2, h3, h4⟩
  have side : ∀ s : ℝ, Filter.Tendsto (fun τ : ℝ => ((x.1 - s * τ * (v.2 - u.2), x.2 + s * τ * (v.1 - u.1)) : ℝ × ℝ)) (nhds 0) (nhds x) := by
    intro s
    have : Continuous fun τ : ℝ => ((x.1 - s * τ * (v.2 - u.2), x.2 + s * τ * (v.1 - u.1)) : ℝ × ℝ) := by fun_prop
    have := this.tendsto 0
    simpa using this
  obtain ⟨τ, ⟨⟨a1, a2, a3, a4⟩, ⟨b1, b2, b3, b4⟩⟩, hτ⟩ := ((((side 1).eventually hU).and ((side (-1)).eventually hU)).filter_mono
    (nhdsWithin_le_nhds (s := Ioi 0))).and self_mem_nhdsWithin |>.exists
  have hτ : 0 < τ := hτ
  set z : ℝ × ℝ := (x.1 - 1 * τ * (v.2 - u.2), x.2 + 1 * τ * (v.1 - u.1)) with hz
  set y : ℝ × ℝ := (x.1 - -1 * τ * (v.2 - u.2), x.2 + -1 * τ * (v.1 - u.1)) with hy
  have tz : 0 < turn u v z := by
    have : turn u v z = τ * ((v.1 - u.1) ^ 2 + (v.2 - u.2) ^ 2) := by rw [hz, hx]; unfold turn along; ring
    rw [this]; exact mul_pos hτ hL
  have ty : turn u v y < 0 := by
    have : turn u v y = -(τ * ((v.1 - u.1) ^ 2 + (v.2 - u.2) ^ 2)) := by rw [hy, hx]; unfold turn along; ring
    rw [this]; have := mul_pos hτ hL; linarith
  have zoff : ¬ OnRing c z := by
    rintro ⟨g, hg, hon⟩
    by_cases hge : g = (u, v)
    · subst hge; have := seg_turn hon; simp only at this; linarith
    · exact a3 g ((hm g).2 ⟨hg, hge⟩) hon
  have yoff : ¬ OnRing c y := by
    rintro ⟨g, hg, hon⟩
    by_cases hge : g = (u, v)
    · subst hge; have := seg_turn hon; simp only at this; linarith
    · exact b3 g ((hm g).2 ⟨hg, hge⟩) hon
  refine ⟨y, b1, z, a1, yoff, zoff, ?_⟩
  have hN : ∀ z : ℝ × ℝ, turn u v z ≠ 0 → 0 < Complex.normSq (cx (u - z)) := by
    intro z h
    refine Complex.normSq_pos.2 (cx_ne ?_)
    rintro rfl
    exact h (seg_turn (end_on _ _).1)
  have az : π / 2 < ang u v z := by
    by_contra hn
    rcases Complex.arg_le_pi_div_two_iff.1 (not_lt.1 hn) with h1 | h1
    · rw [ratio_re] at h1
      exact absurd h1 (not_le.2 (div_neg_of_neg_of_pos a4 (hN z tz.ne')))
    · rw [ratio_im] at h1
      exact absurd h1 (not_lt.2 (div_pos tz (hN z tz.ne')).le)
  have ay : ang u v y < -(π / 2) := by
    by_contra hn
    rcases Complex.neg_pi_div_two_le_arg_iff.1 (not_lt.1 hn) with h1 | h1
    · rw [ratio_re] at h1
      exact absurd h1 (not_le.2 (div_neg_of_neg_of_pos b4 (hN y ty.ne)))
    · rw [ratio_im] at h1
      exact absurd h1 (not_le.2 (div_neg_of_neg_of_pos ty (hN y ty.ne)))
  have wz := winding_angle zoff
  have wy := winding_angle yoff
  rw [hsum fun g => ang g.1 g.2 z] at wz
  rw [hsum fun g => ang g.1 g.2 y] at wy
  have rz := hR a2
  have ry := hR b2
  rw [Real.dist_eq, abs_lt] at rz ry
  simp only at wz wy
  exact int_lt (by linarith [rz.1, rz.2, ry.1, ry.2])

theorem cross_ring {c : List (ℝ × ℝ)} (hc : SimpleRing c) {x : ℝ × ℝ} (hx : OnRing c x) {δ : ℝ} (hδ : 0 < δ) :
    ∃ y ∈ Metric.ball x δ, ∃ z ∈ Metric.ball x δ, ¬ OnRing c y ∧ ¬ OnRing c z ∧ winding c y < winding c z := by
  obtain ⟨hl, hd, hs⟩ := hc
  obtain ⟨⟨u, v⟩, he, t, h0, h1, rfl⟩ := hx
  have huv : u ≠ v := sides_ne hl hd he
  have hcl : t ∈ closure (Ioo (0 : ℝ) 1) := by rw [closure_Ioo zero_ne_one]; exact ⟨h0, h1⟩
  have hnb : along u v ⁻¹' Metric.ball (along u v t) δ ∈ nhds t := (along_cont u v).continuousAt.preimage_mem_nhds (Metric.ball_mem_nhds _ hδ)
  obtain ⟨s, hs1, hs2⟩ := mem_closure_iff_nhds.1 hcl _ hnb
  have honly : ∀ g ∈ sides c, OnSeg g.1 g.2 (along u v s) → g = (u, v) := by
    intro g hg hon
    by_contra hne
    rcases hs _ he g hg (Ne.symm hne) _ ⟨s, hs2.1.le, hs2.2.le, rfl⟩ hon with ⟨h3, _⟩ | ⟨h3, _⟩
    · have := along_inj huv (h3.trans (by simp [along] : v = along u v 1)); linarith [hs2.2]
    · have := along_inj huv (h3.trans (by simp [along] : u = along u v 0)); linarith [hs2.1]
  have hs1' : dist (along u v s) (along u v t) < δ := hs1
  obtain ⟨y, hy, z, hz, h3⟩ := cross_mid hd he huv hs2.1 hs2.2 honly (δ := δ - dist (along u v s) (along u v t)) (by linarith)
  have hsub : Metric.ball (along u v s) (δ - dist (along u v s) (along u v t)) ⊆ Metric.ball (along u v t) δ :=
    Metric.ball_subset_ball' (by linarith)
  exact ⟨y, hsub hy, z, hsub hz, h3⟩

/-! ### the two values are the same all along the ring -/

theorem near_same {c : List (ℝ × ℝ)} (hc : SimpleRing c) {x y : ℝ × ℝ} {k l : ℤ} {δ : ℝ}
    (h : ∀ z ∈ Metric.ball x δ, ¬ OnRing c z → winding c z = k ∨ winding c z = k + 1) (hy : OnRing c y) (hd : dist y x < δ) (hl : Near c y l) : l = k := by
  obtain ⟨η, hη, h2⟩ := hl
  obtain ⟨a, ha, b, hb, oa, ob, hlt⟩ := cross_ring hc hy (δ := min η (δ - dist y x)) (lt_min hη (by linarith))
  have s1 : Metric.ball y (min η (δ - dist y x)) ⊆ Metric.ball x δ := Metric.ball_subset_ball' (by have := min_le_right η (δ - dist y x); linarith)
  have s2 : Metric.ball y (min η (δ - dist y x)) ⊆ Metric.ball y η := Metric.ball_subset_ball (min_le_left _ _)
  have h3 := h a (s1 ha) oa
  have h4 := h b (s1 hb) ob
  have h5 := h2 a (s2 ha) oa
  have h6 := h2 b (s2 hb) ob
  omega

theorem near_all {c : List (ℝ × ℝ)} (hc : SimpleRing c) : ∃ k, ∀ x, OnRing c x → Near c x k := by
  classical
  choose! κ hκ using fun (x : ℝ × ℝ) (hx : OnRing c x) => near_ring hc hx
  have hcont : ContinuousOn κ {x | OnRing c x} := by
    intro x hx
    obtain ⟨δ, hδ, h⟩ := hκ x hx
    have hev : ∀ᶠ y in nhdsWithin x {x | OnRing c x}, κ y = κ x := by
      filter_upwards [mem_nhdsWithin_of_mem_nhds (Metric.ball_mem_nhds x hδ), self_mem_nhdsWithin] with y hy1 hy2
      exact near_same hc h hy2 hy1 (hκ y hy2)
    exact (continuousWithinAt_const (b := κ x)).congr_of_eventuallyEq hev rfl
  have hside : ∀ e ∈ sides c, ∀ x, OnSeg e.1 e.2 x → κ x = κ e.1 := by
    intro e he x hx
    have hpre : IsPreconnected {x | OnSeg e.1 e.2 x} := by rw [seg_eq]; exact (convex_segment _ _).isPreconnected
    exact hpre.constant (hcont.mono fun y hy => ⟨e, he, hy⟩) hx (end_on _ _).1
  have hcor : ∀ a ∈ c, ∀ b ∈ c, κ a = κ b := fun a ha b hb => corners_same (fun e he => (hside e he e.2 (end_on _ _).2).symm) ha hb
  match c, hc with
  | [], hc => exact absurd hc.1 (by simp)
  | a :: l, hc =>
    refine ⟨κ a, fun x hx => ?_⟩
    obtain ⟨e, he, hon⟩ := id hx
    have := hκ x hx
    rw [hside e he x hon, hcor _ (side_fst_mem he) a List.mem_cons_self] at this
    exact this

/-! ### every point sees the ring -/

theorem winding_near {c : List (ℝ × ℝ)} {k : ℤ} (hne : ∃ x, OnRing c x) (h : ∀ x, OnRing c x → Near c x k) {z : ℝ × ℝ} (hz : ¬ OnRing c z) :
    winding c z = k ∨ winding c z = k + 1 := by
  obtain ⟨x, hx, hmin⟩ := (ring_compact c).exists_isMinOn hne (f := fun x => dist x z) (by fun_prop)
  obtain ⟨δ, hδ, hk⟩ := h x hx
  have hzx : 0 < dist x z := dist_pos.2 (by rintro rfl; exact hz hx)
  have hd : ∀ t : ℝ, dist (AffineMap.lineMap z x t : ℝ × ℝ) z = |t| * dist x z := by
    intro t
    rw [dist_lineMap_left, Real.norm_eq_abs, dist_comm]
  have hoff : ∀ y ∈ (AffineMap.lineMap z x : ℝ → ℝ × ℝ) '' Ico 0 1, ¬ OnRing c y := by
    rintro y ⟨t, ⟨ht0, ht1⟩, rfl⟩ hon
    have h1 : dist x z ≤ dist (AffineMap.lineMap z x t : ℝ × ℝ) z := hmin hon
    rw [hd, abs_of_nonneg ht0] at h1
    nlinarith
  have hpre : IsPreconnected ((AffineMap.lineMap z x : ℝ → ℝ × ℝ) '' Ico 0 1) :=
    isPreconnected_Ico.image _ (by fun_prop)
  have hcl : (1 : ℝ) ∈ closure (Ico (0 : ℝ) 1) := by rw [closure_Ico zero_ne_one]; exact ⟨zero_le_one, le_rfl⟩
  have hnb : (AffineMap.lineMap z x : ℝ → ℝ × ℝ) ⁻¹' Metric.ball x δ ∈ nhds (1 : ℝ) := by
    have hcn : Continuous (AffineMap.lineMap z x : ℝ → ℝ × ℝ) := by fun_prop
    refine hcn.continuousAt.preimage_mem_nhds ?_
    rw [AffineMap.lineMap_apply_one]
    exact Metric.ball_mem_nhds _ hδ
  obtain ⟨s, hs1, hs2⟩ := mem_closure_iff_nhds.1 hcl _ hnb
  have h0 : z ∈ (AffineMap.lineMap z x : ℝ → ℝ × ℝ) '' Ico 0 1 := ⟨0, ⟨le_rfl, zero_lt_one⟩, AffineMap.lineMap_apply_zero _ _⟩
  rw [winding_path c hpre hoff h0 ⟨s, hs2, rfl⟩]
  exact hk _ hs1 (hoff _ ⟨s, hs2, rfl⟩)

theorem winding_far (c : List (ℝ × ℝ)) : ∃ z, ¬ OnRing c z ∧ winding c z = 0 := by
  obtain ⟨Y, hY⟩ : ∃ Y : ℝ, ∀ p ∈ c, p.2 < Y := by
    clear * -
    induction c with
    | nil => exact ⟨0, by simp⟩
    | cons a c ih =>
      obtain ⟨Y, hY⟩ := ih
      refine ⟨max Y (a.2 + 1), fun p hp => ?_⟩
      rcases List.mem_cons.1 hp with rfl | hp
      · have := le_max_right Y (p.2 + 1); linarith
      · exact lt_of_lt_of_le (hY p hp) (le_max_left _ _)
  have hmem : ∀ e ∈ sides c, e.1.2 < Y ∧ e.2.2 < Y := by
    intro e he
    obtain ⟨i, hi, rfl⟩ := sides_get he
    exact ⟨hY _ (List.getElem_mem _), hY _ (List.getElem_mem _)⟩
  refine ⟨(0, Y), ?_, ?_⟩
  · rintro ⟨e, he, t, h0, h1, h⟩
    have h2 := congrArg Prod.snd h
    simp only [along] at h2
    obtain ⟨h3, h4⟩ := hmem e he
    rcases eq_or_lt_of_le h0 with h5 | h5
    · rw [← h5] at h2; linarith
    · have a1 := mul_pos h5 (sub_pos.2 h4)
      have a2 := mul_nonneg (sub_nonneg.2 h1) (sub_pos.2 h3).le
      linarith
  · have h := winding_chi c (0, Y)
    have h0 : (sides c).map (fun e => chi e.1 e.2 (0, Y)) = (sides c).map fun _ => 0 := by
      apply List.map_congr_left
      intro e he
      obtain ⟨h3, h4⟩ := hmem e he
      unfold chi
      simp [not_lt.2 h3.le, not_lt.2 h4.le]
    rw [h0] at h
    simpa using h

/-- a simple ring goes round the points off it once or not at all, all in the same direction -/
theorem simple_winding {c : List (ℝ × ℝ)} (hc : SimpleRing c) :
    (∀ z, ¬ OnRing c z → winding c z = 0 ∨ winding c z = 1) ∨ (∀ z, ¬ OnRing c z → winding c z = 0 ∨ winding c z = -1) := by
  obtain ⟨k, hk⟩ := near_all hc
  have hne : ∃ x, OnRing c x := by
    match c, hc with
    | [], hc => exact absurd hc.1 (by simp)
    | a :: l, hc =>
      obtain ⟨e, he, h⟩ : ∃ e ∈ sides (a :: l), Prod.fst e = a := by
        have : a ∈ (sides (a :: l)).map Prod.fst := by rw [sides_fst]; exact List.mem_cons_self
        exact List.mem_map.1 this
      exact ⟨e.1, e, he, (end_on _ _).1⟩
  have h := fun z hz => winding_near (z := z) hne hk hz
  obtain ⟨z₀, o₀, w₀⟩ := winding_far c
  have h0 := h z₀ o₀
  rw [w₀] at h0
  rcases h0 with h0 | h0
  · left
    intro z hz
    have := h z hz
    omega
  · right
    intro z hz
    have := h z hz
    omega

end GoGeo.Region
