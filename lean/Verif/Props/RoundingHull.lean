import Verif.Geo.HullSim
import Verif.Props.Hull
import Verif.Props.Rounding

/-!
# Convex hulls in float64: C113
-/

set_option linter.unusedSectionVars false

namespace GoGeo
open GoFloat FloatVal Spec

section
variable {F K : Type} [GoFloat F] [Field K] [LinearOrder K] [IsStrictOrderedRing K] [FloatVal F K]
include K

/-! ### the predicates from the values of the computed numbers -/

theorem isLeft_of_sign {a b c : Point F} {x y z : K × K} (ha : At a x) (hb : At b y) (hc : At c z) {V : K} (hV : val (Area2 a b c) = .fin V)
    (h : 0 ≤ V ↔ 0 ≤ turn x y z) : isLeft (vp a) (vp b) (vp c) = isLeft a b c := by
  rw [vp_at ha, vp_at hb, vp_at hc, Bool.eq_iff_iff, isLeft_fin]
  unfold isLeft GoFloat.ge
  rw [val_le, hV, val_lit0, ← h]
  show _ ↔ decide (0 ≤ V) = true
  rw [decide_eq_true_eq]

theorem hullLess_of_sign {a b c : Point F} {x y z : K × K} (ha : At a x) (hb : At b y) (hc : At c z) {V X Y : K} (hV : val (Area2 a b c) = .fin V)
    (hX : val (abs (b.X - a.X) - abs (c.X - a.X)) = .fin X) (hY : val (abs (b.Y - a.Y) - abs (c.Y - a.Y)) = .fin Y)
    (h0 : V = 0 ↔ turn x y z = 0) (hp : 0 < V ↔ 0 < turn x y z)
    (hXY : turn x y z = 0 → ((X < 0 ∨ Y < 0) ↔ (|y.1 - x.1| < |z.1 - x.1| ∨ |y.2 - x.2| < |z.2 - x.2|))) :
    hullLess (vp a) (vp b) (vp c) = hullLess a b c := by
  rw [vp_at ha, vp_at hb, vp_at hc, Bool.eq_iff_iff, hullLess_fin]
  unfold hullLess GoFloat.gt
  have vl : ∀ a b : F, lt a b = XR.lt (val a) (val b) := val_lt
  have ve : ∀ a b : F, eq a b = XR.eq (val a) (val b) := val_eq
  simp only [ve, vl, hV, hX, hY, val_lit0, XR.eq, XR.lt]
  by_cases hT : turn x y z = 0
  · have hV0 := h0.2 hT
    simp [hT, hV0, ← hXY hT]
  · have hV0 : ¬ V = 0 := fun e => hT (h0.1 e)
    simp [hT, hV0, hp]

theorem val_sub_fin {f g : F} {x y : K} (hf : val f = .fin x) (hg : val g = .fin y) : val (f - g) = rnd F (.fin (x - y)) := by
  rw [val_sub, hf, hg, sub_eq_add_neg]; rfl

theorem val_mul_fin {f g : F} {x y : K} (hf : val f = .fin x) (hg : val g = .fin y) : val (f * g) = rnd F (.fin (x * y)) := by
  rw [val_mul, hf, hg]; rfl

theorem val_abs_fin {f : F} {x : K} (hf : val f = .fin x) : val (abs f) = .fin |x| := by
  rw [val_abs, hf]; exact XR.fin_abs x

theorem rnd_of_val {f : F} {x : K} (hf : val f = .fin x) : rnd F (.fin x) = .fin x := by
  rw [← hf, rnd_val]

theorem close_symm {a b : K × K} (h : Close a b) : Close b a := by
  unfold Close at *
  rw [abs_sub_comm b.1, abs_sub_comm b.2]; exact h

/-- points that are not within 1e-6 of each other, unless they are the same, are compared rightly -/
theorem equal_of_apart {a b : Point F} {x y : K × K} (ha : At a x) (hb : At b y) (h : x = y ∨ ¬ Close x y) {e : K} (he : val (COORDPRESION : F) = .fin e) (hpos : 0 < e)
    (hfin : ∀ u v : F, ∀ s t : K, val u = .fin s → val v = .fin t → (s = x.1 ∧ t = y.1 ∨ s = x.2 ∧ t = y.2) → ∃ w, val (u - v) = .fin w) :
    (vp a).Equal (vp b) = a.Equal b := by
  rw [vp_at ha, vp_at hb, Bool.eq_iff_iff, equal_pt]
  obtain ⟨w1, e1⟩ := hfin a.X b.X _ _ ha.1 hb.1 (.inl ⟨rfl, rfl⟩)
  obtain ⟨w2, e2⟩ := hfin a.Y b.Y _ _ ha.2 hb.2 (.inr ⟨rfl, rfl⟩)
  have r1 : rnd F (.fin (x.1 - y.1)) = .fin w1 := by rw [← e1, val_sub_fin ha.1 hb.1]
  have r2 : rnd F (.fin (x.2 - y.2)) = .fin w2 := by rw [← e2, val_sub_fin ha.2 hb.2]
  have hE : a.Equal b = true ↔ |w1| < e ∧ |w2| < e := by
    have vl : ∀ a b : F, lt a b = XR.lt (val a) (val b) := val_lt
    unfold Point.Equal
    simp only [vl, val_abs_fin e1, val_abs_fin e2, he, XR.lt, Bool.and_eq_true, decide_eq_true_eq]
  rw [hE]
  rcases h with rfl | h
  · rw [sub_self, rnd_zero] at r1 r2
    injection r1 with r1
    injection r2 with r2
    subst r1; subst r2
    simp [Close, hpos]
  · refine ⟨fun hc => absurd hc h, fun hc => absurd ?_ h⟩
    have back : ∀ {u w : K}, rnd F (.fin u) = .fin w → |w| < e → |u| < 1 / 10 ^ 6 := by
      intro u w hu hw
      by_contra hcon
      have hre : rnd F (.fin (1 / 10 ^ 6 : K)) = .fin e := by
        rw [← he]; unfold COORDPRESION; rw [val_dec, Nat.cast_one]
      have hle := not_lt.1 hcon
      rcases abs_cases u with ⟨hu', _⟩ | ⟨hu', _⟩
      · rw [hu'] at hle
        have := rnd_mono (F := F) (.fin (1 / 10 ^ 6 : K)) (.fin u) (by simpa [XR.le] using hle)
        rw [hre, hu] at this
        have := of_decide_eq_true this
        have := le_abs_self w
        linarith
      · rw [hu'] at hle
        have := rnd_mono (F := F) (.fin (1 / 10 ^ 6 : K)) (.fin (-u)) (by simpa [XR.le] using hle)
        have hneg : rnd F (.fin (-u)) = .fin (-w) := by
          have := rnd_neg (F := F) (.fin u)
          rw [hu] at this
          exact this
        rw [hre, hneg] at this
        have := of_decide_eq_true this
        have := neg_le_abs w
        linarith
    exact ⟨back r1 hc.1, back r2 hc.2⟩

/-- the result for points on which the predicates answer like the exact ones -/
theorem hull_of_sim {ps : List (Point F)} {pts : List (K × K)} (hat : List.Forall₂ At ps pts) (sim : HullSim fun p : Point F => ∃ x ∈ pts, At p x)
    (sortPts : List (Point F) → List (Point F)) (hs : HullSort sortPts) (hd : pts.Pairwise fun a b => ¬ Close a b) (h3 : 3 ≤ pts.length) :
    ∃ after r v, ConvexHull sortPts ps = .ok (after, some r) ∧ HullOf pts v ∧ r.map vp = ring v := by
  have hmap : ps.map vp = pts.map pt := by
    clear sim hd h3
    induction hat with
    | nil => rfl
    | cons h _ ih => rw [List.map_cons, List.map_cons, vp_at h, ih]
  have hne : pts ≠ [] := by rintro rfl; simp at h3
  have hne' : ps ≠ [] := by rintro rfl; simp at hmap; exact hne hmap
  obtain ⟨o, l, hF, hperm, hA⟩ := FindLowestPoint_fin pts hne
  have hFv : (FindLowestPoint ps).map vp = pt o :: l.map pt := by rw [← FindLowestPoint_vp, hmap, hF]
  rcases hFL : FindLowestPoint ps with _ | ⟨o', l'⟩
  · rw [hFL] at hFv; simp at hFv
  rw [hFL, List.map_cons] at hFv
  injection hFv with ho hl
  have hS : ∀ p ∈ o' :: l', ∃ x ∈ pts, At p x := by
    intro p hp
    rw [← hFL] at hp
    exact forall₂_mem_left hat ((FindLowestPoint_perm ps hne').mem_iff.1 hp)
  obtain ⟨k1, k2⟩ := sortVp_hullSort sim sortPts hs o' l' hS (by rw [ho, hl]; exact headLeast_fin o l)
    (by rw [List.map_cons, ho, hl]; exact weakOrder_hull o (o :: l) fun x hx => hA x (hperm.mem_iff.1 hx))
  rw [← hFL] at k1 k2
  obtain ⟨after, v, g1, g2⟩ := C48_hull_apart _ k2 pts hd h3
  have := ConvexHull_vp sim sortPts ps k1
  rw [hmap, g1] at this
  cases hr : ConvexHull sortPts ps with
  | error e => rw [hr] at this; simp [Except.map] at this
  | ok q =>
    obtain ⟨after', r⟩ := q
    rw [hr] at this
    simp only [Except.map, Except.ok.injEq, Prod.mk.injEq] at this
    cases r with
    | none => simp at this
    | some r =>
      refine ⟨after', r, v, rfl, g2, ?_⟩
      have := this.2
      simp only [Option.map_some, Option.some.injEq] at this
      exact this.symm

/-! ### coordinates on a grid -/

theorem rnd_int (n : ℤ) (k : ℕ) (hn : |n| ≤ 2 ^ 53) (hk : k ≤ 1074) : rnd F (.fin ((n : K) / 2 ^ k)) = .fin ((n : K) / 2 ^ k) := by
  obtain ⟨m, rfl | rfl⟩ := n.eq_nat_or_neg
  · have := rnd_frac (F := F) (K := K) m k (by rw [Nat.abs_cast] at hn; exact_mod_cast hn) hk
    rw [Int.cast_natCast]; exact this
  · have := rnd_frac (F := F) (K := K) m k (by rw [abs_neg, Nat.abs_cast] at hn; exact_mod_cast hn) hk
    have h2 := rnd_neg (F := F) (.fin ((m : K) / 2 ^ k))
    rw [this] at h2
    rw [Int.cast_neg, Int.cast_natCast, neg_div]
    exact h2

theorem grid_sub {f g : F} {m n : ℤ} {k : ℕ} (hf : val f = .fin ((m : K) / 2 ^ k)) (hg : val g = .fin ((n : K) / 2 ^ k)) (h : |m - n| ≤ 2 ^ 53) (hk : k ≤ 1074) :
    val (f - g) = .fin (((m - n : ℤ) : K) / 2 ^ k) := by
  rw [val_sub_fin hf hg]
  have : (m : K) / 2 ^ k - (n : K) / 2 ^ k = ((m - n : ℤ) : K) / 2 ^ k := by push_cast; ring
  rw [this]
  exact rnd_int _ _ h hk

theorem grid_mul {f g : F} {m n : ℤ} {k l : ℕ} (hf : val f = .fin ((m : K) / 2 ^ k)) (hg : val g = .fin ((n : K) / 2 ^ l)) (h : |m * n| ≤ 2 ^ 53) (hk : k + l ≤ 1074) :
    val (f * g) = .fin (((m * n : ℤ) : K) / 2 ^ (k + l)) := by
  rw [val_mul_fin hf hg]
  have : (m : K) / 2 ^ k * ((n : K) / 2 ^ l) = ((m * n : ℤ) : K) / 2 ^ (k + l) := by
    push_cast; rw [pow_add]; field_simp
  rw [this]
  exact rnd_int _ _ h hk

theorem grid_abs {f : F} {m : ℤ} {k : ℕ} (hf : val f = .fin ((m : K) / 2 ^ k)) : val (abs f) = .fin (((|m| : ℤ) : K) / 2 ^ k) := by
  rw [val_abs_fin hf, abs_div, abs_of_pos (show (0 : K) < 2 ^ k by positivity)]
  push_cast; rfl

theorem grid_area {a b c : Point F} {k : ℕ} (hk : k ≤ 500) {m1 n1 m2 n2 m3 n3 : ℤ} (ha : At a ((m1 : K) / 2 ^ k, (n1 : K) / 2 ^ k)) (hb : At b ((m2 : K) / 2 ^ k, (n2 : K) / 2 ^ k))
    (hc : At c ((m3 : K) / 2 ^ k, (n3 : K) / 2 ^ k)) (b1 : |m1| ≤ 2 ^ 25) (b2 : |n1| ≤ 2 ^ 25) (b3 : |m2| ≤ 2 ^ 25) (b4 : |n2| ≤ 2 ^ 25) (b5 : |m3| ≤ 2 ^ 25) (b6 : |n3| ≤ 2 ^ 25) :
    val (Area2 a b c) = .fin (turn ((m1 : K) / 2 ^ k, (n1 : K) / 2 ^ k) ((m2 : K) / 2 ^ k, (n2 : K) / 2 ^ k) ((m3 : K) / 2 ^ k, (n3 : K) / 2 ^ k)) := by
  have d : ∀ u v : ℤ, |u| ≤ 2 ^ 25 → |v| ≤ 2 ^ 25 → |u - v| ≤ 2 ^ 26 := fun u v hu hv => (abs_sub u v).trans (by norm_num at *; omega)
  have pr : ∀ u v : ℤ, |u| ≤ 2 ^ 26 → |v| ≤ 2 ^ 26 → |u * v| ≤ 2 ^ 52 := by
    intro u v hu hv
    rw [abs_mul]
    calc |u| * |v| ≤ 2 ^ 26 * 2 ^ 26 := mul_le_mul hu hv (abs_nonneg _) (by positivity)
      _ = 2 ^ 52 := by norm_num
  have s1 := grid_sub hb.1 ha.1 ((d m2 m1 b3 b1).trans (by norm_num)) (by omega)
  have s2 := grid_sub hc.2 ha.2 ((d n3 n1 b6 b2).trans (by norm_num)) (by omega)
  have s3 := grid_sub hc.1 ha.1 ((d m3 m1 b5 b1).trans (by norm_num)) (by omega)
  have s4 := grid_sub hb.2 ha.2 ((d n2 n1 b4 b2).trans (by norm_num)) (by omega)
  have q1 := pr _ _ (d m2 m1 b3 b1) (d n3 n1 b6 b2)
  have q2 := pr _ _ (d m3 m1 b5 b1) (d n2 n1 b4 b2)
  have p1 := grid_mul s1 s2 (q1.trans (by norm_num)) (by omega)
  have p2 := grid_mul s3 s4 (q2.trans (by norm_num)) (by omega)
  have := grid_sub p1 p2 ((abs_sub _ _).trans (by norm_num at q1 q2 ⊢; omega)) (by omega)
  unfold Area2
  rw [this]
  congr 1
  unfold turn
  push_cast
  rw [pow_add]
  field_simp

theorem sim_grid {k : ℕ} (hk : k ≤ 500) {pts : List (K × K)} (hg : ∀ x ∈ pts, OnGrid 25 k x) (hd : pts.Pairwise fun a b => ¬ Close a b)
    {e : K} (he : val (COORDPRESION : F) = .fin e) (hpos : 0 < e) : HullSim fun p : Point F => ∃ x ∈ pts, At p x := by
  have ab : ∀ u v : ℤ, |u| ≤ 2 ^ 25 → |v| ≤ 2 ^ 25 → |u - v| ≤ 2 ^ 26 := fun u v hu hv => (abs_sub u v).trans (by norm_num at *; omega)
  refine ⟨?_, ?_, ?_⟩
  · rintro a b c ⟨x, hx, ha⟩ ⟨y, hy, hb⟩ ⟨z, hz, hc⟩
    obtain ⟨m1, n1, b1, b2, rfl⟩ := hg x hx
    obtain ⟨m2, n2, b3, b4, rfl⟩ := hg y hy
    obtain ⟨m3, n3, b5, b6, rfl⟩ := hg z hz
    have key : ∀ {f g h : F} {u v w : ℤ}, val f = .fin ((u : K) / 2 ^ k) → val g = .fin ((v : K) / 2 ^ k) → val h = .fin ((w : K) / 2 ^ k) → |u| ≤ 2 ^ 25 → |v| ≤ 2 ^ 25 →
        |w| ≤ 2 ^ 25 → val (abs (g - f) - abs (h - f)) = .fin (|(v : K) / 2 ^ k - (u : K) / 2 ^ k| - |(w : K) / 2 ^ k - (u : K) / 2 ^ k|) := by
      intro f g h u v w hf hg hh hu hv hw
      have e1 := ab v u hv hu
      have e2 := ab w u hw hu
      rw [grid_sub (grid_abs (grid_sub hg hf (e1.trans (by norm_num)) (by omega))) (grid_abs (grid_sub hh hf (e2.trans (by norm_num)) (by omega)))
        ((abs_sub _ _).trans (by rw [abs_abs, abs_abs]; norm_num at e1 e2 ⊢; omega)) (by omega)]
      congr 1
      rw [← sub_div, ← sub_div, abs_div, abs_div, abs_of_pos (show (0 : K) < 2 ^ k by positivity), ← sub_div]
      push_cast; rfl
    refine hullLess_of_sign ha hb hc (grid_area hk ha hb hc b1 b2 b3 b4 b5 b6) (key ha.1 hb.1 hc.1 b1 b3 b5) (key ha.2 hb.2 hc.2 b2 b4 b6) Iff.rfl Iff.rfl ?_
    intro _
    rw [sub_neg, sub_neg]
  · rintro a b c ⟨x, hx, ha⟩ ⟨y, hy, hb⟩ ⟨z, hz, hc⟩
    obtain ⟨m1, n1, b1, b2, rfl⟩ := hg x hx
    obtain ⟨m2, n2, b3, b4, rfl⟩ := hg y hy
    obtain ⟨m3, n3, b5, b6, rfl⟩ := hg z hz
    exact isLeft_of_sign ha hb hc (grid_area hk ha hb hc b1 b2 b3 b4 b5 b6) Iff.rfl
  · rintro a b ⟨x, hx, ha⟩ ⟨y, hy, hb⟩
    have hxy : x = y ∨ ¬ Close x y := by
      by_cases h : x = y
      · exact .inl h
      · have : Std.Symm fun a b : K × K => ¬ Close a b := ⟨fun _ _ h h' => h (close_symm h')⟩
        exact .inr (hd.forall hx hy h)
    obtain ⟨m1, n1, b1, b2, rfl⟩ := hg x hx
    obtain ⟨m2, n2, b3, b4, rfl⟩ := hg y hy
    refine equal_of_apart ha hb hxy he hpos ?_
    rintro u v s t hu hv (⟨rfl, rfl⟩ | ⟨rfl, rfl⟩)
    · exact ⟨_, grid_sub hu hv ((ab _ _ b1 b3).trans (by norm_num)) (by omega)⟩
    · exact ⟨_, grid_sub hu hv ((ab _ _ b2 b4).trans (by norm_num)) (by omega)⟩

/-! ### points in general position -/

theorem area_degenerate [FloatErr F K] {a b c : Point F} {x y z : K × K} {M : K} (ha : At a x) (hb : At b y) (hc : At c z) (bx : Within M x) (by' : Within M y)
    (bz : Within M z) (h1 : 1 ≤ M) (h2 : M ≤ 2 ^ 100) (h : x = y ∨ x = z ∨ y = z) : val (Area2 a b c) = .fin 0 := by
  obtain ⟨d1, e1, g1⟩ := diff_near ha.1 hb.1 bx.1 by'.1 h1 h2
  obtain ⟨d2, e2, g2⟩ := diff_near ha.2 hc.2 bx.2 bz.2 h1 h2
  obtain ⟨d3, e3, g3⟩ := diff_near ha.1 hc.1 bx.1 bz.1 h1 h2
  obtain ⟨d4, e4, g4⟩ := diff_near ha.2 hb.2 bx.2 by'.2 h1 h2
  have r1 : rnd F (.fin (y.1 - x.1)) = .fin d1 := by rw [← e1, val_sub_fin hb.1 ha.1]
  have r2 : rnd F (.fin (z.2 - x.2)) = .fin d2 := by rw [← e2, val_sub_fin hc.2 ha.2]
  have r3 : rnd F (.fin (z.1 - x.1)) = .fin d3 := by rw [← e3, val_sub_fin hc.1 ha.1]
  have r4 : rnd F (.fin (y.2 - x.2)) = .fin d4 := by rw [← e4, val_sub_fin hb.2 ha.2]
  unfold Area2
  rw [val_sub, val_mul_fin e1 e2, val_mul_fin e3 e4]
  rcases h with rfl | rfl | rfl
  · rw [sub_self, rnd_zero] at r1 r4
    injection r1 with r1
    injection r4 with r4
    subst r1; subst r4
    rw [zero_mul, mul_zero, rnd_zero]
    show rnd F (.fin (0 + -0)) = _
    rw [neg_zero, add_zero, rnd_zero]
  · rw [sub_self, rnd_zero] at r2 r3
    injection r2 with r2
    injection r3 with r3
    subst r2; subst r3
    rw [zero_mul, mul_zero, rnd_zero]
    show rnd F (.fin (0 + -0)) = _
    rw [neg_zero, add_zero, rnd_zero]
  · have q1 : d3 = d1 := by rw [r1] at r3; injection r3 with r3; exact r3.symm
    have q2 : d4 = d2 := by rw [r2] at r4; injection r4 with r4; exact r4.symm
    subst q1; subst q2
    have hb1 : |d3| ≤ 3 * M := by
      have := abs_sub y.1 x.1
      have t := abs_sub_abs_le_abs_sub d3 (y.1 - x.1)
      have b1 := bx.1
      have b2 := by'.1
      norm_num at g1 t ⊢
      linarith
    have hb2 : |d4| ≤ 3 * M := by
      have := abs_sub y.2 x.2
      have t := abs_sub_abs_le_abs_sub d4 (y.2 - x.2)
      have b1 := bx.2
      have b2 := by'.2
      norm_num at g4 t ⊢
      linarith
    have hprod : |d3 * d4| ≤ 2 ^ 1023 := by
      rw [abs_mul]
      have hQ : 3 * M ≤ 2 ^ 102 := by norm_num at h2 ⊢; linarith
      calc |d3| * |d4| ≤ 2 ^ 102 * 2 ^ 102 := mul_le_mul (hb1.trans hQ) (hb2.trans hQ) (abs_nonneg _) (by positivity)
        _ = 2 ^ 204 := by rw [← pow_add]
        _ ≤ 2 ^ 1023 := pow_le_pow_right₀ (by norm_num) (by norm_num)
    obtain ⟨w, hw, _⟩ := FloatErr.rnd_err (F := F) (d3 * d4) hprod
    rw [hw]
    show rnd F (.fin (w + -w)) = _
    rw [add_neg_cancel, rnd_zero]

theorem val_mul_comm {f g : F} {x y : K} (hf : val f = .fin x) (hg : val g = .fin y) : val (f * g) = val (g * f) := by
  rw [val_mul_fin hf hg, val_mul_fin hg hf, mul_comm]

theorem area_near [FloatErr F K] {a b c : Point F} {x y z : K × K} {M : K} (ha : At a x) (hb : At b y) (hc : At c z) (bx : Within M x) (by' : Within M y)
    (bz : Within M z) (h1 : 1 ≤ M) (h2 : M ≤ 2 ^ 100) : Near (Area2 a b c) (turn x y z) (33 * (M * M) / 2 ^ 53) := by
  obtain ⟨v, hv, he⟩ := cross_near ha hb ha hc bx by' bx bz h1 h2
  obtain ⟨d3, e3, _⟩ := diff_near ha.1 hc.1 bx.1 bz.1 h1 h2
  obtain ⟨d4, e4, _⟩ := diff_near ha.2 hb.2 bx.2 by'.2 h1 h2
  refine ⟨v, ?_, he⟩
  rw [← hv]
  show val ((b.X - a.X) * (c.Y - a.Y) - (c.X - a.X) * (b.Y - a.Y)) = val ((b.X - a.X) * (c.Y - a.Y) - (b.Y - a.Y) * (c.X - a.X))
  rw [val_sub, val_sub, val_mul_comm e3 e4]

/-- a computed difference is not zero if the exact one is at least 1e-6 -/
theorem rnd_ne_zero {u w e : K} (hu : rnd F (.fin u) = .fin w) (he : val (COORDPRESION : F) = .fin e) (hpos : 0 < e) (h : 1 / 10 ^ 6 ≤ |u|) : w ≠ 0 := by
  rintro rfl
  have hre : rnd F (.fin (1 / 10 ^ 6 : K)) = .fin e := by
    rw [← he]; unfold COORDPRESION; rw [val_dec, Nat.cast_one]
  rcases abs_cases u with ⟨hu', _⟩ | ⟨hu', _⟩
  · rw [hu'] at h
    have := rnd_mono (F := F) (.fin (1 / 10 ^ 6 : K)) (.fin u) (by simpa [XR.le] using h)
    rw [hre, hu] at this
    have := of_decide_eq_true this
    linarith
  · rw [hu'] at h
    have := rnd_mono (F := F) (.fin (1 / 10 ^ 6 : K)) (.fin (-u)) (by simpa [XR.le] using h)
    have hneg : rnd F (.fin (-u)) = .fin (-0) := by
      have := rnd_neg (F := F) (.fin u)
      rw [hu] at this
      exact this
    rw [hre, hneg] at this
    have := of_decide_eq_true this
    linarith

theorem sim_clear [FloatErr F K] {M : K} (h1 : 1 ≤ M) (h2 : M ≤ 2 ^ 100) {pts : List (K × K)} (hM : ∀ x ∈ pts, Within M x) (hd : pts.Pairwise fun a b => ¬ Close a b)
    (hcl : ∀ x ∈ pts, ∀ y ∈ pts, ∀ z ∈ pts, x ≠ y → x ≠ z → y ≠ z → M * M / 2 ^ 47 ≤ |turn x y z|)
    {e : K} (he : val (COORDPRESION : F) = .fin e) (hpos : 0 < e) : HullSim fun p : Point F => ∃ x ∈ pts, At p x := by
  have apart : ∀ x ∈ pts, ∀ y ∈ pts, x = y ∨ ¬ Close x y := by
    intro x hx y hy
    by_cases h : x = y
    · exact .inl h
    · have : Std.Symm fun a b : K × K => ¬ Close a b := ⟨fun _ _ h h' => h (close_symm h')⟩
      exact .inr (hd.forall hx hy h)
  have hQ : 0 < M * M := by nlinarith
  -- the sign of the computed area
  have sgn : ∀ {a b c : Point F} {x y z : K × K}, x ∈ pts → y ∈ pts → z ∈ pts → At a x → At b y → At c z →
      ∃ V, val (Area2 a b c) = .fin V ∧ (V = 0 ↔ turn x y z = 0) ∧ (0 < V ↔ 0 < turn x y z) ∧ (turn x y z = 0 → x = y ∨ x = z ∨ y = z) := by
    intro a b c x y z hx hy hz ha hb hc
    by_cases hdeg : x = y ∨ x = z ∨ y = z
    · have ht : turn x y z = 0 := by
        unfold turn
        rcases hdeg with rfl | rfl | rfl <;> ring
      exact ⟨0, area_degenerate ha hb hc (hM x hx) (hM y hy) (hM z hz) h1 h2 hdeg, by simp [ht], by simp [ht], fun _ => hdeg⟩
    · push Not at hdeg
      obtain ⟨V, hV, hn⟩ := area_near ha hb hc (hM x hx) (hM y hy) (hM z hz) h1 h2
      have hc := hcl x hx y hy z hz hdeg.1 hdeg.2.1 hdeg.2.2
      generalize turn x y z = T at *
      generalize M * M = Q at *
      have hlt : |V - T| < |T| := by norm_num at hn hc ⊢; linarith
      have hT : T ≠ 0 := by rintro rfl; simp at hlt; exact absurd hlt (not_lt.2 (abs_nonneg V))
      rcases abs_cases T with ⟨e1, e2⟩ | ⟨e1, e2⟩ <;> rw [e1] at hlt <;> have := abs_lt.1 hlt
      · have hTp : 0 < T := lt_of_le_of_ne e2 hT.symm
        have hVp : 0 < V := by linarith
        exact ⟨V, hV, by simp [hVp.ne', hT], by simp [hVp, hTp], fun h => absurd h hT⟩
      · have hVn : V < 0 := by linarith
        exact ⟨V, hV, by simp [hVn.ne, hT], by constructor <;> intro <;> linarith, fun h => absurd h hT⟩
  -- differences
  have dif : ∀ {f g : F} {u v : K}, val f = .fin u → val g = .fin v → |u| ≤ M → |v| ≤ M →
      ∃ w, val (g - f) = .fin w ∧ rnd F (.fin (v - u)) = .fin w ∧ |w| ≤ 2 ^ 102 := by
    intro f g u v hf hg hu hv
    obtain ⟨w, hw, hn⟩ := diff_near hf hg hu hv h1 h2
    refine ⟨w, hw, by rw [← hw, val_sub_fin hg hf], ?_⟩
    have := abs_sub v u
    have t := abs_sub_abs_le_abs_sub w (v - u)
    norm_num at hn h2 t ⊢
    linarith
  refine ⟨?_, ?_, ?_⟩
  · rintro a b c ⟨x, hx, ha⟩ ⟨y, hy, hb⟩ ⟨z, hz, hc⟩
    obtain ⟨V, hV, k1, k2, k3⟩ := sgn hx hy hz ha hb hc
    -- the comparison of the distances along an axis
    have key : ∀ {f g h : F} {u v w : K}, val f = .fin u → val g = .fin v → val h = .fin w → |u| ≤ M → |v| ≤ M → |w| ≤ M →
        ∃ X d d', val (abs (g - f) - abs (h - f)) = .fin X ∧ rnd F (.fin (v - u)) = .fin d ∧ rnd F (.fin (w - u)) = .fin d' ∧
          (u = v → X = -|d'|) ∧ (u = w → X = |d|) ∧ (v = w → X = 0) := by
      intro f g h u v w hf hg hh hu hv hw
      obtain ⟨d, e1, r1, l1⟩ := dif hf hg hu hv
      obtain ⟨d', e2, r2, l2⟩ := dif hf hh hu hw
      have a1 := val_abs_fin e1
      have a2 := val_abs_fin e2
      have s := val_sub_fin a1 a2
      have fin : ∃ X, val (abs (g - f) - abs (h - f)) = .fin X := by
        rw [s]
        have hle : |(|d| - |d'|)| ≤ 2 ^ 1023 := by
          have := abs_sub |d| |d'|
          rw [abs_abs, abs_abs] at this
          calc |(|d| - |d'|)| ≤ 2 ^ 102 + 2 ^ 102 := by linarith
            _ = 2 ^ 103 := by norm_num
            _ ≤ 2 ^ 1023 := pow_le_pow_right₀ (by norm_num) (by norm_num)
        obtain ⟨X, hX, _⟩ := FloatErr.rnd_err (F := F) (|d| - |d'|) hle
        exact ⟨X, hX⟩
      obtain ⟨X, hX⟩ := fin
      rw [hX] at s
      refine ⟨X, d, d', hX, r1, r2, ?_, ?_, ?_⟩
      · rintro rfl
        rw [sub_self, rnd_zero] at r1
        injection r1 with r1
        subst r1
        rw [abs_zero, zero_sub] at s
        have h2 := rnd_neg (F := F) (.fin |d'|)
        rw [rnd_of_val a2] at h2
        have h3 : rnd F (.fin (-|d'|)) = .fin (-|d'|) := h2
        rw [h3] at s
        injection s
      · rintro rfl
        rw [sub_self, rnd_zero] at r2
        injection r2 with r2
        subst r2
        rw [abs_zero, sub_zero, rnd_of_val a1] at s
        injection s
      · rintro rfl
        rw [r1] at r2
        injection r2 with r2
        subst r2
        rw [sub_self, rnd_zero] at s
        injection s
    obtain ⟨X, dx, dx', hX, rx, rx', kx1, kx2, kx3⟩ := key ha.1 hb.1 hc.1 (hM x hx).1 (hM y hy).1 (hM z hz).1
    obtain ⟨Y, dy, dy', hY, ry, ry', ky1, ky2, ky3⟩ := key ha.2 hb.2 hc.2 (hM x hx).2 (hM y hy).2 (hM z hz).2
    refine hullLess_of_sign ha hb hc hV hX hY k1 k2 ?_
    intro hT
    rcases k3 hT with rfl | rfl | rfl
    · rw [kx1 rfl, ky1 rfl, sub_self, sub_self, abs_zero, neg_neg_iff_pos, neg_neg_iff_pos, abs_pos, abs_pos, abs_pos, abs_pos]
      rcases apart x hx z hz with rfl | hn
      · rw [sub_self, rnd_zero] at rx' ry'
        injection rx' with rx'
        injection ry' with ry'
        simp [← rx', ← ry']
      · have hn' : 1 / 10 ^ 6 ≤ |z.1 - x.1| ∨ 1 / 10 ^ 6 ≤ |z.2 - x.2| := by
          by_contra hcon
          push Not at hcon
          exact hn (close_symm hcon)
        rcases hn' with h | h
        · have t1 := rnd_ne_zero rx' he hpos h
          have t2 : z.1 - x.1 ≠ 0 := by intro h0; rw [h0, abs_zero] at h; norm_num at h
          simp [t1, t2]
        · have t1 := rnd_ne_zero ry' he hpos h
          have t2 : z.2 - x.2 ≠ 0 := by intro h0; rw [h0, abs_zero] at h; norm_num at h
          simp [t1, t2]
    · rw [kx2 rfl, ky2 rfl, sub_self, sub_self, abs_zero]
      have t := fun u : K => not_lt.2 (abs_nonneg u)
      simp only [t]
    · rw [kx3 rfl, ky3 rfl]
      simp
  · rintro a b c ⟨x, hx, ha⟩ ⟨y, hy, hb⟩ ⟨z, hz, hc⟩
    obtain ⟨V, hV, k1, k2, k3⟩ := sgn hx hy hz ha hb hc
    refine isLeft_of_sign ha hb hc hV ?_
    rw [le_iff_lt_or_eq, le_iff_lt_or_eq, k2, eq_comm, k1, eq_comm (a := (0 : K)) (b := turn x y z)]
  · rintro a b ⟨x, hx, ha⟩ ⟨y, hy, hb⟩
    refine equal_of_apart ha hb (apart x hx y hy) he hpos ?_
    rintro u v s t hu hv (⟨rfl, rfl⟩ | ⟨rfl, rfl⟩)
    · obtain ⟨w, hw, _⟩ := dif hv hu (hM y hy).1 (hM x hx).1
      exact ⟨w, hw⟩
    · obtain ⟨w, hw, _⟩ := dif hv hu (hM y hy).2 (hM x hx).2
      exact ⟨w, hw⟩

end

theorem at_of_vp {r : List (Point Float)} {v : List (ℚ × ℚ)} (h : r.map vp = v.map pt) : List.Forall₂ At r v := by
  induction r generalizing v with
  | nil => cases v with
    | nil => exact .nil
    | cons => simp at h
  | cons p r ih => cases v with
    | nil => simp at h
    | cons x v =>
      rw [List.map_cons, List.map_cons] at h
      injection h with h1 h2
      refine .cons ?_ (ih h2)
      unfold vp pt at h1
      injection h1 with h3 h4
      exact ⟨h3, h4⟩

/-- **C113 (grid).** Float64 points whose coordinates are multiples of 2^-k (`k ≤ 500`; integers for `k = 0`), at most 2^25 of them, no two within 1e-6 of each other, at
least three of them, collinear or not: for every sort meeting its contract, `ConvexHull` in float64 returns the closed ring through the corners of their true convex hull. -/
theorem C113_grid {k : ℕ} (hk : k ≤ 500) {ps : List (Point Float)} {pts : List (ℚ × ℚ)} (hat : List.Forall₂ At ps pts) (hg : ∀ x ∈ pts, OnGrid 25 k x)
    (hd : pts.Pairwise fun a b => ¬ Close a b) (h3 : 3 ≤ pts.length) (sortPts : List (Point Float) → List (Point Float)) (hs : HullSort sortPts) :
    ∃ after r v, ConvexHull sortPts ps = .ok (after, some r) ∧ HullOf pts v ∧ List.Forall₂ At r (v ++ v.take 1) := by
  obtain ⟨e, he, _, hl, _⟩ := coord_val (F := Float) (K := ℚ)
  obtain ⟨after, r, v, g1, g2, g3⟩ := hull_of_sim hat (sim_grid hk hg hd he (lt_of_lt_of_le (by norm_num [eps]) hl)) sortPts hs hd h3
  exact ⟨after, r, v, g1, g2, at_of_vp g3⟩

/-- **C113 (general position).** Float64 points with coordinates up to `M` (`1 ≤ M ≤ 2^100`), no two within 1e-6 of each other, at least three of them, any three of them
spanning a triangle of area at least `M²/2^48`: the same. -/
theorem C113_clear {M : ℚ} (h1 : 1 ≤ M) (h2 : M ≤ 2 ^ 100) {ps : List (Point Float)} {pts : List (ℚ × ℚ)} (hat : AtAll M ps pts)
    (hd : pts.Pairwise fun a b => ¬ Close a b) (h3 : 3 ≤ pts.length)
    (hcl : ∀ x ∈ pts, ∀ y ∈ pts, ∀ z ∈ pts, x ≠ y → x ≠ z → y ≠ z → M * M / 2 ^ 48 ≤ |turn x y z| / 2)
    (sortPts : List (Point Float) → List (Point Float)) (hs : HullSort sortPts) :
    ∃ after r v, ConvexHull sortPts ps = .ok (after, some r) ∧ HullOf pts v ∧ List.Forall₂ At r (v ++ v.take 1) := by
  obtain ⟨e, he, _, hl, _⟩ := coord_val (F := Float) (K := ℚ)
  have hM : ∀ x ∈ pts, Within M x := fun x hx => by
    obtain ⟨p, _, h⟩ := forall₂_mem_right hat hx
    exact h.2
  obtain ⟨after, r, v, g1, g2, g3⟩ := hull_of_sim (hat.imp fun _ _ h => h.1) (sim_clear h1 h2 hM hd (fun x hx y hy z hz a b c => by
    have := hcl x hx y hy z hz a b c
    generalize M * M = Q at *
    norm_num at this ⊢
    linarith) he (lt_of_lt_of_le (by norm_num [eps]) hl)) sortPts hs hd h3
  exact ⟨after, r, v, g1, g2, at_of_vp g3⟩

/-- the hypotheses of `C113_grid` are met: six points, three of them on a side, one inside, and the sort of Go 1.15 -/
example : ∃ after r v, ConvexHull goSort12 [fpt 0 0, fpt 1 1, fpt 2 0, fpt 1 0, fpt 2 2, fpt 0 2] = .ok (after, some r) ∧
    HullOf ([(0, 0), (1, 1), (2, 0), (1, 0), (2, 2), (0, 2)] : List (ℚ × ℚ)) v ∧ List.Forall₂ At r (v ++ v.take 1) := by
  have h := fpt_all 2 (by norm_num) [(0, 0), (1, 1), (2, 0), (1, 0), (2, 2), (0, 2)] (by decide)
  norm_num at h
  refine C113_grid (k := 0) (by norm_num) (List.Forall₂.imp (fun _ _ h => h.1) h) ?_ (by unfold Close; norm_num [abs_lt]) (by decide)
    goSort12 goSort12_hullSort
  intro x hx
  simp only [List.mem_cons, List.not_mem_nil, or_false] at hx
  rcases hx with rfl | rfl | rfl | rfl | rfl | rfl
  · exact ⟨0, 0, by norm_num, by norm_num, by norm_num⟩
  · exact ⟨1, 1, by norm_num, by norm_num, by norm_num⟩
  · exact ⟨2, 0, by norm_num, by norm_num, by norm_num⟩
  · exact ⟨1, 0, by norm_num, by norm_num, by norm_num⟩
  · exact ⟨2, 2, by norm_num, by norm_num, by norm_num⟩
  · exact ⟨0, 2, by norm_num, by norm_num, by norm_num⟩

/-- and those of `C113_clear`: four points in general position -/
example : ∃ after r v, ConvexHull goSort12 [fpt 0 0, fpt 3 1, fpt 1 3, fpt 2 1] = .ok (after, some r) ∧
    HullOf ([(0, 0), (3, 1), (1, 3), (2, 1)] : List (ℚ × ℚ)) v ∧ List.Forall₂ At r (v ++ v.take 1) := by
  have h := fpt_all 3 (by norm_num) [(0, 0), (3, 1), (1, 3), (2, 1)] (by decide)
  refine C113_clear (M := 3) (by norm_num) (by norm_num) (by norm_num at h ⊢; exact h) (by unfold Close; norm_num [abs_lt]) (by decide) ?_ goSort12 goSort12_hullSort
  intro x hx y hy z hz
  simp only [List.mem_cons, List.not_mem_nil, or_false] at hx hy hz
  rcases hx with rfl | rfl | rfl | rfl <;> rcases hy with rfl | rfl | rfl | rfl <;> rcases hz with rfl | rfl | rfl | rfl <;> norm_num [turn]

end GoGeo
