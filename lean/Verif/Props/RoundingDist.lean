import Verif.Geo.ErrSeg
import Verif.Props.RoundingArea
import Verif.Props.Distance

/-!
# Float64 distances against exact geometry: C103 – C105

`At p x`: the float64 point `p` has finite coordinates with the rational values `x`; `real x` is the same point of the real plane.
-/

namespace GoGeo
open GoFloat FloatVal Spec

theorem within_real {M : ℚ} {x : ℚ × ℚ} (h : Within M x) : Within (M : ℝ) (real x) := by
  refine ⟨?_, ?_⟩
  · show |(x.1 : ℝ)| ≤ M; exact_mod_cast h.1
  · show |(x.2 : ℝ)| ≤ M; exact_mod_cast h.2

theorem cast_two_pow {M : ℚ} {k : ℕ} (h : M ≤ 2 ^ k) : (M : ℝ) ≤ 2 ^ k := by exact_mod_cast h

/-! ## C103: the distance of two points and the length of a line -/

/-- **C103 (distance).** For finite coordinates up to 2^100 the distance computed in float64 is finite, not negative, and differs from the true distance by at
most the fraction 2^-49 of it (plus 2^-120, which only matters for distances so small that their squares underflow). -/
theorem C103_distance {p q : Point Float} {x y : ℚ × ℚ} (hp : At p x) (hq : At q y) (bx : Within (2 ^ 100) x) (by' : Within (2 ^ 100) y) :
    ∃ d : ℚ, val (EuclideanDis p q) = .fin d ∧ val (EuclideanDistance p q) = .fin d ∧ 0 ≤ d ∧
      |(d : ℝ) - eucl (real x) (real y)| ≤ eucl (real x) (real y) / 2 ^ 49 + 1 / 2 ^ 120 := by
  have bx := within_real bx
  have by' := within_real by'
  have h2 : (((2 : ℚ) ^ 100 : ℚ) : ℝ) ≤ 2 ^ 100 := by push_cast; exact le_rfl
  obtain ⟨d, e, h⟩ := euclid_near hp hq bx by' h2
  exact ⟨d, e, e, euclid_val_nonneg hp hq bx by' h2 e, h⟩

theorem dist_near {p q : Point Float} {x y : ℚ × ℚ} {M : ℝ} (hp : At p x) (hq : At q y) (bx : Within M (real x)) (by' : Within M (real y))
    (h1 : 1 ≤ M) (h2 : M ≤ 2 ^ 100) : NearR (EuclideanDis p q) (eucl (real x) (real y)) (49 * M / 2 ^ 53) := by
  refine (euclid_near hp hq bx by' h2).mono ?_
  have := eucl_le_three bx by'
  norm_num at this ⊢
  linarith

theorem lengthLoop_near {M : ℝ} (h1 : 1 ≤ M) (h2 : M ≤ 2 ^ 100) (n : ℕ) (hn : n ≤ 2 ^ 20) {ps : List (Point Float)} {l : List (ℚ × ℚ)}
    (h : List.Forall₂ (fun p x => At p x ∧ Within M (real x)) ps l) (k : ℕ) (hk : k + (edges l).length ≤ n) {f : Float} {A : ℝ}
    (hf : NearR f A (k * ((4 * n + 50) * M / 2 ^ 53))) (hA0 : 0 ≤ A) (hA : A ≤ k * (3 * M)) :
    NearR (lengthLoop f ps) (A + ((edges l).map fun e => eucl (real e.1) (real e.2)).sum) (n * ((4 * n + 50) * M / 2 ^ 53)) := by
  have hn' : (n : ℝ) ≤ 2 ^ 20 := by exact_mod_cast hn
  have done : ∀ k : ℕ, k ≤ n → (k : ℝ) * ((4 * n + 50) * M / 2 ^ 53) ≤ n * ((4 * n + 50) * M / 2 ^ 53) := by
    intro k hk
    have : (k : ℝ) ≤ n := by exact_mod_cast hk
    exact mul_le_mul_of_nonneg_right this (by positivity)
  induction h generalizing k f A with
  | nil =>
    simp only [lengthLoop, edges, List.map_nil, List.sum_nil, add_zero, List.length_nil] at hk ⊢
    exact hf.mono (done k hk)
  | @cons p x ps l hpx hl ih =>
    cases hl with
    | nil =>
      simp only [lengthLoop, edges, List.map_nil, List.sum_nil, add_zero, List.length_nil] at hk ⊢
      exact hf.mono (done k hk)
    | @cons q y ps l hqy hl =>
      rw [lengthLoop, edges, List.map_cons, List.sum_cons, ← add_assoc]
      rw [edges, List.length_cons] at hk
      have hd := dist_near hpx.1 hqy.1 hpx.2 hqy.2 h1 h2
      have he := eucl_le_three hpx.2 hqy.2
      have he0 := eucl_nonneg (real x) (real y)
      obtain ⟨D, hD⟩ : ∃ D, D = eucl (real x) (real y) := ⟨_, rfl⟩
      simp only [← hD] at hd he he0 ⊢
      have hkn : (k : ℝ) + 1 ≤ n := by exact_mod_cast (by omega : k + 1 ≤ n)
      have hk0 : (0 : ℝ) ≤ k := Nat.cast_nonneg k
      obtain ⟨c, hc⟩ : ∃ c, c = (4 * (n : ℝ) + 50) * M / 2 ^ 53 := ⟨_, rfl⟩
      simp only [← hc] at hf ih done ⊢
      have hc1 : c ≤ M / 2 ^ 20 := by
        rw [hc, div_le_div_iff₀ (by positivity) (by positivity)]
        have : (4 * (n : ℝ) + 50) * M ≤ (4 * 2 ^ 20 + 50) * M := by gcongr
        norm_num at this ⊢
        linarith
      have hkc : (k : ℝ) * c ≤ n * M / 2 ^ 20 := by
        have a1 := mul_le_mul_of_nonneg_left hc1 hk0
        have a2 : (k : ℝ) * M ≤ n * M := mul_le_mul_of_nonneg_right (by linarith) (by linarith)
        norm_num at a1 a2 ⊢
        linarith
      have hkM : (k : ℝ) * M + M ≤ n * M := by
        have := mul_le_mul_of_nonneg_right hkn (by linarith : 0 ≤ M); linarith
      have hkM0 : 0 ≤ (k : ℝ) * M := by positivity
      have hnM : (n : ℝ) * M ≤ 2 ^ 120 := by
        calc (n : ℝ) * M ≤ 2 ^ 20 * 2 ^ 100 := mul_le_mul hn' h2 (by linarith) (by positivity)
          _ = _ := by norm_num
      have hs := hf.add hd (B := 301 / 100 * (n * M)) (by
        rw [abs_of_nonneg (add_nonneg hA0 he0)]
        norm_num at hkc ⊢
        linarith) (by norm_num at hnM ⊢; linarith)
      refine ih (k + 1) (by omega) (hs.mono ?_) (by linarith) (by push_cast; linarith)
      push_cast
      rw [add_mul, one_mul]
      have e1 : c = (4 * (n * M) + 50 * M) / 2 ^ 53 := by rw [hc]; ring
      have e2 : 49 * M / 2 ^ 53 + (301 / 100 * (n * M) / 2 ^ 53 + 1 / 2 ^ 250) ≤ c := by
        rw [e1]; norm_num; linarith
      linarith

/-- **C103 (length).** For a line of at most 2^20 segments with finite coordinates up to `M` (`1 ≤ M ≤ 2^100`), the computed length differs from the sum of the
true distances of consecutive points by at most `n (4 n + 50) M / 2^53`, `n` the number of segments. -/
theorem C103_length {M : ℚ} {ps : List (Point Float)} {l : List (ℚ × ℚ)} (h : AtAll M ps l) (h1 : 1 ≤ M) (h2 : M ≤ 2 ^ 100) (hn : l.length ≤ 2 ^ 20) :
    ∃ d : ℚ, val (LineLength ps) = .fin d ∧
      |(d : ℝ) - ((segments l).map fun e => eucl (real e.1) (real e.2)).sum| ≤ (segments l).length * (4 * (segments l).length + 50) * M / 2 ^ 53 := by
  simp only [segments_eq]
  have hlen : (edges l).length ≤ l.length := by rw [edges_length]; omega
  have := lengthLoop_near (M := (M : ℝ)) (by exact_mod_cast h1) (cast_two_pow h2) (edges l).length (by omega)
    (h.imp fun p x hx => ⟨hx.1, within_real hx.2⟩) 0 (by omega) (f := lit 0) (A := 0) ⟨0, val_lit0, by simp⟩ le_rfl (by simp)
  rw [zero_add] at this
  refine this.mono (le_of_eq ?_)
  ring

theorem edges_split {α : Type} : ∀ (l : List α) (i : Nat), i < l.length → edges l = edges (l.take (i + 1)) ++ edges (l.drop i)
  | _ :: _, 0, _ => by simp [edges]
  | [_], i + 1, h => absurd h (by simp)
  | a :: b :: t, i + 1, h => by
    have := edges_split (b :: t) i (by simpa using h)
    simp only [List.take_succ_cons, List.drop_succ_cons, edges, List.cons_append] at this ⊢
    rw [this]

/-- **C29 (float64).** The float64 length of a line differs from the sum of the lengths of the two parts of a cut by no more than rounding. -/
theorem C29_lengths_close {M : ℚ} {ps : List (Point Float)} {l : List (ℚ × ℚ)} (h : AtAll M ps l) (h1 : 1 ≤ M) (h2 : M ≤ 2 ^ 100) (hn : l.length ≤ 2 ^ 20)
    (i : Nat) (hi : i < ps.length) :
    ∃ d d₁ d₂ : ℚ, val (LineLength ps) = .fin d ∧ val (LineLength (ps.take (i + 1))) = .fin d₁ ∧ val (LineLength (ps.drop i)) = .fin d₂ ∧
      |(d : ℝ) - (d₁ + d₂)| ≤ 3 * (l.length * (4 * l.length + 50) * M / 2 ^ 53) := by
  have hlen : l.length = ps.length := h.length_eq.symm
  obtain ⟨d, e, b⟩ := C103_length h h1 h2 hn
  obtain ⟨d₁, e₁, b₁⟩ := C103_length (List.forall₂_take (i + 1) h) h1 h2 (by rw [List.length_take]; omega)
  obtain ⟨d₂, e₂, b₂⟩ := C103_length (List.forall₂_drop i h) h1 h2 (by rw [List.length_drop]; omega)
  refine ⟨d, d₁, d₂, e, e₁, e₂, ?_⟩
  have hs : segments l = segments (l.take (i + 1)) ++ segments (l.drop i) := by
    rw [segments_eq, segments_eq, segments_eq]; exact edges_split l i (by omega)
  have hsum : ((segments l).map fun e => eucl (real e.1) (real e.2)).sum = ((segments (l.take (i + 1))).map fun e => eucl (real e.1) (real e.2)).sum +
      ((segments (l.drop i)).map fun e => eucl (real e.1) (real e.2)).sum := by
    rw [hs, List.map_append, List.sum_append]
  have hM : (1 : ℝ) ≤ M := by exact_mod_cast h1
  have bound : ∀ n : Nat, n ≤ l.length → (n * (4 * n + 50) * M / 2 ^ 53 : ℝ) ≤ l.length * (4 * l.length + 50) * M / 2 ^ 53 := by
    intro n hn
    have : (n : ℝ) ≤ l.length := by exact_mod_cast hn
    gcongr
  have k0 := bound (segments l).length (by rw [segments_eq, edges_length]; omega)
  have k1 := bound (segments (l.take (i + 1))).length (by rw [segments_eq, edges_length, List.length_take]; omega)
  have k2 := bound (segments (l.drop i)).length (by rw [segments_eq, edges_length, List.length_drop]; omega)
  rw [hsum] at b
  rw [abs_le] at b b₁ b₂ ⊢
  constructor <;> linarith [b.1, b.2, b₁.1, b₁.2, b₂.1, b₂.2]

/-! ## C104: the distance to a segment -/

/-- **C104.** For finite coordinates up to `M` (`1 ≤ M ≤ 2^99`) and a segment with ends at least 2^-40 apart, the foot point computed in float64 is within
`M/2^46` of the point of the segment nearest to `p`, and the computed distance is within `M/2^46` of the true distance to the segment. -/
theorem C104_toSegment {p a b : Point Float} {x y z : ℚ × ℚ} {M : ℚ} (hp : At p x) (ha : At a y) (hb : At b z) (bx : Within M x) (by' : Within M y) (bz : Within M z)
    (h1 : 1 ≤ M) (h2 : M ≤ 2 ^ 99) (hL : 1 / 2 ^ 40 ≤ eucl (real y) (real z)) (srid : Int) (hs : srid ≠ 4326) :
    ∃ (q : ℝ × ℝ) (c : ℚ × ℚ) (d : ℚ), OnSeg (real y) (real z) q ∧ (∀ t, OnSeg (real y) (real z) t → eucl (real x) q ≤ eucl (real x) t) ∧
      At (PointToSegmentDistance p a b srid).2 c ∧ eucl (real c) q ≤ M / 2 ^ 46 ∧
      val (PointToSegmentDistance p a b srid).1 = .fin d ∧ |(d : ℝ) - eucl (real x) q| ≤ M / 2 ^ 46 := by
  obtain ⟨c, hc, h3, d, hd, h4⟩ := toSegment_near hp ha hb (within_real bx) (within_real by') (within_real bz) (by exact_mod_cast h1) (cast_two_pow h2) hL hs
  have hne : real y ≠ real z := by
    intro h
    rw [eucl_eq_zero.2 h] at hL
    norm_num at hL
  exact ⟨_, c, d, ⟨_, (clampU_mem _ _ _).1, (clampU_mem _ _ _).2, rfl⟩, fun t ht => toSegment_least _ _ _ hne t ht, hc, h3, hd, h4⟩

/-! ## C105: nearest segment, distance to a polygon, Hausdorff distance -/

theorem toSegment_degenerate {p a b : Point Float} {x y : ℚ × ℚ} {M : ℝ} (hp : At p x) (ha : At a y) (hb : At b y) (bx : Within M (real x))
    (by' : Within M (real y)) (h2 : M ≤ 2 ^ 100) {srid : Int} (hs : srid ≠ 4326) : val (PointToSegmentDistance p a b srid).1 = .nan := by
  have vl : ∀ a b : Float, lt a b = XR.lt (val a) (val b) := val_lt
  have zero : ∀ {f g : Float} {v : ℚ}, val f = .fin v → val g = .fin v → val (f - g) = .fin 0 := by
    intro f g v hf hg
    rw [val_sub, hf, hg]
    show rnd Float (.fin (v + -v)) = _
    rw [add_neg_cancel, rnd_zero]
  have mul0 : ∀ {f g : Float} {v : ℚ}, val f = .fin v → val g = .fin 0 → val (f * g) = .fin 0 := by
    intro f g v hf hg
    rw [val_mul, hf, hg]
    show rnd Float (.fin (v * 0)) = _
    rw [mul_zero, rnd_zero]
  have add0 : ∀ {f g : Float}, val f = .fin 0 → val g = .fin 0 → val (f + g) = .fin 0 := by
    intro f g hf hg
    rw [val_add, hf, hg]
    show rnd Float (.fin (0 + 0)) = _
    rw [add_zero, rnd_zero]
  have zx := zero hb.1 ha.1
  have zy := zero hb.2 ha.2
  obtain ⟨v1, e1, _⟩ := vdiff hp.1 ha.1 bx.1 by'.1 h2
  obtain ⟨v2, e2, _⟩ := vdiff hp.2 ha.2 bx.2 by'.2 h2
  have hu : val (footFactor p a b) = .nan := float_zero_div (add0 (mul0 e1 zx) (mul0 e2 zy)) (add0 (mul0 zx zx) (mul0 zy zy))
  have hf : val (footPoint a b (footFactor p a b)).X = .nan := by
    show val (a.X + footFactor p a b * (b.X - a.X)) = _
    rw [val_add, val_mul, hu, zx, ha.1]
    show rnd Float (XR.add _ (rnd Float .nan)) = _
    rw [rnd_nan]
    exact rnd_nan
  have c1 : lt (footFactor p a b) (lit 0) = false := by rw [vl, hu]; rfl
  have c2 : gt (footFactor p a b) (lit 1) = false := by unfold GoFloat.gt; rw [vl, hu, val_lit1]; rfl
  unfold PointToSegmentDistance
  simp only [c1, c2, Bool.false_eq_true, if_false]
  unfold PointDistance
  rw [if_neg hs]
  refine float_sqrt_nan ?_
  have hx : val (p.X - (footPoint a b (footFactor p a b)).X) = .nan := by
    rw [val_sub, hf, hp.1]
    exact rnd_nan
  rw [val_add, val_mul, hx]
  show rnd Float (XR.add (rnd Float .nan) _) = _
  rw [rnd_nan]
  exact rnd_nan

theorem val_INF : val (INF : Float) = .fin ((2 : ℚ) ^ 31) := by
  have := fval_nat (F := Float) (2 ^ 31) (by norm_num)
  show val (lit (2 ^ 31) : Float) = _
  rw [this]; norm_num

theorem real_inj {x y : ℚ × ℚ} (h : real x = real y) : x = y := by
  unfold real at h
  have h1 := congrArg Prod.fst h
  have h2 := congrArg Prod.snd h
  simp only [Rat.cast_inj] at h1 h2
  exact Prod.ext h1 h2

theorem polyDist_near {M : ℝ} (h1 : 1 ≤ M) (h2 : M ≤ 2 ^ 99) {p : Point Float} {x : ℚ × ℚ} (hp : At p x) (bx : Within M (real x)) {srid : Int} (hs : srid ≠ 4326)
    {fs : List (Point Float × Point Float)} {es : List ((ℚ × ℚ) × (ℚ × ℚ))}
    (h : List.Forall₂ (fun f e => (At f.1 e.1 ∧ Within M (real e.1)) ∧ (At f.2 e.2 ∧ Within M (real e.2))) fs es) (hlong : LongSides es) {f : Float} {D : ℚ} (hf : val f = .fin D) :
    ∃ r : ℚ, val (polyDistLoop p srid f fs) = .fin r ∧
      (∀ e ∈ es, e.1 ≠ e.2 → ∀ t, OnSeg (real e.1) (real e.2) t → (r : ℝ) ≤ eucl (real x) t + M / 2 ^ 46) ∧ r ≤ D ∧
      (r = D ∨ ∃ e ∈ es, ∃ t, OnSeg (real e.1) (real e.2) t ∧ |(r : ℝ) - eucl (real x) t| ≤ M / 2 ^ 46) := by
  have vl : ∀ a b : Float, lt a b = XR.lt (val a) (val b) := val_lt
  induction h generalizing f D with
  | nil => exact ⟨D, hf, by simp, le_rfl, .inl rfl⟩
  | @cons g e fs es hge hl ih =>
    obtain ⟨a, b⟩ := g
    obtain ⟨y, z⟩ := e
    obtain ⟨⟨ha, bya⟩, ⟨hb, bzb⟩⟩ := hge
    rw [polyDistLoop]
    have hlong' : LongSides es := fun e he => hlong e (List.mem_cons_of_mem _ he)
    rcases hlong (y, z) List.mem_cons_self with hyz | hyz
    · have hyz' : y = z := hyz
      subst hyz'
      have hn := toSegment_degenerate hp ha hb bx bya (by norm_num at h2 ⊢; linarith) hs
      have c1 : lt (PointToSegmentDistance p a b srid).1 f = false := by rw [vl, hn]; rfl
      simp only [c1, Bool.false_eq_true, if_false]
      obtain ⟨r, k1, k2, k3, k4⟩ := ih hlong' hf
      refine ⟨r, k1, ?_, k3, ?_⟩
      · intro e he hne
        rcases List.mem_cons.1 he with rfl | he
        · exact absurd rfl hne
        · exact k2 e he hne
      · rcases k4 with k4 | ⟨e, he, k4⟩
        · exact .inl k4
        · exact .inr ⟨e, List.mem_cons_of_mem _ he, k4⟩
    · have hyz' : 1 / 2 ^ 40 ≤ eucl (real y) (real z) := hyz
      obtain ⟨c, _, _, d, hd, k⟩ := toSegment_near hp ha hb bx bya bzb h1 h2 hyz' hs
      have hne : real y ≠ real z := by
        intro h
        rw [eucl_eq_zero.2 h] at hyz'
        norm_num at hyz'
      have hon : OnSeg (real y) (real z) (along (real y) (real z) (clampU (real x) (real y) (real z))) := ⟨_, (clampU_mem _ _ _).1, (clampU_mem _ _ _).2, rfl⟩
      have hle := toSegment_least (real x) (real y) (real z) hne
      have c1 : lt (PointToSegmentDistance p a b srid).1 f = decide (d < D) := by rw [vl, hd, hf]; rfl
      simp only [c1, decide_eq_true_eq]
      have hda := (abs_le.1 k).2
      by_cases hlt : d < D
      · rw [if_pos hlt]
        obtain ⟨r, k1, k2, k3, k4⟩ := ih hlong' hd
        have k3' : (r : ℝ) ≤ d := by exact_mod_cast k3
        refine ⟨r, k1, ?_, by linarith, ?_⟩
        · intro e he hne' t ht
          rcases List.mem_cons.1 he with rfl | he
          · have := hle t ht
            linarith
          · exact k2 e he hne' t ht
        · right
          rcases k4 with k4 | ⟨e, he, k4⟩
          · exact ⟨(y, z), List.mem_cons_self, _, hon, by rw [k4]; exact k⟩
          · exact ⟨e, List.mem_cons_of_mem _ he, k4⟩
      · rw [if_neg hlt]
        obtain ⟨r, k1, k2, k3, k4⟩ := ih hlong' hf
        have k3' : (r : ℝ) ≤ d := by exact_mod_cast k3.trans (not_lt.1 hlt)
        refine ⟨r, k1, ?_, k3, ?_⟩
        · intro e he hne' t ht
          rcases List.mem_cons.1 he with rfl | he
          · have := hle t ht
            linarith
          · exact k2 e he hne' t ht
        · rcases k4 with k4 | ⟨e, he, k4⟩
          · exact .inl k4
          · exact .inr ⟨e, List.mem_cons_of_mem _ he, k4⟩

theorem onSeg_left (a b : ℝ × ℝ) : OnSeg a b a := ⟨0, le_rfl, zero_le_one, by simp [along]⟩

/-- the distance of a point from finitely many segments exists -/
theorem isDistance_exists (x : ℚ × ℚ) (es : List ((ℚ × ℚ) × (ℚ × ℚ)))
    (hcov : ∀ e ∈ es, ∀ t, OnSeg (real e.1) (real e.2) t → ∃ f ∈ es, f.1 ≠ f.2 ∧ OnSeg (real f.1) (real f.2) t)
    (hnear : ∃ e ∈ es, e.1 ≠ e.2 ∧ eucl (real x) (real e.1) < 2 ^ 31) : ∃ δ, IsDistance x es δ := by
  obtain ⟨r, _, h2, h3, h4⟩ := polyDist_fin (real x) (srid := 0) (by decide) (es.map (Prod.map real real)) (2 ^ 31)
  have h2' : ∀ e ∈ es, e.1 ≠ e.2 → ∀ t, OnSeg (real e.1) (real e.2) t → r ≤ eucl (real x) t := fun e he hne t ht =>
    h2 (Prod.map real real e) (List.mem_map.2 ⟨e, he, rfl⟩) (fun h => hne (real_inj h)) t ht
  refine ⟨r, ?_, ?_⟩
  · rcases h4 with h4 | ⟨e', he', t, ht, h4⟩
    · exfalso
      obtain ⟨e, he, hne, hlt⟩ := hnear
      have := h2' e he hne _ (onSeg_left _ _)
      linarith
    · obtain ⟨e, he, rfl⟩ := List.mem_map.1 he'
      exact ⟨e, he, t, ht, h4⟩
  · rintro d ⟨e, he, t, ht, rfl⟩
    obtain ⟨f, hf, hne, hft⟩ := hcov e he t ht
    exact h2' f hf hne t hft

theorem edges_map_real (l : List (ℚ × ℚ)) : edges (l.map real) = (edges l).map (Prod.map real real) := by
  induction l with
  | nil => rfl
  | cons a l ih =>
    cases l with
    | nil => rfl
    | cons b l =>
      simp only [List.map_cons, edges] at ih ⊢
      rw [ih]; rfl

theorem covered_real (l : List (ℚ × ℚ)) (h : ∃ e ∈ edges l, e.1 ≠ e.2) (e : (ℚ × ℚ) × (ℚ × ℚ)) (he : e ∈ edges l) (t : ℝ × ℝ) (ht : OnSeg (real e.1) (real e.2) t) :
    ∃ f ∈ edges l, f.1 ≠ f.2 ∧ OnSeg (real f.1) (real f.2) t := by
  obtain ⟨e0, he0, hne0⟩ := h
  obtain ⟨f', hf', hfn, hft⟩ := degenerate_covered (l.map real)
    ⟨Prod.map real real e0, by rw [edges_map_real]; exact List.mem_map.2 ⟨e0, he0, rfl⟩, fun h => hne0 (real_inj h)⟩
    (Prod.map real real e) (by rw [edges_map_real]; exact List.mem_map.2 ⟨e, he, rfl⟩) t ht
  rw [edges_map_real] at hf'
  obtain ⟨f, hf, rfl⟩ := List.mem_map.1 hf'
  exact ⟨f, hf, fun h => hfn (congrArg real h), hft⟩

/-- **C105 (polygon).** For finite coordinates up to `M` (`1 ≤ M ≤ 2^28`) and sides that are single points or at least 2^-40 long, not all single points: if the point
is reported to be disjoint from the polygon, the distance computed in float64 is within `M/2^46` of the true distance to the exterior boundary. -/
theorem C105_polygon {M : ℚ} {p : Point Float} {ps : List (Point Float)} {x : ℚ × ℚ} {c : List (ℚ × ℚ)} (hp : At p x) (bx : Within M x) (hc : AtAll M ps (c ++ c.take 1))
    (h1 : 1 ≤ M) (h2 : M ≤ 2 ^ 28) (hlong : LongSides (sides c)) (hne : ∃ e ∈ sides c, e.1 ≠ e.2) (holes : List (List (Point Float))) (srid : Int) (hs : srid ≠ 4326)
    (hd : IsPointInPolygon p (ps :: holes) = .disjoint) :
    ∃ (d : ℚ) (δ : ℝ), val (PointPolygonDistance p (ps :: holes) srid) = .fin d ∧ IsDistance x (sides c) δ ∧ |(d : ℝ) - δ| ≤ M / 2 ^ 46 := by
  have h1' : (1 : ℝ) ≤ M := by exact_mod_cast h1
  have h2' := cast_two_pow h2
  have hF := (cyc_forall₂ hc).imp fun f e h => (⟨⟨h.1.1, within_real h.1.2⟩, ⟨h.2.1, within_real h.2.2⟩⟩ :
    (At f.1 e.1 ∧ Within (M : ℝ) (real e.1)) ∧ (At f.2 e.2 ∧ Within (M : ℝ) (real e.2)))
  have hw : ∀ e ∈ sides c, eucl (real x) (real e.1) ≤ 3 * M := by
    intro e he
    obtain ⟨i, hi⟩ := List.mem_iff_getElem?.1 he
    have : ∃ f, f ∈ cyc ps ∧ (At f.1 e.1 ∧ Within (M : ℝ) (real e.1)) ∧ (At f.2 e.2 ∧ Within (M : ℝ) (real e.2)) := by
      clear hlong hne hi
      generalize cyc ps = fs at *
      generalize sides c = es at *
      induction hF with
      | nil => cases he
      | cons h t ih =>
        rcases List.mem_cons.1 he with rfl | he
        · exact ⟨_, List.mem_cons_self, h⟩
        · obtain ⟨f, hf, h⟩ := ih he
          exact ⟨f, List.mem_cons_of_mem _ hf, h⟩
    obtain ⟨f, _, h, _⟩ := this
    exact eucl_le_three (within_real bx) h.2
  obtain ⟨r, k1, k2, k3, k4⟩ := polyDist_near h1' (by norm_num at h2' ⊢; linarith) hp (within_real bx) hs hF hlong val_INF
  have hδ : ∃ δ, IsDistance x (sides c) δ := by
    refine isDistance_exists x (sides c) ?_ ?_
    · intro e he t ht
      rw [← edges_closed] at he hne ⊢
      exact covered_real _ hne e he t ht
    · obtain ⟨e, he, hn⟩ := hne
      refine ⟨e, he, hn, ?_⟩
      have := hw e he
      norm_num at h2' ⊢
      linarith
  obtain ⟨δ, hδ⟩ := hδ
  refine ⟨r, δ, ?_, hδ, ?_⟩
  · unfold PointPolygonDistance
    rw [hd]
    exact k1
  · obtain ⟨⟨e, he, t, ht, rfl⟩, hmin⟩ := hδ
    rw [abs_le]
    constructor
    · rcases k4 with k4 | ⟨f, hf, s, hs', k4⟩
      · exfalso
        obtain ⟨g, hg, hn⟩ := hne
        have a1 := k2 g hg hn _ (onSeg_left _ _)
        have a2 := hw g hg
        rw [k4] at a1
        push_cast at a1
        norm_num at a1 h2'
        linarith
      · have := hmin ⟨f, hf, s, hs', rfl⟩
        have := (abs_le.1 k4).1
        linarith
    · rw [← edges_closed] at he hne k2
      obtain ⟨f, hf, hn, hft⟩ := covered_real _ hne e he t ht
      have := k2 f hf hn t hft
      linarith

/-- **C105 (convex polygons).** For a strictly convex ring of sides at least 2^-40 long and a point other than the origin, 2e-6 clear of the boundary as in C101, both with coordinates
up to 2^26: the computed distance is zero for a point strictly inside, and within 2^-20 of the true distance for a point strictly outside. -/
theorem C105_convex {p : Point Float} {ps : List (Point Float)} {x : ℚ × ℚ} {c : List (ℚ × ℚ)} (hp : At p x) (bx : Within (2 ^ 26) x) (hc : AtAll (2 ^ 26) ps (c ++ c.take 1))
    (hconv : StrictlyConvex c) (hx : Clear2X c x) (hy : ClearY c x) (h0 : x ≠ (0, 0)) (hlong : LongSides (sides c)) (hne : ∃ e ∈ sides c, e.1 ≠ e.2)
    (holes : List (List (Point Float))) (srid : Int) (hs : srid ≠ 4326) :
    (InsideConvex c x → val (PointPolygonDistance p (ps :: holes) srid) = .fin (0 : ℚ)) ∧
    (OutsideConvex c x → ∃ (d : ℚ) (δ : ℝ), val (PointPolygonDistance p (ps :: holes) srid) = .fin d ∧ IsDistance x (sides c) δ ∧ |(d : ℝ) - δ| ≤ 1 / 2 ^ 20) := by
  have h := C101_inPolygon_convex hp bx hc hconv hx hy h0 holes
  refine ⟨fun hi => ?_, fun ho => ?_⟩
  · rw [C73_polygon_inside _ _ _ (.inl (h.1 hi)), val_lit0]
  · obtain ⟨d, δ, e1, e2, e3⟩ := C105_polygon hp bx hc (by norm_num) (by norm_num) hlong hne holes srid hs (h.2 ho)
    refine ⟨d, δ, e1, e2, e3.trans ?_⟩
    push_cast
    norm_num

theorem forall₂_get? {α β : Type} {R : α → β → Prop} {l : List α} {m : List β} (h : List.Forall₂ R l m) {i : Nat} {a : α} (hi : l[i]? = some a) :
    ∃ b, m[i]? = some b ∧ R a b := by
  induction h generalizing i with
  | nil => simp at hi
  | cons h t ih =>
    cases i with
    | zero => simp only [List.getElem?_cons_zero, Option.some.injEq] at hi ⊢; subst hi; exact ⟨_, rfl, h⟩
    | succ i => simp only [List.getElem?_cons_succ] at hi ⊢; exact ih hi

/-- **C105 (nearest point of a line).** For a line with finite coordinates up to `M` (`1 ≤ M ≤ 2^28`) whose segments are single points or at least 2^-40 long, not all single points:
`PointHitLineString` in float64 returns a distance within `M/2^46` of the true distance to the line and a point within `M/2^46` of the segment with the returned index. -/
theorem C105_hit {M : ℚ} {p : Point Float} {ps : List (Point Float)} {x : ℚ × ℚ} {l : List (ℚ × ℚ)} (hp : At p x) (bx : Within M x) (hl : AtAll M ps l) (h1 : 1 ≤ M)
    (h2 : M ≤ 2 ^ 28) (hlong : LongSides (segments l)) (hne : ∃ e ∈ segments l, e.1 ≠ e.2) (srid : Int) (hs : srid ≠ 4326) :
    ∃ (i : Nat) (y z c : ℚ × ℚ) (d : ℚ) (δ : ℝ) (t : ℝ × ℝ), l[i]? = some y ∧ l[i+1]? = some z ∧ (PointHitLineString p ps srid).2.1 = i ∧
      At (PointHitLineString p ps srid).1 c ∧ val (PointHitLineString p ps srid).2.2 = .fin d ∧
      IsDistance x (segments l) δ ∧ |(d : ℝ) - δ| ≤ M / 2 ^ 46 ∧ OnSeg (real y) (real z) t ∧ eucl (real c) t ≤ M / 2 ^ 46 := by
  simp only [segments_eq] at *
  have h1' : (1 : ℝ) ≤ M := by exact_mod_cast h1
  have h2' := cast_two_pow h2
  have h3' : (M : ℝ) ≤ 2 ^ 99 := by norm_num at h2' ⊢; linarith
  have vl : ∀ a b : Float, lt a b = XR.lt (val a) (val b) := val_lt
  have hF : List.Forall₂ (fun p x => At p x ∧ Within (M : ℝ) (real x)) ps l := hl.imp fun p x hx => ⟨hx.1, within_real hx.2⟩
  have bx := within_real bx
  have hw : ∀ e ∈ edges l, eucl (real x) (real e.1) ≤ 3 * M := by
    intro e he
    obtain ⟨i, hi, _⟩ := edge_of_mem he
    obtain ⟨_, _, h⟩ := forall₂_get? hF.flip hi
    exact eucl_le_three bx h.2
  -- every segment of positive length
  have seg : ∀ (j : Nat) (y z : ℚ × ℚ), l[j]? = some y → l[j+1]? = some z → y ≠ z → ∃ a b : Point Float, ps[j]? = some a ∧ ps[j+1]? = some b ∧
      ∃ (c : ℚ × ℚ) (d : ℚ) (t : ℝ × ℝ), At (PointToSegmentDistance p a b srid).2 c ∧ val (PointToSegmentDistance p a b srid).1 = .fin d ∧ OnSeg (real y) (real z) t ∧
        eucl (real c) t ≤ M / 2 ^ 46 ∧ |(d : ℝ) - eucl (real x) t| ≤ M / 2 ^ 46 ∧ (∀ s, OnSeg (real y) (real z) s → eucl (real x) t ≤ eucl (real x) s) := by
    intro j y z hy hz hyz
    obtain ⟨a, ha, ha'⟩ := forall₂_get? hF.flip hy
    obtain ⟨b, hb, hb'⟩ := forall₂_get? hF.flip hz
    have hmem : (y, z) ∈ edges l := List.mem_of_getElem? ((edges_getElem? l j (y, z)).2 ⟨hy, hz⟩)
    rcases hlong _ hmem with h | h
    · exact absurd h hyz
    obtain ⟨c, hc, k1, d, hd, k2⟩ := toSegment_near hp ha'.1 hb'.1 bx ha'.2 hb'.2 h1' h3' h hs
    exact ⟨a, b, ha, hb, c, d, _, hc, hd, ⟨_, (clampU_mem _ _ _).1, (clampU_mem _ _ _).2, rfl⟩, k1, k2,
      fun s hs => toSegment_least _ _ _ (fun h => hyz (real_inj h)) s hs⟩
  obtain ⟨δ, hδ⟩ : ∃ δ, IsDistance x (edges l) δ := by
    refine isDistance_exists x (edges l) (fun e he t ht => covered_real _ hne e he t ht) ?_
    obtain ⟨e, he, hn⟩ := hne
    refine ⟨e, he, hn, ?_⟩
    have := hw e he
    norm_num at h2' ⊢
    linarith
  rcases C43_hit_first p ps srid with ⟨_, g2⟩ | ⟨i, a, b, ha, hb, g1, g2, g3, _⟩
  · exfalso
    obtain ⟨e, he, hn⟩ := hne
    obtain ⟨j, hy, hz⟩ := edge_of_mem he
    obtain ⟨a, b, ha, hb, c, d, t, _, hd, _, _, k2, k3⟩ := seg j _ _ hy hz hn
    have := g2 j a b ha hb
    simp only [vl, hd, val_INF, XR.lt, decide_eq_false_iff_not, not_lt] at this
    have a1 := k3 _ (onSeg_left _ _)
    have a2 := hw e he
    have a3 := (abs_le.1 k2).2
    have a4 : (2 : ℝ) ^ 31 ≤ d := by exact_mod_cast this
    norm_num at a3 a4 h2'
    linarith
  · obtain ⟨y, hy, hy'⟩ := forall₂_get? hF ha
    obtain ⟨z, hz, hz'⟩ := forall₂_get? hF hb
    have hyz : y ≠ z := by
      rintro rfl
      have hn := toSegment_degenerate hp hy'.1 hz'.1 bx hy'.2 (by norm_num at h3' ⊢; linarith) hs
      simp only [vl, hn, XR.lt] at g2
      cases g2
    obtain ⟨a', b', ha', hb', c, d, t, hc, hd, ht, k1, k2, k3⟩ := seg i y z hy hz hyz
    rw [ha] at ha'; rw [hb] at hb'
    cases ha'; cases hb'
    refine ⟨i, y, z, c, d, δ, t, hy, hz, by rw [g1], by rw [g1]; exact hc, by rw [g1]; exact hd, hδ, ?_, ht, k1⟩
    obtain ⟨⟨e, he, s, hs', rfl⟩, hmin⟩ := hδ
    rw [abs_le]
    constructor
    · have := hmin ⟨(y, z), List.mem_of_getElem? ((edges_getElem? l i (y, z)).2 ⟨hy, hz⟩), t, ht, rfl⟩
      have := (abs_le.1 k2).1
      linarith
    · obtain ⟨f, hf, hn, hfs⟩ := covered_real _ hne e he s hs'
      obtain ⟨j, hfy, hfz⟩ := edge_of_mem hf
      obtain ⟨a2, b2, ha2, hb2, c2, d2, t2, _, hd2, _, _, k2', k3'⟩ := seg j _ _ hfy hfz hn
      have := g3 j a2 b2 ha2 hb2
      simp only [vl, hd2, hd, XR.lt, decide_eq_false_iff_not, not_lt] at this
      have a4 : (d : ℝ) ≤ d2 := by exact_mod_cast this
      have := k3' s hfs
      have := (abs_le.1 k2').2
      linarith

/-! ### Hausdorff distance -/

theorem pointDistance_near {p q : Point Float} {x y : ℚ × ℚ} {M : ℝ} (hp : At p x) (hq : At q y) (bx : Within M (real x)) (by' : Within M (real y))
    (h1 : 1 ≤ M) (h2 : M ≤ 2 ^ 100) {srid : Int} (hs : srid ≠ 4326) : NearR (PointDistance p q srid) (eucl (real x) (real y)) (M / 2 ^ 47) := by
  have e : PointDistance p q srid = EuclideanDis p q := by unfold PointDistance; rw [if_neg hs]; rfl
  rw [e]
  exact (dist_near hp hq bx by' h1 h2).mono (by norm_num; linarith)

theorem minDisTo_near {M : ℝ} (h1 : 1 ≤ M) (h2 : M ≤ 2 ^ 100) {p : Point Float} {x : ℚ × ℚ} (hp : At p x) (bx : Within M (real x)) {srid : Int} (hs : srid ≠ 4326)
    {qs : List (Point Float)} {m : List (ℚ × ℚ)} (h : List.Forall₂ (fun p x => At p x ∧ Within M (real x)) qs m) :
    ∃ r : ℚ, val (minDisTo p srid qs) = .fin r ∧ (∀ y ∈ m, (r : ℝ) ≤ eucl (real x) (real y) + M / 2 ^ 47) ∧ r ≤ 2 ^ 31 ∧
      (r = 2 ^ 31 ∨ ∃ y ∈ m, eucl (real x) (real y) ≤ r + M / 2 ^ 47) := by
  have vl : ∀ a b : Float, lt a b = XR.lt (val a) (val b) := val_lt
  have key : ∀ (f : Float) (D : ℚ), val f = .fin D → ∃ r : ℚ, val (qs.foldl (fun minDis pt2 =>
      if gt minDis (PointDistance p pt2 srid) then PointDistance p pt2 srid else minDis) f) = .fin r ∧
      (∀ y ∈ m, (r : ℝ) ≤ eucl (real x) (real y) + M / 2 ^ 47) ∧ r ≤ D ∧ (r = D ∨ ∃ y ∈ m, eucl (real x) (real y) ≤ r + M / 2 ^ 47) := by
    induction h with
    | nil => intro f D hf; exact ⟨D, hf, by simp, le_rfl, .inl rfl⟩
    | @cons q y qs m hq t ih =>
      intro f D hf
      obtain ⟨d, hd, k⟩ := pointDistance_near hp hq.1 bx hq.2 h1 h2 hs
      obtain ⟨ka, kb⟩ := abs_le.1 k
      have c1 : gt f (PointDistance p q srid) = decide (d < D) := by unfold GoFloat.gt; rw [vl, hd, hf]; rfl
      rw [List.foldl_cons]
      simp only [c1, decide_eq_true_eq]
      by_cases hlt : d < D
      · rw [if_pos hlt]
        obtain ⟨r, k1, k2, k3, k4⟩ := ih _ d hd
        have k3' : (r : ℝ) ≤ d := by exact_mod_cast k3
        refine ⟨r, k1, ?_, by linarith, .inr ?_⟩
        · intro y' hy'
          rcases List.mem_cons.1 hy' with rfl | hy'
          · linarith
          · exact k2 y' hy'
        · rcases k4 with rfl | ⟨y', hy', k4⟩
          · exact ⟨y, List.mem_cons_self, by linarith⟩
          · exact ⟨y', List.mem_cons_of_mem _ hy', k4⟩
      · rw [if_neg hlt]
        obtain ⟨r, k1, k2, k3, k4⟩ := ih _ D hf
        have k3' : (r : ℝ) ≤ d := by exact_mod_cast k3.trans (not_lt.1 hlt)
        refine ⟨r, k1, ?_, k3, ?_⟩
        · intro y' hy'
          rcases List.mem_cons.1 hy' with rfl | hy'
          · linarith
          · exact k2 y' hy'
        · rcases k4 with k4 | ⟨y', hy', k4⟩
          · exact .inl k4
          · exact .inr ⟨y', List.mem_cons_of_mem _ hy', k4⟩
  exact key _ _ val_INF

theorem hausdorffPass_near {M : ℝ} (h1 : 1 ≤ M) (h2 : M ≤ 2 ^ 28) {srid : Int} (hs : srid ≠ 4326) {ps qs : List (Point Float)} {l m : List (ℚ × ℚ)}
    (hl : List.Forall₂ (fun p x => At p x ∧ Within M (real x)) ps l) (hm : List.Forall₂ (fun p x => At p x ∧ Within M (real x)) qs m) (hm0 : m ≠ [])
    {f : Float} {D : ℚ} (hf : val f = .fin D) :
    ∃ R : ℚ, val (hausdorffPass srid f ps qs) = .fin R ∧ D ≤ R ∧ (∀ x ∈ l, ∃ y ∈ m, eucl (real x) (real y) ≤ R + M / 2 ^ 47) ∧
      (R = D ∨ ∃ x ∈ l, ∀ y ∈ m, (R : ℝ) ≤ eucl (real x) (real y) + M / 2 ^ 47) := by
  have vl : ∀ a b : Float, lt a b = XR.lt (val a) (val b) := val_lt
  have ve : ∀ a b : Float, eq a b = XR.eq (val a) (val b) := val_eq
  unfold hausdorffPass
  induction hl generalizing f D with
  | nil => exact ⟨D, hf, le_rfl, by simp, .inl rfl⟩
  | @cons p x ps l hpx t ih =>
    rw [List.foldl_cons]
    obtain ⟨r, g1, g2, g3, g4⟩ := minDisTo_near h1 (by norm_num at h2 ⊢; linarith) hpx.1 hpx.2 hs hm
    have hsmall : r ≠ 2 ^ 31 := by
      intro hr
      obtain ⟨y, hy⟩ := List.exists_mem_of_ne_nil m hm0
      have a1 := g2 y hy
      obtain ⟨i, hi⟩ := List.mem_iff_getElem?.1 hy
      obtain ⟨_, _, hy'⟩ := forall₂_get? hm.flip hi
      have a2 := eucl_le_three hpx.2 hy'.2
      rw [hr] at a1
      push_cast at a1
      norm_num at a1 h2
      linarith
    have hr : ∃ y ∈ m, eucl (real x) (real y) ≤ r + M / 2 ^ 47 := by
      rcases g4 with g4 | g4
      · exact absurd g4 hsmall
      · exact g4
    have c1 : lt f (minDisTo p srid qs) = decide (D < r) := by rw [vl, hf, g1]; rfl
    have c2 : ne (minDisTo p srid qs) INF = true := by
      unfold GoFloat.ne; rw [ve, g1, val_INF]; simp [XR.eq, hsmall]
    simp only [c1, c2, Bool.and_true, decide_eq_true_eq]
    by_cases hlt : D < r
    · rw [if_pos hlt]
      obtain ⟨R, k1, k2, k3, k4⟩ := ih g1
      have k2' : (r : ℝ) ≤ R := by exact_mod_cast k2
      refine ⟨R, k1, by linarith, ?_, .inr ?_⟩
      · intro x' hx'
        rcases List.mem_cons.1 hx' with rfl | hx'
        · obtain ⟨y, hy, h⟩ := hr
          exact ⟨y, hy, by linarith⟩
        · exact k3 x' hx'
      · rcases k4 with rfl | ⟨x', hx', k4⟩
        · exact ⟨x, List.mem_cons_self, g2⟩
        · exact ⟨x', List.mem_cons_of_mem _ hx', k4⟩
    · rw [if_neg hlt]
      obtain ⟨R, k1, k2, k3, k4⟩ := ih hf
      have k2' : (r : ℝ) ≤ R := by exact_mod_cast (not_lt.1 hlt).trans k2
      refine ⟨R, k1, k2, ?_, ?_⟩
      · intro x' hx'
        rcases List.mem_cons.1 hx' with rfl | hx'
        · obtain ⟨y, hy, h⟩ := hr
          exact ⟨y, hy, by linarith⟩
        · exact k3 x' hx'
      · rcases k4 with k4 | ⟨x', hx', k4⟩
        · exact .inl k4
        · exact .inr ⟨x', List.mem_cons_of_mem _ hx', k4⟩

/-- adding non-negative numbers keeps a positive sum positive -/
theorem add_pos_val {f g : Float} (hf : XR.le (.fin 0) (val f) = true) (hg : XR.le (.fin 0) (val g) = true) :
    XR.le (val f) (val (f + g)) = true ∧ XR.le (val g) (val (f + g)) = true := by
  have e1 := rnd_val f
  have e2 := rnd_val g
  rw [val_add]
  constructor
  · rw [← e1]
    have := rnd_mono (F := Float) (val f) (XR.add (val f) (val g)) (by
      generalize val f = a at *
      generalize val g = b at *
      cases a <;> cases b <;> simp_all [XR.le, XR.add])
    rw [e1] at this ⊢
    exact this
  · rw [← e2]
    have := rnd_mono (F := Float) (val g) (XR.add (val f) (val g)) (by
      generalize val f = a at *
      generalize val g = b at *
      cases a <;> cases b <;> simp_all [XR.le, XR.add])
    rw [e2] at this ⊢
    exact this

theorem lengthLoop_pos {M : ℝ} (h1 : 1 ≤ M) (h2 : M ≤ 2 ^ 100) {ps : List (Point Float)} {l : List (ℚ × ℚ)}
    (h : List.Forall₂ (fun p x => At p x ∧ Within M (real x)) ps l) {f : Float} (hf : XR.le (.fin 0) (val f) = true) :
    XR.le (val f) (val (lengthLoop f ps)) = true ∧
    ((∃ e ∈ edges l, 1 / 2 ^ 40 ≤ eucl (real e.1) (real e.2)) → XR.lt (.fin 0) (val (lengthLoop f ps)) = true) := by
  have refl : ∀ f : Float, XR.le (.fin 0) (val f) = true → XR.le (val f) (val f) = true := by
    intro f hf
    generalize val f = a at *
    cases a <;> simp_all [XR.le]
  induction h generalizing f with
  | nil => exact ⟨refl f hf, by simp [edges]⟩
  | @cons p x ps l hpx hl ih =>
    cases hl with
    | nil => exact ⟨refl f hf, by simp [edges]⟩
    | @cons q y ps l hqy hl =>
      obtain ⟨d, hd, k⟩ := euclid_near hpx.1 hqy.1 hpx.2 hqy.2 h2
      have hd0 := euclid_val_nonneg hpx.1 hqy.1 hpx.2 hqy.2 h2 hd
      obtain ⟨s1, s2⟩ := add_pos_val (g := EuclideanDis p q) hf (by rw [hd]; simpa [XR.le] using hd0)
      have hs0 := XR.le_trans _ _ _ hf s1
      obtain ⟨r1, r2⟩ := ih hs0
      refine ⟨XR.le_trans _ _ _ s1 r1, ?_⟩
      rintro ⟨e, he, hL⟩
      rw [edges] at he
      rcases List.mem_cons.1 he with rfl | he
      · have hdp : 0 < d := by
          have := (abs_le.1 k).1
          simp only at hL
          have h0 : (0 : ℝ) < d := by norm_num at this hL; linarith
          exact_mod_cast h0
        have := XR.le_trans _ _ _ s2 r1
        rw [hd] at this
        exact xle_pos this 0 hdp
      · exact r2 ⟨e, he, hL⟩

theorem length_ne_zero_float {M : ℝ} (h1 : 1 ≤ M) (h2 : M ≤ 2 ^ 100) {ps : List (Point Float)} {l : List (ℚ × ℚ)}
    (h : List.Forall₂ (fun p x => At p x ∧ Within M (real x)) ps l) (hL : ∃ e ∈ edges l, 1 / 2 ^ 40 ≤ eucl (real e.1) (real e.2)) : eq (LineLength ps) (lit 0) = false := by
  have ve : ∀ a b : Float, eq a b = XR.eq (val a) (val b) := val_eq
  have := (lengthLoop_pos h1 h2 h (f := lit 0) (by rw [val_lit0]; rfl)).2 hL
  rw [ve, val_lit0]
  exact (xlt_not this).2.2

/-- **C105 (Hausdorff).** For lines with finite coordinates up to `M` (`1 ≤ M ≤ 2^28`), each with a segment at least 2^-40 long, the Hausdorff distance computed in float64 is
within `M/2^47` of the true discrete Hausdorff distance. -/
theorem C105_hausdorff {M : ℚ} {ps qs : List (Point Float)} {l m : List (ℚ × ℚ)} (hl : AtAll M ps l) (hm : AtAll M qs m) (h1 : 1 ≤ M) (h2 : M ≤ 2 ^ 28)
    (hl0 : ∃ e ∈ segments l, 1 / 2 ^ 40 ≤ eucl (real e.1) (real e.2)) (hm0 : ∃ e ∈ segments m, 1 / 2 ^ 40 ≤ eucl (real e.1) (real e.2)) (srid : Int) (hs : srid ≠ 4326) :
    ∃ (d : ℚ) (δ : ℝ), val (HausdorffDistance ps qs srid) = .fin d ∧ IsHausdorff (l.map real) (m.map real) δ ∧ |(d : ℝ) - δ| ≤ M / 2 ^ 47 := by
  simp only [segments_eq] at hl0 hm0
  have h1' : (1 : ℝ) ≤ M := by exact_mod_cast h1
  have h2' := cast_two_pow h2
  have h3' : (M : ℝ) ≤ 2 ^ 100 := by norm_num at h2' ⊢; linarith
  have hF : List.Forall₂ (fun p x => At p x ∧ Within (M : ℝ) (real x)) ps l := hl.imp fun p x hx => ⟨hx.1, within_real hx.2⟩
  have hG : List.Forall₂ (fun p x => At p x ∧ Within (M : ℝ) (real x)) qs m := hm.imp fun p x hx => ⟨hx.1, within_real hx.2⟩
  have nel : l ≠ [] := by rintro rfl; simp [edges] at hl0
  have nem : m ≠ [] := by rintro rfl; simp [edges] at hm0
  have lift : ∀ l : List (ℚ × ℚ), (∃ e ∈ edges l, 1 / 2 ^ 40 ≤ eucl (real e.1) (real e.2)) → ∃ e ∈ edges (l.map real), e.1 ≠ e.2 := by
    rintro l ⟨e, he, hL⟩
    refine ⟨Prod.map real real e, by rw [edges_map_real]; exact List.mem_map.2 ⟨e, he, rfl⟩, ?_⟩
    intro h
    have h' : real e.1 = real e.2 := h
    rw [eucl_eq_zero.2 h'] at hL
    norm_num at hL
  obtain ⟨δ, -, hδ⟩ := C45_hausdorff (l.map real) (m.map real) srid hs (by rw [segments_eq]; exact lift l hl0) (by rw [segments_eq]; exact lift m hm0) (by
    intro p hp q hq
    obtain ⟨x, hx, rfl⟩ := List.mem_map.1 hp
    obtain ⟨y, hy, rfl⟩ := List.mem_map.1 hq
    obtain ⟨i, hi⟩ := List.mem_iff_getElem?.1 hx
    obtain ⟨j, hj⟩ := List.mem_iff_getElem?.1 hy
    obtain ⟨_, _, hx'⟩ := forall₂_get? hF.flip hi
    obtain ⟨_, _, hy'⟩ := forall₂_get? hG.flip hj
    have := eucl_le_three hx'.2 hy'.2
    norm_num at h2' ⊢
    linarith)
  obtain ⟨R, a1, a2, a3, a4⟩ := hausdorffPass_near h1' h2' hs hF hG nem (f := lit 0) (D := 0) val_lit0
  obtain ⟨S, b1, b2, b3, b4⟩ := hausdorffPass_near h1' h2' hs hG hF nel a1
  have hR0 : (0 : ℝ) ≤ R := by exact_mod_cast a2
  have hRS : (R : ℝ) ≤ S := by exact_mod_cast b2
  refine ⟨S, δ, ?_, hδ, ?_⟩
  · unfold HausdorffDistance
    rw [length_ne_zero_float h1' h3' hF hl0, length_ne_zero_float h1' h3' hG hm0]
    exact b1
  · obtain ⟨⟨d0, d1, d2⟩, dmin⟩ := hδ
    have hM0 : (0 : ℝ) ≤ M / 2 ^ 47 := by positivity
    have up : δ ≤ S + M / 2 ^ 47 := by
      refine dmin ⟨by linarith, ?_, ?_⟩
      · intro p hp
        obtain ⟨x, hx, rfl⟩ := List.mem_map.1 hp
        obtain ⟨y, hy, h⟩ := a3 x hx
        exact ⟨real y, List.mem_map.2 ⟨y, hy, rfl⟩, by linarith⟩
      · intro q hq
        obtain ⟨y, hy, rfl⟩ := List.mem_map.1 hq
        obtain ⟨x, hx, h⟩ := b3 y hy
        exact ⟨real x, List.mem_map.2 ⟨x, hx, rfl⟩, by rw [eucl_comm]; exact h⟩
    have hR : (R : ℝ) ≤ δ + M / 2 ^ 47 := by
      rcases a4 with rfl | ⟨x, hx, h⟩
      · push_cast; linarith
      · obtain ⟨q, hq, h'⟩ := d1 _ (List.mem_map.2 ⟨x, hx, rfl⟩)
        obtain ⟨y, hy, rfl⟩ := List.mem_map.1 hq
        have := h y hy
        linarith
    have hS : (S : ℝ) ≤ δ + M / 2 ^ 47 := by
      rcases b4 with rfl | ⟨y, hy, h⟩
      · exact hR
      · obtain ⟨p, hp, h'⟩ := d2 _ (List.mem_map.2 ⟨y, hy, rfl⟩)
        obtain ⟨x, hx, rfl⟩ := List.mem_map.1 hp
        have := h x hx
        rw [eucl_comm] at this
        linarith
    rw [abs_le]
    constructor <;> linarith

/-! ### cases meeting the hypotheses -/

theorem long_of_apart {y z : ℚ × ℚ} (h : 1 ≤ |z.1 - y.1| ∨ 1 ≤ |z.2 - y.2|) : 1 / 2 ^ 40 ≤ eucl (real y) (real z) := by
  obtain ⟨l1, l2⟩ := abs_le_eucl (real y) (real z)
  have h1 : (1 : ℝ) ≤ eucl (real y) (real z) := by
    rcases h with h | h
    · refine le_trans ?_ l1
      show (1 : ℝ) ≤ |(z.1 : ℝ) - y.1|
      exact_mod_cast h
    · refine le_trans ?_ l2
      show (1 : ℝ) ≤ |(z.2 : ℝ) - y.2|
      exact_mod_cast h
  norm_num
  linarith

theorem fpt_at' {x y : Nat} {a b : ℚ} (hx : x ≤ 2 ^ 53) (hy : y ≤ 2 ^ 53) (ha : (x : ℚ) = a) (hb : (y : ℚ) = b) : At (fpt x y) (a, b) := by
  rw [← ha, ← hb]; exact fpt_at x y hx hy

/-- the float64 distance of (1,1) and (4,5) is 5 up to 1e-14 -/
example : ∃ d : ℚ, val (EuclideanDis (fpt 1 1) (fpt 4 5)) = .fin d ∧ |(d : ℝ) - 5| ≤ 1 / 10 ^ 14 := by
  have hx : At (fpt 1 1) ((1 : ℚ), (1 : ℚ)) := fpt_at' (by norm_num) (by norm_num) (by norm_num) (by norm_num)
  have hy : At (fpt 4 5) ((4 : ℚ), (5 : ℚ)) := fpt_at' (by norm_num) (by norm_num) (by norm_num) (by norm_num)
  obtain ⟨d, h1, _, _, h2⟩ := C103_distance hx hy (by norm_num [Within]) (by norm_num [Within])
  have e : eucl (real (1, 1)) (real (4, 5)) = 5 := by
    unfold eucl real
    rw [show (((1 : ℚ) : ℝ) - ((4 : ℚ) : ℝ)) ^ 2 + (((1 : ℚ) : ℝ) - ((5 : ℚ) : ℝ)) ^ 2 = 5 ^ 2 by norm_num, Real.sqrt_sq (by norm_num)]
  rw [e] at h2
  exact ⟨d, h1, h2.trans (by norm_num)⟩

theorem exL5_at : AtAll (5 : ℚ) [fpt 0 0, fpt 4 0, fpt 4 2, fpt 2 2, fpt 2 4, fpt 0 4, fpt 0 0]
    [(0, 0), (4, 0), (4, 2), (2, 2), (2, 4), (0, 4), (0, 0)] := by
  have := fpt_all 5 (by norm_num) [(0, 0), (4, 0), (4, 2), (2, 2), (2, 4), (0, 4), (0, 0)] (by decide)
  norm_num at this ⊢
  exact this

/-- the length of the outline of the L, with error bound 6·74·5/2^53 -/
example : ∃ d : ℚ, val (LineLength [fpt 0 0, fpt 4 0, fpt 4 2, fpt 2 2, fpt 2 4, fpt 0 4, fpt 0 0]) = .fin d ∧ |(d : ℝ) - 16| ≤ 1 / 10 ^ 12 := by
  obtain ⟨d, h1, h2⟩ := C103_length exL5_at (by norm_num) (by norm_num) (by norm_num)
  refine ⟨d, h1, ?_⟩
  have ax : ∀ a b c : ℚ, eucl (real (a, c)) (real (b, c)) = |(a : ℝ) - b| := by
    intro a b c; unfold eucl real; simp [Real.sqrt_sq_eq_abs]
  have ay : ∀ a b c : ℚ, eucl (real (c, a)) (real (c, b)) = |(a : ℝ) - b| := by
    intro a b c; unfold eucl real; simp [Real.sqrt_sq_eq_abs]
  simp only [segments, List.tail_cons, List.zip_cons_cons, List.zip_nil_right, List.map_cons, List.map_nil, List.sum_cons, List.sum_nil, List.length_cons,
    List.length_nil, ax, ay] at h2
  norm_num at h2
  refine le_trans ?_ (h2.trans (by norm_num))
  norm_num

/-- the foot of (1,1) on the segment (0,0)–(4,0) -/
example : ∃ d : ℚ, val (PointToSegmentDistance (fpt 1 1) (fpt 0 0) (fpt 4 0) 3857).1 = .fin d ∧ |(d : ℝ) - 1| ≤ 1 / 10 ^ 12 := by
  have hp : At (fpt 1 1) ((1 : ℚ), (1 : ℚ)) := fpt_at' (by norm_num) (by norm_num) (by norm_num) (by norm_num)
  have ha : At (fpt 0 0) ((0 : ℚ), (0 : ℚ)) := fpt_at' (by norm_num) (by norm_num) (by norm_num) (by norm_num)
  have hb : At (fpt 4 0) ((4 : ℚ), (0 : ℚ)) := fpt_at' (by norm_num) (by norm_num) (by norm_num) (by norm_num)
  obtain ⟨q, c, d, ⟨t, t0, t1, hq⟩, hmin, _, _, hd, hle⟩ := C104_toSegment (M := 4) hp ha hb (by norm_num [Within]) (by norm_num [Within]) (by norm_num [Within]) (by norm_num) (by norm_num)
    (long_of_apart (by norm_num)) 3857 (by decide)
  have e : eucl (real (1, 1)) q = 1 := by
    apply le_antisymm
    · refine (hmin (1, 0) ⟨1 / 4, by norm_num, by norm_num, by simp [along, real]⟩).trans (le_of_eq ?_)
      unfold eucl real; simp
    · obtain ⟨_, l2⟩ := abs_le_eucl q (real (1, 1))
      rw [eucl_comm] at l2
      refine le_trans ?_ l2
      rw [hq]
      simp [along, real]
  rw [e] at hle
  exact ⟨d, hd, hle.trans (by norm_num)⟩

theorem exL_long : LongSides (sides [((0 : ℚ), (0 : ℚ)), (4, 0), (4, 2), (2, 2), (2, 4), (0, 4)]) := by
  have hs : sides [((0 : ℚ), (0 : ℚ)), (4, 0), (4, 2), (2, 2), (2, 4), (0, 4)] =
    [((0, 0), (4, 0)), ((4, 0), (4, 2)), ((4, 2), (2, 2)), ((2, 2), (2, 4)), ((2, 4), (0, 4)), ((0, 4), (0, 0))] := rfl
  intro e he
  rw [hs] at he
  right
  apply long_of_apart
  simp only [List.mem_cons, List.not_mem_nil, or_false] at he
  rcases he with rfl | rfl | rfl | rfl | rfl | rfl <;> norm_num

/-- a point outside the L: float64 finds its distance from the boundary -/
example : ∃ (d : ℚ) (δ : ℝ), val (PointPolygonDistance (fpt 5 1) [[fpt 0 0, fpt 4 0, fpt 4 2, fpt 2 2, fpt 2 4, fpt 0 4, fpt 0 0]] 3857) = .fin d ∧
    IsDistance (5, 1) (sides [((0 : ℚ), (0 : ℚ)), (4, 0), (4, 2), (2, 2), (2, 4), (0, 4)]) δ ∧ |(d : ℝ) - δ| ≤ 1 / 10 ^ 12 := by
  have hp : At (fpt 5 1) ((5 : ℚ), (1 : ℚ)) := fpt_at' (by norm_num) (by norm_num) (by norm_num) (by norm_num)
  obtain ⟨d, δ, h1, h2, h3⟩ := C105_polygon (M := 5) (c := [((0 : ℚ), (0 : ℚ)), (4, 0), (4, 2), (2, 2), (2, 4), (0, 4)]) hp (by norm_num [Within]) exL5_at (by norm_num) (by norm_num) exL_long
    ⟨((0, 0), (4, 0)), by simp [sides], by simp⟩ [] 3857 (by decide) (by decide +kernel)
  exact ⟨d, δ, h1, h2, h3.trans (by norm_num)⟩

/-- the point of a line with a repeated vertex nearest to (1,1) -/
example : ∃ (d : ℚ) (δ : ℝ), val (PointHitLineString (fpt 1 1) [fpt 0 0, fpt 0 0, fpt 4 0, fpt 4 5] 3857).2.2 = .fin d ∧
    IsDistance (1, 1) (segments [((0 : ℚ), (0 : ℚ)), (0, 0), (4, 0), (4, 5)]) δ ∧ |(d : ℝ) - δ| ≤ 1 / 10 ^ 12 := by
  have hp : At (fpt 1 1) ((1 : ℚ), (1 : ℚ)) := fpt_at' (by norm_num) (by norm_num) (by norm_num) (by norm_num)
  have hl : AtAll (5 : ℚ) [fpt 0 0, fpt 0 0, fpt 4 0, fpt 4 5] [((0 : ℚ), (0 : ℚ)), (0, 0), (4, 0), (4, 5)] := by
    have := fpt_all 5 (by norm_num) [(0, 0), (0, 0), (4, 0), (4, 5)] (by decide)
    norm_num at this ⊢
    exact this
  obtain ⟨i, y, z, c, d, δ, t, _, _, _, _, h1, h2, h3, _⟩ := C105_hit (M := 5) hp (by norm_num [Within]) hl (by norm_num) (by norm_num) (by
    intro e he
    simp only [segments, List.tail_cons, List.zip_cons_cons, List.zip_nil_right, List.mem_cons, List.not_mem_nil, or_false] at he
    rcases he with rfl | rfl | rfl
    · exact .inl rfl
    · exact .inr (long_of_apart (by norm_num))
    · exact .inr (long_of_apart (by norm_num))) ⟨((0, 0), (4, 0)), by simp [segments], by simp⟩ 3857 (by decide)
  exact ⟨d, δ, h1, h2, h3.trans (by norm_num)⟩

/-- two lines -/
example : ∃ (d : ℚ) (δ : ℝ), val (HausdorffDistance [fpt 0 0, fpt 4 0] [fpt 0 1, fpt 4 5, fpt 1 1] 3857) = .fin d ∧
    IsHausdorff [real (0, 0), real (4, 0)] [real (0, 1), real (4, 5), real (1, 1)] δ ∧ |(d : ℝ) - δ| ≤ 1 / 10 ^ 12 := by
  have hl : AtAll (5 : ℚ) [fpt 0 0, fpt 4 0] [((0 : ℚ), (0 : ℚ)), (4, 0)] := by
    have := fpt_all 5 (by norm_num) [(0, 0), (4, 0)] (by decide)
    norm_num at this ⊢
    exact this
  have hm : AtAll (5 : ℚ) [fpt 0 1, fpt 4 5, fpt 1 1] [((0 : ℚ), (1 : ℚ)), (4, 5), (1, 1)] := by
    have := fpt_all 5 (by norm_num) [(0, 1), (4, 5), (1, 1)] (by decide)
    norm_num at this ⊢
    exact this
  obtain ⟨d, δ, h1, h2, h3⟩ := C105_hausdorff hl hm (by norm_num) (by norm_num) ⟨_, List.mem_cons_self, long_of_apart (by norm_num)⟩
    ⟨_, List.mem_cons_self, long_of_apart (by norm_num)⟩ 3857 (by decide)
  exact ⟨d, δ, h1, h2, h3.trans (by norm_num)⟩

/-- a point outside a triangle -/
example : ∃ (d : ℚ) (δ : ℝ), val (PointPolygonDistance (fpt 3 2) [[fpt 0 0, fpt 4 0, fpt 0 4, fpt 0 0]] 3857) = .fin d ∧
    IsDistance (3, 2) (sides [((0 : ℚ), (0 : ℚ)), (4, 0), (0, 4)]) δ ∧ |(d : ℝ) - δ| ≤ 1 / 2 ^ 20 := by
  have hp : At (fpt 3 2) ((3 : ℚ), (2 : ℚ)) := fpt_at' (by norm_num) (by norm_num) (by norm_num) (by norm_num)
  have hc : AtAll (2 ^ 26 : ℚ) [fpt 0 0, fpt 4 0, fpt 0 4, fpt 0 0] [(0, 0), (4, 0), (0, 4), (0, 0)] := by
    have := fpt_all (2 ^ 26) (by norm_num) [(0, 0), (4, 0), (0, 4), (0, 0)] (by decide)
    norm_num at this ⊢
    exact this
  have hs : sides [((0 : ℚ), (0 : ℚ)), (4, 0), (0, 4)] = [((0, 0), (4, 0)), ((4, 0), (0, 4)), ((0, 4), (0, 0))] := rfl
  refine (C105_convex (c := [(0, 0), (4, 0), (0, 4)]) hp (by norm_num [Within]) hc (by unfold StrictlyConvex; decide +kernel) ?_
    (by unfold ClearY; decide +kernel) (by decide +kernel) ?_ ⟨((0, 0), (4, 0)), by simp [sides], by simp⟩ [] 3857 (by decide)).2 (by unfold OutsideConvex; decide +kernel)
  · intro e he q hq h
    rw [hs] at he
    obtain ⟨t, t0, t1, rfl⟩ := hq
    simp only [List.mem_cons, List.not_mem_nil, or_false] at he
    rcases he with rfl | rfl | rfl <;> simp only [along] at h ⊢
    · exfalso; linarith
    · have : t = 1 / 2 := by linarith
      rw [this]; unfold eps; norm_num
    · unfold eps; norm_num
  · intro e he
    rw [hs] at he
    right
    apply long_of_apart
    simp only [List.mem_cons, List.not_mem_nil, or_false] at he
    rcases he with rfl | rfl | rfl <;> norm_num

end GoGeo
