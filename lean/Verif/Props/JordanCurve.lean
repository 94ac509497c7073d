import Verif.Props.Jordan
import Mathlib.Analysis.Convex.Topology
import Mathlib.Topology.Connected.LocallyPathConnected

/-!
# A simple ring has one inside and one outside
-/

namespace GoGeo.Region
open MeasureTheory Set Spec Real

/-! ### near the ring there are two sides -/

/-- two points of a connected set that avoids the ring -/
def Linked (c : List (ℝ × ℝ)) (y z : ℝ × ℝ) : Prop := ∃ S : Set (ℝ × ℝ), IsPreconnected S ∧ (∀ x ∈ S, ¬ OnRing c x) ∧ y ∈ S ∧ z ∈ S

theorem Linked.trans {c : List (ℝ × ℝ)} {x y z : ℝ × ℝ} (h : Linked c x y) (g : Linked c y z) : Linked c x z := by
  obtain ⟨S, hS, oS, xS, yS⟩ := h
  obtain ⟨T, hT, oT, yT, zT⟩ := g
  exact ⟨S ∪ T, hS.union y yS yT hT, fun w hw => hw.elim (oS w) (oT w), Or.inl xS, Or.inr zT⟩

theorem Linked.symm {c : List (ℝ × ℝ)} {x y : ℝ × ℝ} (h : Linked c x y) : Linked c y x := by
  obtain ⟨S, hS, oS, xS, yS⟩ := h
  exact ⟨S, hS, oS, yS, xS⟩

/-- the points off the ring near `x` are on one of two sides -/
def Split (c : List (ℝ × ℝ)) (x : ℝ × ℝ) : Prop := ∃ δ > 0, ∃ S T : Set (ℝ × ℝ), IsPreconnected S ∧ IsPreconnected T ∧ (∀ z ∈ S, ¬ OnRing c z) ∧
  (∀ z ∈ T, ¬ OnRing c z) ∧ ∀ z ∈ Metric.ball x δ, ¬ OnRing c z → z ∈ S ∨ z ∈ T

theorem side_convex (a b : ℝ × ℝ) : Convex ℝ {z | 0 < turn a b z} := by
  intro y hy z hz s t hs ht hst
  simp only [mem_ofPred_eq] at hy hz ⊢
  have : turn a b (s • y + t • z) = s * turn a b y + t * turn a b z := by
    have : t = 1 - s := by linarith
    subst this
    simp only [turn, Prod.fst_add, Prod.snd_add, Prod.smul_fst, Prod.smul_snd, smul_eq_mul]
    ring
  rw [this]
  rcases eq_or_lt_of_le hs with h | h
  · have : t = 1 := by linarith
    subst this; rw [← h]; linarith
  · have := mul_pos h hy
    have := mul_nonneg ht hz.le
    linarith

theorem turn_swap (a b z : ℝ × ℝ) : turn b a z = -turn a b z := by unfold turn; ring

theorem side_convex' (a b : ℝ × ℝ) : Convex ℝ {z | turn a b z < 0} := by
  have : {z | turn a b z < 0} = {z | 0 < turn b a z} := by ext z; simp [turn_swap a b]
  rw [this]
  exact side_convex b a

/-- a point of the line through `x` and `p` -/
theorem on_line {p x y : ℝ × ℝ} (hp : p ≠ x) (h : turn p x y = 0) : ∃ s, y = along x p s := by
  unfold turn at h
  by_cases h1 : p.1 = x.1
  · have h2 : p.2 - x.2 ≠ 0 := fun h2 => hp (Prod.ext h1 (by linarith))
    refine ⟨(y.2 - x.2) / (p.2 - x.2), ?_⟩
    unfold along
    rw [h1] at h ⊢
    have : y.1 = x.1 := by
      have : (p.2 - x.2) * (y.1 - x.1) = 0 := by linarith
      have := (mul_eq_zero.1 this).resolve_left h2
      linarith
    ext
    · simp [this]
    · simp only; field_simp; ring
  · have h2 : p.1 - x.1 ≠ 0 := sub_ne_zero.2 h1
    refine ⟨(y.1 - x.1) / (p.1 - x.1), ?_⟩
    unfold along
    ext
    · simp only; field_simp; ring
    · simp only; field_simp; linarith

theorem ray_seg {p x : ℝ × ℝ} {s δ : ℝ} (hs : 0 ≤ s) (hd : δ ≤ dist p x) (hb : along x p s ∈ Metric.ball x δ) : OnSeg x p (along x p s) := by
  refine ⟨s, hs, ?_, rfl⟩
  have e : along x p s = AffineMap.lineMap x p s := by
    rw [AffineMap.lineMap_apply]
    unfold along
    ext <;> simp <;> ring
  rw [Metric.mem_ball, e, dist_lineMap_left, Real.norm_eq_abs, abs_of_nonneg hs, dist_comm x p] at hb
  by_contra hc
  have h0 : 0 ≤ dist p x := dist_nonneg
  nlinarith

theorem seg_symm {a b x : ℝ × ℝ} (h : OnSeg a b x) : OnSeg b a x := by
  obtain ⟨t, h0, h1, rfl⟩ := h
  exact ⟨1 - t, by linarith, by linarith, by unfold along; ext <;> simp <;> ring⟩

theorem turn_along (p x q : ℝ × ℝ) (s : ℝ) : turn p x (along x q s) = s * turn p x q ∧ turn x q (along x p s) = s * turn p x q ∧
    turn p x (along x p s) = 0 ∧ turn x q (along x q s) = 0 := by
  unfold turn along
  refine ⟨?_, ?_, ?_, ?_⟩ <;> ring

/-- where the ring near `x` is two segments that end there, and there is a left turn -/
theorem split_left {c : List (ℝ × ℝ)} {p x q : ℝ × ℝ} {δ : ℝ} (hδ : 0 < δ) (hp : p ≠ x) (hq : q ≠ x) (dp : δ ≤ dist p x) (dq : δ ≤ dist q x)
    (h : ∀ z ∈ Metric.ball x δ, OnRing c z ↔ OnSeg x p z ∨ OnSeg x q z) (hT : 0 < turn p x q) : Split c x := by
  have hball : Convex ℝ (Metric.ball x δ) := convex_ball x δ
  refine ⟨δ, hδ, Metric.ball x δ ∩ ({z | 0 < turn p x z} ∩ {z | 0 < turn x q z}),
    (Metric.ball x δ ∩ {z | turn p x z < 0}) ∪ (Metric.ball x δ ∩ {z | turn x q z < 0}), ?_, ?_, ?_, ?_, ?_⟩
  · exact (hball.inter ((side_convex p x).inter (side_convex x q))).isPreconnected
  · obtain ⟨ε, hε, hb⟩ : ∃ ε > 0, along x (x.1 - ((p.1 - x.1) + (q.1 - x.1)), x.2 - ((p.2 - x.2) + (q.2 - x.2))) ε ∈ Metric.ball x δ := by
      have hc := along_cont x (x.1 - ((p.1 - x.1) + (q.1 - x.1)), x.2 - ((p.2 - x.2) + (q.2 - x.2)))
      have h0 : along x (x.1 - ((p.1 - x.1) + (q.1 - x.1)), x.2 - ((p.2 - x.2) + (q.2 - x.2))) 0 = x := by simp [along]
      have hn := hc.continuousAt.preimage_mem_nhds (x := 0) (t := Metric.ball x δ) (by rw [h0]; exact Metric.ball_mem_nhds _ hδ)
      obtain ⟨η, hη, hs⟩ := Metric.mem_nhds_iff.1 hn
      exact ⟨η / 2, by positivity, hs (by rw [Metric.mem_ball, Real.dist_eq, sub_zero, abs_of_pos (by positivity)]; linarith)⟩
    have k1 : turn p x (along x (x.1 - ((p.1 - x.1) + (q.1 - x.1)), x.2 - ((p.2 - x.2) + (q.2 - x.2))) ε) = -(ε * turn p x q) := by
      unfold turn along; ring
    have k2 : turn x q (along x (x.1 - ((p.1 - x.1) + (q.1 - x.1)), x.2 - ((p.2 - x.2) + (q.2 - x.2))) ε) = -(ε * turn p x q) := by
      unfold turn along; ring
    have k3 : -(ε * turn p x q) < 0 := by have := mul_pos hε hT; linarith
    refine (hball.inter (side_convex' p x)).isPreconnected.union _ ⟨hb, ?_⟩ ⟨hb, ?_⟩ (hball.inter (side_convex' x q)).isPreconnected
    · rw [mem_ofPred_eq, k1]; exact k3
    · rw [mem_ofPred_eq, k2]; exact k3
  · rintro z ⟨hb, h1, h2⟩ hon
    rcases (h z hb).1 hon with ⟨s, -, -, rfl⟩ | ⟨s, -, -, rfl⟩
    · rw [mem_ofPred_eq, (turn_along p x q s).2.2.1] at h1; exact lt_irrefl _ h1
    · rw [mem_ofPred_eq, (turn_along p x q s).2.2.2] at h2; exact lt_irrefl _ h2
  · rintro z (⟨hb, h1⟩ | ⟨hb, h1⟩) hon
    · rcases (h z hb).1 hon with ⟨s, s0, -, rfl⟩ | ⟨s, s0, -, rfl⟩
      · rw [mem_ofPred_eq, (turn_along p x q s).2.2.1] at h1; exact lt_irrefl _ h1
      · rw [mem_ofPred_eq, (turn_along p x q s).1] at h1; exact absurd (mul_nonneg s0 hT.le) (not_le.2 h1)
    · rcases (h z hb).1 hon with ⟨s, s0, -, rfl⟩ | ⟨s, s0, -, rfl⟩
      · rw [mem_ofPred_eq, (turn_along p x q s).2.1] at h1; exact absurd (mul_nonneg s0 hT.le) (not_le.2 h1)
      · rw [mem_ofPred_eq, (turn_along p x q s).2.2.2] at h1; exact lt_irrefl _ h1
  · intro z hb hoff
    rcases lt_trichotomy (turn p x z) 0 with a | a | a
    · exact Or.inr (Or.inl ⟨hb, a⟩)
    · rcases lt_or_ge (turn x q z) 0 with b | b
      · exact Or.inr (Or.inr ⟨hb, b⟩)
      · exfalso
        obtain ⟨s, rfl⟩ := on_line hp a
        rw [(turn_along p x q s).2.1] at b
        have s0 : 0 ≤ s := nonneg_of_mul_nonneg_left b hT
        exact hoff ((h _ hb).2 (Or.inl (ray_seg s0 dp hb)))
    · rcases lt_trichotomy (turn x q z) 0 with b | b | b
      · exact Or.inr (Or.inr ⟨hb, b⟩)
      · exfalso
        obtain ⟨s, rfl⟩ := on_line hq (by rw [turn_swap, b, neg_zero])
        rw [(turn_along p x q s).1] at a
        have s0 : 0 < s := (pos_iff_pos_of_mul_pos a).2 hT
        exact hoff ((h _ hb).2 (Or.inr (ray_seg s0.le dq hb)))
      · exact Or.inl ⟨hb, a, b⟩

/-- where the ring near `x` is straight -/
theorem split_straight {c : List (ℝ × ℝ)} {p x q : ℝ × ℝ} {δ : ℝ} (hδ : 0 < δ) (hp : p ≠ x) (dp : δ ≤ dist p x) (dq : δ ≤ dist q x)
    (h : ∀ z ∈ Metric.ball x δ, OnRing c z ↔ OnSeg x p z ∨ OnSeg x q z) {r : ℝ} (hr : r < 0) (hqr : q = along x p r) : Split c x := by
  have hball : Convex ℝ (Metric.ball x δ) := convex_ball x δ
  have hq0 : ∀ s, turn p x (along x q s) = 0 := by
    intro s; rw [(turn_along p x q s).1, hqr, (turn_along p x q r).2.2.1, mul_zero]
  refine ⟨δ, hδ, Metric.ball x δ ∩ {z | 0 < turn p x z}, Metric.ball x δ ∩ {z | turn p x z < 0}, (hball.inter (side_convex p x)).isPreconnected,
    (hball.inter (side_convex' p x)).isPreconnected, ?_, ?_, ?_⟩
  · rintro z ⟨hb, h1⟩ hon
    rcases (h z hb).1 hon with ⟨s, -, -, rfl⟩ | ⟨s, -, -, rfl⟩
    · rw [mem_ofPred_eq, (turn_along p x q s).2.2.1] at h1; exact lt_irrefl _ h1
    · rw [mem_ofPred_eq, hq0] at h1; exact lt_irrefl _ h1
  · rintro z ⟨hb, h1⟩ hon
    rcases (h z hb).1 hon with ⟨s, -, -, rfl⟩ | ⟨s, -, -, rfl⟩
    · rw [mem_ofPred_eq, (turn_along p x q s).2.2.1] at h1; exact lt_irrefl _ h1
    · rw [mem_ofPred_eq, hq0] at h1; exact lt_irrefl _ h1
  · intro z hb hoff
    rcases lt_trichotomy (turn p x z) 0 with a | a | a
    · exact Or.inr ⟨hb, a⟩
    · exfalso
      obtain ⟨s, rfl⟩ := on_line hp a
      rcases le_or_gt 0 s with s0 | s0
      · exact hoff ((h _ hb).2 (Or.inl (ray_seg s0 dp hb)))
      · have e : along x p s = along x q (s / r) := by
          rw [hqr]; unfold along
          have := hr.ne
          ext <;> simp <;> field_simp
        rw [e] at hb hoff
        exact hoff ((h _ hb).2 (Or.inr (ray_seg (div_nonneg_of_nonpos s0.le hr.le) dq hb)))
    · exact Or.inl ⟨hb, a⟩

theorem split_both {c : List (ℝ × ℝ)} {p x q : ℝ × ℝ} (hp : p ≠ x) (hq : q ≠ x) (hno : ∀ r, 0 < r → q ≠ along x p r)
    (h : ∃ δ > 0, ∀ z ∈ Metric.ball x δ, OnRing c z ↔ OnSeg x p z ∨ OnSeg x q z) : Split c x := by
  obtain ⟨δ₀, hδ₀, h⟩ := h
  have h1 : 0 < dist p x := dist_pos.2 hp
  have h2 : 0 < dist q x := dist_pos.2 hq
  have hδ : 0 < min δ₀ (min (dist p x) (dist q x)) := lt_min hδ₀ (lt_min h1 h2)
  set δ := min δ₀ (min (dist p x) (dist q x)) with hd
  have dp : δ ≤ dist p x := (min_le_right _ _).trans (min_le_left _ _)
  have dq : δ ≤ dist q x := (min_le_right _ _).trans (min_le_right _ _)
  have h' : ∀ z ∈ Metric.ball x δ, OnRing c z ↔ OnSeg x p z ∨ OnSeg x q z := fun z hz => h z (Metric.ball_subset_ball (min_le_left _ _) hz)
  rcases lt_trichotomy (turn p x q) 0 with a | a | a
  · refine split_left hδ hq hp dq dp (fun z hz => (h' z hz).trans or_comm) ?_
    have : turn q x p = -turn p x q := by unfold turn; ring
    rw [this]; linarith
  · obtain ⟨r, hr⟩ := on_line hp a
    have hr0 : r < 0 := by
      rcases lt_trichotomy r 0 with b | b | b
      · exact b
      · exfalso; apply hq; rw [hr, b]; simp [along]
      · exact absurd hr (hno r b)
    exact split_straight hδ hp dp dq h' hr0 hr
  · exact split_left hδ hp hq dp dq h' a

/-- sides that do not contain `x` are away from it -/
theorem away {m : List ((ℝ × ℝ) × (ℝ × ℝ))} {x : ℝ × ℝ} (h : ∀ g ∈ m, ¬ OnSeg g.1 g.2 x) : ∃ δ > 0, ∀ z ∈ Metric.ball x δ, ∀ g ∈ m, ¬ OnSeg g.1 g.2 z := by
  have : IsClosed (⋃ g ∈ {g | g ∈ m}, {z | OnSeg g.1 g.2 z}) :=
    (List.finite_toSet m).isClosed_biUnion fun g _ => (seg_compact _ _).isClosed
  obtain ⟨δ, hδ, hs⟩ := Metric.isOpen_iff.1 this.isOpen_compl x (by simpa using fun a b c d hg => h ((a, b), (c, d)) hg)
  refine ⟨δ, hδ, fun z hz g hg hon => hs hz ?_⟩
  simp only [mem_iUnion, mem_ofPred_eq]
  exact ⟨g, hg, hon⟩

/-- near `x` the ring is the sides through `x` -/
theorem near_sides (c : List (ℝ × ℝ)) (x : ℝ × ℝ) : ∃ δ > 0, ∀ z ∈ Metric.ball x δ, OnRing c z ↔ ∃ g ∈ sides c, OnSeg g.1 g.2 x ∧ OnSeg g.1 g.2 z := by
  classical
  obtain ⟨δ, hδ, h⟩ := away (m := (sides c).filter fun g => decide (¬ OnSeg g.1 g.2 x)) (x := x) (by
    intro g hg
    simpa using (List.mem_filter.1 hg).2)
  refine ⟨δ, hδ, fun z hz => ⟨?_, ?_⟩⟩
  · rintro ⟨g, hg, hon⟩
    refine ⟨g, hg, ?_, hon⟩
    by_contra hx
    exact h z hz g (List.mem_filter.2 ⟨hg, by simpa using hx⟩) hon
  · rintro ⟨g, hg, -, hon⟩
    exact ⟨g, hg, hon⟩

theorem sides_into {c : List (ℝ × ℝ)} {u : ℝ × ℝ} (h : u ∈ c) : (∃ g ∈ sides c, g.1 = u) ∧ ∃ g ∈ sides c, g.2 = u := by
  constructor
  · have : u ∈ (sides c).map Prod.fst := by rw [sides_fst]; exact h
    exact List.mem_map.1 this
  · have : u ∈ (sides c).map Prod.snd := by
      unfold sides
      rw [List.map_snd_zip (by simp)]
      exact List.mem_rotate.2 h
    exact List.mem_map.1 this

theorem seg_parts {u v : ℝ × ℝ} {t : ℝ} (h0 : 0 < t) (h1 : t < 1) (z : ℝ × ℝ) : OnSeg u v z ↔ OnSeg (along u v t) u z ∨ OnSeg (along u v t) v z := by
  constructor
  · rintro ⟨s, s0, s1, rfl⟩
    rcases le_total s t with h | h
    · left
      refine ⟨1 - s / t, ?_, ?_, ?_⟩
      · have := (div_le_one h0).2 h; linarith
      · have := div_nonneg s0 h0.le; linarith
      · unfold along; ext <;> simp <;> field_simp <;> ring
    · right
      have ht : 0 < 1 - t := by linarith
      refine ⟨(s - t) / (1 - t), div_nonneg (by linarith) ht.le, (div_le_one ht).2 (by linarith), ?_⟩
      unfold along; ext <;> simp <;> field_simp <;> ring
  · rintro (⟨s, s0, s1, rfl⟩ | ⟨s, s0, s1, rfl⟩)
    · exact ⟨t - s * t, by nlinarith, by nlinarith, by unfold along; ext <;> simp <;> ring⟩
    · exact ⟨t + s * (1 - t), by nlinarith, by nlinarith, by unfold along; ext <;> simp <;> ring⟩

theorem split_ring {c : List (ℝ × ℝ)} (hc : SimpleRing c) {x : ℝ × ℝ} (hx : OnRing c x) : Split c x := by
  obtain ⟨hl, hd, hs⟩ := hc
  obtain ⟨e, he, hon⟩ := hx
  by_cases h : ∀ g ∈ sides c, OnSeg g.1 g.2 x → g = e
  · obtain ⟨u, v⟩ := e
    obtain ⟨t, h0, h1, rfl⟩ := hon
    have huv : u ≠ v := sides_ne hl hd he
    have a0 : along u v 0 = u := by simp [along]
    have a1 : along u v 1 = v := by simp [along]
    have t0 : 0 < t := by
      refine lt_of_le_of_ne h0 fun e => huv ?_
      obtain ⟨g, hg, hgu⟩ := (sides_into (side_fst_mem he)).2
      have := h g hg (by rw [← e, a0]; have h := (end_on g.1 g.2).2; rw [hgu] at h; rw [hgu]; exact h)
      rw [this] at hgu
      exact hgu.symm
    have t1 : t < 1 := by
      refine lt_of_le_of_ne h1 fun e => huv ?_
      obtain ⟨g, hg, hgu⟩ := (sides_into (c := c) (u := v) (sides_mem_right he)).1
      have := h g hg (by rw [e, a1, ← hgu]; exact (end_on _ _).1)
      rw [this] at hgu
      exact hgu
    have hp : u ≠ along u v t := fun e => t0.ne (along_inj huv (a0.trans e))
    have hq : v ≠ along u v t := fun e => t1.ne' (along_inj huv (a1.trans e))
    refine split_both hp hq (fun r hr e => ?_) ?_
    · have : along u v 1 = along u v (t - r * t) := by
        rw [a1]; refine e.trans ?_
        unfold along; ext <;> simp <;> ring
      have := along_inj huv this
      nlinarith
    · obtain ⟨δ, hδ, hn⟩ := near_sides c (along u v t)
      refine ⟨δ, hδ, fun z hz => ?_⟩
      rw [hn z hz, ← seg_parts t0 t1]
      constructor
      · rintro ⟨g, hg, hgx, hgz⟩
        have := h g hg hgx
        subst this; exact hgz
      · intro hz
        exact ⟨_, he, ⟨t, h0, h1, rfl⟩, hz⟩
  · push Not at h
    obtain ⟨f, hf, hfx, hne⟩ := h
    have key : ∀ e ∈ sides c, ∀ f ∈ sides c, e ≠ f → x = e.2 → x = f.1 → OnSeg e.1 e.2 x → Split c x := by
      intro e he f hf hne h1 h2 hon
      obtain ⟨p, x'⟩ := e
      obtain ⟨x'', q⟩ := f
      simp only at h1 h2
      subst h1
      subst h2
      have hp : p ≠ x := sides_ne hl hd he
      have hq : q ≠ x := (sides_ne hl hd hf).symm
      have honly : ∀ g ∈ sides c, OnSeg g.1 g.2 x → g = (p, x) ∨ g = (x, q) := by
        intro g hg hgx
        by_contra hc
        rw [not_or] at hc
        rcases hs _ he g hg (Ne.symm hc.1) x hon hgx with ⟨h1, h2⟩ | ⟨h1, h2⟩
        · exact hc.2 (sides_first hd hg hf h2.symm)
        · exact hp h1.symm
      refine split_both hp hq (fun r hr e => corner_open ⟨hl, hd, hs⟩ he hf hp hq ?_) ?_
      · have e' : cx (q - x) / cx (p - x) = r := by
          rw [div_eq_iff (cx_ne hp)]
          have e : q = along x p r := e
          rw [e]
          unfold cx along
          apply Complex.ext <;> simp
        unfold ang
        rw [e']
        exact Complex.arg_ofReal_of_nonneg hr.le
      · obtain ⟨δ, hδ, hn⟩ := near_sides c x
        refine ⟨δ, hδ, fun z hz => ?_⟩
        rw [hn z hz]
        constructor
        · rintro ⟨g, hg, hgx, hgz⟩
          rcases honly g hg hgx with rfl | rfl
          · exact Or.inl (seg_symm hgz)
          · exact Or.inr hgz
        · rintro (h1 | h1)
          · exact ⟨_, he, hon, seg_symm h1⟩
          · exact ⟨_, hf, (end_on _ _).1, h1⟩
    rcases hs e he f hf hne.symm x hon hfx with ⟨h1, h2⟩ | ⟨h1, h2⟩
    · exact key e he f hf hne.symm h1 h2 hon
    · exact key f hf e he hne h2 h1 hfx

/-! ### points with the same winding number can be joined -/

/-- near a point of the ring, two points off it with the same winding number are linked -/
theorem linked_near {c : List (ℝ × ℝ)} (hc : SimpleRing c) {x : ℝ × ℝ} (hx : OnRing c x) : ∃ δ > 0, ∀ y ∈ Metric.ball x δ, ∀ z ∈ Metric.ball x δ,
    ¬ OnRing c y → ¬ OnRing c z → winding c y = winding c z → Linked c y z := by
  obtain ⟨δ, hδ, S, T, hS, hT, oS, oT, hcov⟩ := split_ring hc hx
  obtain ⟨a, ha, b, hb, oa, ob, hlt⟩ := cross_ring hc hx hδ
  have one : ∀ y ∈ S, ∀ z ∈ T, winding c y ≠ winding c z := by
    intro y hy z hz e
    have : ∀ w ∈ Metric.ball x δ, ¬ OnRing c w → winding c w = winding c z := by
      intro w hw ow
      rcases hcov w hw ow with h | h
      · rw [← e]; exact winding_path c hS oS h hy
      · exact winding_path c hT oT h hz
    rw [this a ha oa, this b hb ob] at hlt
    exact lt_irrefl _ hlt
  refine ⟨δ, hδ, fun y hy z hz oy oz e => ?_⟩
  rcases hcov y hy oy with h | h <;> rcases hcov z hz oz with g | g
  · exact ⟨S, hS, oS, h, g⟩
  · exact absurd e (one y h z g)
  · exact absurd e.symm (one z g y h)
  · exact ⟨T, hT, oT, h, g⟩

/-- both winding numbers that occur, occur near each point of the ring -/
theorem occurs {c : List (ℝ × ℝ)} (hc : SimpleRing c) {x y : ℝ × ℝ} (hx : OnRing c x) (hy : ¬ OnRing c y) {δ : ℝ} (hδ : 0 < δ) :
    ∃ z ∈ Metric.ball x δ, ¬ OnRing c z ∧ winding c z = winding c y := by
  obtain ⟨a, ha, b, hb, oa, ob, hlt⟩ := cross_ring hc hx hδ
  by_cases e : winding c a = winding c y
  · exact ⟨a, ha, oa, e⟩
  · refine ⟨b, hb, ob, ?_⟩
    rcases simple_winding hc with h | h <;> rcases h a oa with h1 | h1 <;> rcases h b ob with h2 | h2 <;> rcases h y hy with h3 | h3 <;> omega

theorem ring_constant {c : List (ℝ × ℝ)} {κ : ℝ × ℝ → ℤ} (hcont : ContinuousOn κ {x | OnRing c x}) {x y : ℝ × ℝ} (hx : OnRing c x) (hy : OnRing c y) : κ x = κ y := by
  have hside : ∀ e ∈ sides c, ∀ x, OnSeg e.1 e.2 x → κ x = κ e.1 := by
    intro e he x hx
    have hpre : IsPreconnected {x | OnSeg e.1 e.2 x} := by rw [seg_eq]; exact (convex_segment _ _).isPreconnected
    exact hpre.constant (hcont.mono fun y hy => ⟨e, he, hy⟩) hx (end_on _ _).1
  have hcor : ∀ a ∈ c, ∀ b ∈ c, κ a = κ b := fun a ha b hb => corners_same (fun e he => (hside e he e.2 (end_on _ _).2).symm) ha hb
  obtain ⟨e, he, hon⟩ := hx
  obtain ⟨f, hf, hon'⟩ := hy
  rw [hside e he x hon, hside f hf y hon', hcor _ (side_fst_mem he) _ (side_fst_mem hf)]

/-- `y` is linked to points arbitrarily near `x` -/
def Reaches (c : List (ℝ × ℝ)) (y x : ℝ × ℝ) : Prop := ∀ δ > 0, ∃ z ∈ Metric.ball x δ, ¬ OnRing c z ∧ Linked c y z

theorem linked_winding {c : List (ℝ × ℝ)} {y z : ℝ × ℝ} (h : Linked c y z) : winding c y = winding c z := by
  obtain ⟨S, hS, oS, yS, zS⟩ := h
  exact winding_path c hS oS yS zS

theorem reaches_near {c : List (ℝ × ℝ)} (hc : SimpleRing c) {x y : ℝ × ℝ} {δ : ℝ}
    (h : ∀ y ∈ Metric.ball x δ, ∀ z ∈ Metric.ball x δ, ¬ OnRing c y → ¬ OnRing c z → winding c y = winding c z → Linked c y z) (hy : ¬ OnRing c y)
    {w w' : ℝ × ℝ} (hw' : OnRing c w') (hb : w ∈ Metric.ball x δ) (hb' : w' ∈ Metric.ball x δ) (hr : Reaches c y w) : Reaches c y w' := by
  intro ε hε
  have p1 : 0 < δ - dist w x := sub_pos.2 hb
  have p2 : 0 < δ - dist w' x := sub_pos.2 hb'
  obtain ⟨z, hz, oz, lz⟩ := hr _ p1
  obtain ⟨z', hz', oz', ez'⟩ := occurs hc hw' hy (lt_min hε p2)
  refine ⟨z', Metric.ball_subset_ball (min_le_left _ _) hz', oz', lz.trans ?_⟩
  refine h z (Metric.ball_subset_ball' (by linarith) hz) z' (Metric.ball_subset_ball' (by have := min_le_right ε (δ - dist w' x); linarith) hz') oz oz' ?_
  rw [ez', linked_winding lz]

theorem reaches_all {c : List (ℝ × ℝ)} (hc : SimpleRing c) {x x' y : ℝ × ℝ} (hy : ¬ OnRing c y) (hx : OnRing c x) (hx' : OnRing c x') (hr : Reaches c y x) : Reaches c y x' := by
  classical
  have hcont : ContinuousOn (fun x => if Reaches c y x then (1 : ℤ) else 0) {x | OnRing c x} := by
    intro x hx
    obtain ⟨δ, hδ, h⟩ := linked_near hc hx
    have hev : ∀ᶠ w in nhdsWithin x {x | OnRing c x}, (fun x => if Reaches c y x then (1 : ℤ) else 0) w = (fun x => if Reaches c y x then (1 : ℤ) else 0) x := by
      filter_upwards [mem_nhdsWithin_of_mem_nhds (Metric.ball_mem_nhds x hδ), self_mem_nhdsWithin] with w h1 h2
      have : Reaches c y w ↔ Reaches c y x :=
        ⟨reaches_near hc h hy hx h1 (Metric.mem_ball_self hδ), reaches_near hc h hy h2 (Metric.mem_ball_self hδ) h1⟩
      simp only [this]
    exact (continuousWithinAt_const (b := (fun x => if Reaches c y x then (1 : ℤ) else 0) x)).congr_of_eventuallyEq hev rfl
  have := ring_constant hcont hx hx'
  simp only [if_pos hr] at this
  by_contra hn
  rw [if_neg hn] at this
  exact one_ne_zero this

/-- every point reaches the ring -/
theorem reaches_some {c : List (ℝ × ℝ)} (hne : ∃ x, OnRing c x) {z : ℝ × ℝ} (hz : ¬ OnRing c z) : ∃ x, OnRing c x ∧ Reaches c z x := by
  obtain ⟨x, hx, hmin⟩ := (ring_compact c).exists_isMinOn hne (f := fun x => dist x z) (by fun_prop)
  have hzx : 0 < dist x z := dist_pos.2 (by rintro rfl; exact hz hx)
  have hd : ∀ t : ℝ, dist (AffineMap.lineMap z x t : ℝ × ℝ) z = |t| * dist x z := by
    intro t
    rw [dist_lineMap_left, Real.norm_eq_abs, dist_comm]
  have hoff : ∀ y ∈ (AffineMap.lineMap z x : ℝ → ℝ × ℝ) '' Ico 0 1, ¬ OnRing c y := by
    rintro y ⟨t, ⟨ht0, ht1⟩, rfl⟩ hon
    have h1 : dist x z ≤ dist (AffineMap.lineMap z x t : ℝ × ℝ) z := hmin hon
    rw [hd, abs_of_nonneg ht0] at h1
    nlinarith
  have hpre : IsPreconnected ((AffineMap.lineMap z x : ℝ → ℝ × ℝ) '' Ico 0 1) :=
    isPreconnected_Ico.image _ (by fun_prop)
  have hcl : (1 : ℝ) ∈ closure (Ico (0 : ℝ) 1) := by rw [closure_Ico zero_ne_one]; exact ⟨zero_le_one, le_rfl⟩
  refine ⟨x, hx, fun δ hδ => ?_⟩
  have hnb : (AffineMap.lineMap z x : ℝ → ℝ × ℝ) ⁻¹' Metric.ball x δ ∈ nhds (1 : ℝ) := by
    have hcn : Continuous (AffineMap.lineMap z x : ℝ → ℝ × ℝ) := by fun_prop
    refine hcn.continuousAt.preimage_mem_nhds ?_
    rw [AffineMap.lineMap_apply_one]
    exact Metric.ball_mem_nhds _ hδ
  obtain ⟨s, hs1, hs2⟩ := mem_closure_iff_nhds.1 hcl _ hnb
  have h0 : z ∈ (AffineMap.lineMap z x : ℝ → ℝ × ℝ) '' Ico 0 1 := ⟨0, ⟨le_rfl, zero_lt_one⟩, AffineMap.lineMap_apply_zero _ _⟩
  exact ⟨_, hs1, hoff _ ⟨s, hs2, rfl⟩, _, hpre, hoff, h0, ⟨s, hs2, rfl⟩⟩

theorem simple_some {c : List (ℝ × ℝ)} (hc : SimpleRing c) : ∃ x, OnRing c x := by
  match c, hc with
  | [], hc => exact absurd hc.1 (by simp)
  | a :: l, hc =>
    obtain ⟨g, hg, h⟩ := (sides_into (c := a :: l) List.mem_cons_self).1
    exact ⟨g.1, g, hg, (end_on _ _).1⟩

/-- off a simple ring, points with the same winding number can be joined -/
theorem linked_iff {c : List (ℝ × ℝ)} (hc : SimpleRing c) {y z : ℝ × ℝ} (hy : ¬ OnRing c y) (hz : ¬ OnRing c z) : Linked c y z ↔ winding c y = winding c z := by
  refine ⟨linked_winding, fun e => ?_⟩
  obtain ⟨x, hx, rx⟩ := reaches_some (simple_some hc) hy
  obtain ⟨x', hx', rx'⟩ := reaches_some (simple_some hc) hz
  have rz := reaches_all hc hz hx' hx rx'
  obtain ⟨δ, hδ, h⟩ := linked_near hc hx
  obtain ⟨a, ha, oa, la⟩ := rx δ hδ
  obtain ⟨b, hb, ob, lb⟩ := rz δ hδ
  refine la.trans ((h a ha b hb oa ob ?_).trans lb.symm)
  rw [← linked_winding la, ← linked_winding lb, e]

/-- for points off the ring, linked is the same as joined by a path off the ring -/
theorem linked_joined {c : List (ℝ × ℝ)} {y z : ℝ × ℝ} : Linked c y z ↔ JoinedIn {x | ¬ OnRing c x} y z := by
  constructor
  · rintro ⟨S, hS, oS, yS, zS⟩
    have hopen : IsOpen (connectedComponentIn {x | ¬ OnRing c x} y) := (off_open c).connectedComponentIn
    have hy : y ∈ {x | ¬ OnRing c x} := oS y yS
    have hcon : IsConnected (connectedComponentIn {x | ¬ OnRing c x} y) := isConnected_connectedComponentIn_iff.2 hy
    have hp := hopen.isConnected_iff_isPathConnected.1 hcon
    exact (hp.joinedIn y (mem_connectedComponentIn hy) z (hS.subset_connectedComponentIn yS oS zS)).mono (connectedComponentIn_subset _ _)
  · rintro ⟨γ, hγ⟩
    exact ⟨range γ, isPreconnected_range γ.continuous, by rintro _ ⟨t, rfl⟩; exact hγ t, ⟨0, γ.source⟩, ⟨1, γ.target⟩⟩

/-! ### far away -/

theorem bound (c : List (ℝ × ℝ)) : ∃ R : ℝ, 0 ≤ R ∧ ∀ p ∈ c, |p.1| ≤ R ∧ |p.2| ≤ R := by
  induction c with
  | nil => exact ⟨0, le_rfl, by simp⟩
  | cons a c ih =>
    obtain ⟨R, h0, hR⟩ := ih
    refine ⟨max R (max |a.1| |a.2|), le_max_of_le_left h0, fun p hp => ?_⟩
    rcases List.mem_cons.1 hp with rfl | hp
    · exact ⟨le_max_of_le_right (le_max_left _ _), le_max_of_le_right (le_max_right _ _)⟩
    · exact ⟨(hR p hp).1.trans (le_max_left _ _), (hR p hp).2.trans (le_max_left _ _)⟩

theorem winding_out {c : List (ℝ × ℝ)} {R : ℝ} (hR : ∀ p ∈ c, |p.1| ≤ R ∧ |p.2| ≤ R) {z : ℝ × ℝ} (hz : R < |z.1| ∨ R < |z.2|) : ¬ OnRing c z ∧ winding c z = 0 := by
  have hmem : ∀ e ∈ sides c, (|e.1.1| ≤ R ∧ |e.1.2| ≤ R) ∧ (|e.2.1| ≤ R ∧ |e.2.2| ≤ R) := by
    intro e he
    obtain ⟨i, hi, rfl⟩ := sides_get he
    exact ⟨hR _ (List.getElem_mem _), hR _ (List.getElem_mem _)⟩
  constructor
  · rintro ⟨e, he, t, h0, h1, rfl⟩
    obtain ⟨⟨a1, a2⟩, b1, b2⟩ := hmem e he
    have mix : ∀ a b : ℝ, |a| ≤ R → |b| ≤ R → |a + t * (b - a)| ≤ R := by
      intro a b ha hb
      rw [abs_le] at ha hb ⊢
      constructor <;> nlinarith
    rcases hz with h | h
    · exact absurd h (not_lt.2 (mix _ _ a1 b1))
    · exact absurd h (not_lt.2 (mix _ _ a2 b2))
  · have h := winding_chi c z
    suffices hs : ((sides c).map fun e => chi e.1 e.2 z).sum = 0 by
      rw [hs] at h; exact_mod_cast h
    by_cases hleft : z.1 < -R
    · have tel := sides_tel c fun u => if z.2 < u.2 then 1 else 0
      rw [← tel]
      congr 1
      apply List.map_congr_left
      intro e he
      obtain ⟨⟨a1, a2⟩, b1, b2⟩ := hmem e he
      have l1 : z.1 < e.1.1 := by have := (abs_le.1 a1).1; linarith
      have l2 : z.1 < e.2.1 := by have := (abs_le.1 b1).1; linarith
      unfold chi
      by_cases h1 : z.2 < e.1.2 <;> by_cases h2 : z.2 < e.2.2
      · simp [h1, h2]
      · have : turn e.1 e.2 z < 0 := by unfold turn; nlinarith
        simp [h1, h2, this]
      · have : 0 < turn e.1 e.2 z := by unfold turn; nlinarith
        simp [h1, h2, this]
      · simp [h1, h2]
    · have h0 : (sides c).map (fun e => chi e.1 e.2 z) = (sides c).map fun _ => 0 := by
        apply List.map_congr_left
        intro e he
        obtain ⟨⟨a1, a2⟩, b1, b2⟩ := hmem e he
        rw [abs_le] at a1 a2 b1 b2
        rw [lt_abs, lt_abs] at hz
        rcases hz with (h3 | h3) | (h3 | h3)
        · unfold chi
          by_cases h1 : z.2 < e.1.2 <;> by_cases h2 : z.2 < e.2.2
          · simp [h1, h2]
          · have : ¬ turn e.1 e.2 z < 0 := by unfold turn; nlinarith
            simp [h1, h2, this]
          · have : ¬ 0 < turn e.1 e.2 z := by unfold turn; nlinarith
            simp [h1, h2, this]
          · simp [h1, h2]
        · exact absurd (by linarith : z.1 < -R) hleft
        · unfold chi
          simp [not_lt.2 (by linarith : e.1.2 ≤ z.2), not_lt.2 (by linarith : e.2.2 ≤ z.2)]
        · unfold chi
          simp [(by linarith : z.2 < e.1.2), (by linarith : z.2 < e.2.2)]
      rw [h0]
      simp

/-- a point off a simple ring is inside by the even-odd rule exactly when it cannot escape from the ring -/
theorem evenOdd_escapes {c : List (ℝ × ℝ)} (hc : SimpleRing c) {z : ℝ × ℝ} (hz : ¬ OnRing c z) : EvenOdd c z ↔ ¬ Escapes c z := by
  have hE : EvenOdd c z ↔ winding c z ≠ 0 := by
    rw [evenOdd_iff]
    rcases simple_winding hc with h | h <;> rcases h z hz with e | e <;> rw [e] <;> simp
  rw [hE]
  obtain ⟨R, R0, hR⟩ := bound c
  constructor
  · intro h he
    obtain ⟨y, hy, hj⟩ := he R
    have := winding_out hR hy
    exact h ((linked_winding (linked_joined.2 hj)).trans this.2)
  · intro h he
    refine h fun S => ?_
    obtain ⟨y, hy, hS⟩ : ∃ y : ℝ × ℝ, (R < |y.1| ∨ R < |y.2|) ∧ (S < |y.1| ∨ S < |y.2|) := by
      refine ⟨(0, max R S + 1), Or.inr ?_, Or.inr ?_⟩ <;> simp only <;> refine lt_of_lt_of_le ?_ (le_abs_self _)
      · have := le_max_left R S; linarith
      · have := le_max_right R S; linarith
    obtain ⟨o, w⟩ := winding_out hR hy
    exact ⟨y, hS, linked_joined.1 ((linked_iff hc hz o).2 (he.trans w.symm))⟩

end GoGeo.Region
