import Verif.Props.RoundingSimplify
import Verif.Spec.Curve

/-!
# A line and its simplification as curves: C146
-/

namespace GoGeo
open GoFloat FloatVal Spec

/-- points at the same fraction of two segments are no farther apart than the farther of the end points -/
theorem eucl_along_le {a b c d : ℝ × ℝ} {v t : ℝ} (v0 : 0 ≤ v) (v1 : v ≤ 1) (h1 : eucl a c ≤ t) (h2 : eucl b d ≤ t) :
    eucl (along a b v) (along c d v) ≤ t := by
  have t0 : 0 ≤ t := (Real.sqrt_nonneg _).trans h1
  rw [eucl, Real.sqrt_le_left t0] at h1 h2 ⊢
  simp only [along]
  nlinarith [mul_nonneg v0 (sub_nonneg.2 v1), mul_nonneg (mul_nonneg v0 (sub_nonneg.2 v1)) (add_nonneg (sq_nonneg ((a.1 - c.1) - (b.1 - d.1))) (sq_nonneg ((a.2 - c.2) - (b.2 - d.2)))),
    mul_le_mul_of_nonneg_left h1 (sub_nonneg.2 v1), mul_le_mul_of_nonneg_left h2 v0]

theorem along_along' (a b : ℝ × ℝ) (s t v : ℝ) : along (along a b s) (along a b t) v = along a b (s + v * (t - s)) := by
  simp only [along]; ext <;> ring

/-- a sequence that starts at or below `v` and ends at or above `v` passes `v` in one step -/
theorem step_across (f : ℕ → ℝ) (v : ℝ) {s e : ℕ} (h : s < e) (hs : f s ≤ v) (he : v ≤ f e) : ∃ i, s ≤ i ∧ i < e ∧ f i ≤ v ∧ v ≤ f (i + 1) := by
  induction e, h using Nat.le_induction with
  | base => exact ⟨s, le_rfl, Nat.lt_succ_self s, hs, he⟩
  | succ e h ih =>
    rcases le_total v (f e) with h1 | h1
    · obtain ⟨i, a, b, c⟩ := ih h1
      exact ⟨i, a, b.trans (Nat.lt_succ_self e), c⟩
    · exact ⟨e, (Nat.lt_of_succ_le h).le, Nat.lt_succ_self e, h1, he⟩

/-- every step lies between two neighbouring positions -/
theorem neighbours_cover : ∀ (ks : List ℕ) (a z i : ℕ), ks.head? = some a → ks.getLast? = some z → a ≤ i → i < z → ∃ s e, (s, e) ∈ neighbours ks ∧ s ≤ i ∧ i < e
  | [], _, _, _, h, _, _, _ => by simp at h
  | [x], a, z, i, h, h', h1, h2 => by simp at h h'; omega
  | x :: y :: ks, a, z, i, h, h', h1, h2 => by
    simp only [List.head?_cons, Option.some.injEq] at h
    subst h
    rcases Nat.lt_or_ge i y with h3 | h3
    · exact ⟨x, y, by simp [neighbours], h1, h3⟩
    · obtain ⟨s, e, hm, h4⟩ := neighbours_cover (y :: ks) y z i rfl (by simpa using h') h3 h2
      exact ⟨s, e, by simp only [neighbours, List.drop_succ_cons, List.drop_zero, List.zip_cons_cons, List.mem_cons] at hm ⊢; exact .inr hm, h4⟩

theorem neighbours_pick {α : Type} {l r : List α} {ks : List ℕ} (h : ks.map (l[·]?) = r.map some) :
    (neighbours ks).map (fun q => (l[q.1]?, l[q.2]?)) = (segments r).map fun e => (some e.1, some e.2) := by
  have h1 : (neighbours ks).map (fun q => (l[q.1]?, l[q.2]?)) = (ks.map (l[·]?)).zip (ks.map (l[·]?)).tail := by
    rw [neighbours, ← List.map_tail, List.zip_map, List.drop_one]; rfl
  have h2 : (segments r).map (fun e => (some e.1, some e.2)) = (r.map some).zip (r.map some).tail := by
    rw [segments, ← List.map_tail, List.zip_map]; rfl
  rw [h1, h2, h]

theorem segment_at {α : Type} {l : List α} {i : ℕ} {a b : α} (ha : l[i]? = some a) (hb : l[i + 1]? = some b) : (a, b) ∈ segments l := by
  rw [segments, List.mem_iff_getElem?]
  exact ⟨i, by rw [List.getElem?_zip_eq_some]; exact ⟨ha, by simpa using hb⟩⟩

theorem at_segment {α : Type} {l : List α} {e : α × α} (h : e ∈ segments l) : ∃ i, l[i]? = some e.1 ∧ l[i + 1]? = some e.2 := by
  rw [segments, List.mem_iff_getElem?] at h
  obtain ⟨i, hi⟩ := h
  rw [List.getElem?_zip_eq_some] at hi
  exact ⟨i, hi.1, by simpa using hi.2⟩

/-- if every dropped point is within `t` of the segment that replaces it, the two lines are within `t` of each other as curves -/
theorem curves_within {t : ℝ} (t0 : 0 ≤ t) {l r : List (ℝ × ℝ)} (h : Simplifies (fun p a b => ∃ x, OnSeg a b x ∧ eucl p x ≤ t) l r) : CurvesWithin t l r := by
  obtain ⟨ks, hlt, h0, hn, hr, hnear⟩ := h
  have hpick := neighbours_pick hr
  have ord : ∀ {s e : ℕ}, (s, e) ∈ neighbours ks → s < e := by
    intro s e hm
    rw [neighbours, List.drop_one] at hm
    exact (List.pairwise_iff_forall_sublist.1 hlt (by
      obtain ⟨i, h1, h2⟩ := at_segment (l := ks) (e := (s, e)) hm
      have : ks.drop i = s :: e :: ks.drop (i + 2) := by
        obtain ⟨h3, h4⟩ := List.getElem?_eq_some_iff.1 h1
        obtain ⟨h5, h6⟩ := List.getElem?_eq_some_iff.1 h2
        rw [List.drop_eq_getElem_cons h3, List.drop_eq_getElem_cons h5, h4, h6]
      exact (List.Sublist.trans (by rw [this]; simp) (List.drop_sublist i ks))))
  have close : ∀ {s e : ℕ} {a b : ℝ × ℝ}, (s, e) ∈ neighbours ks → l[s]? = some a → l[e]? = some b → ∀ i, s ≤ i → i ≤ e → ∀ p, l[i]? = some p →
      ∃ v, 0 ≤ v ∧ v ≤ 1 ∧ eucl p (along a b v) ≤ t ∧ (i = s → v = 0) ∧ (i = e → v = 1) := by
    intro s e a b hm ha hb i hi hi' p hp
    have hse := ord hm
    rcases hi.eq_or_lt with rfl | h1
    · rw [ha] at hp; cases hp
      exact ⟨0, le_rfl, zero_le_one, by simpa [eucl, along] using t0, fun _ => rfl, fun h => by omega⟩
    rcases hi'.eq_or_lt with rfl | h2
    · rw [hb] at hp; cases hp
      exact ⟨1, zero_le_one, le_rfl, by simpa [eucl, along] using t0, fun h => by omega, fun _ => rfl⟩
    obtain ⟨x, ⟨v, v0, v1, rfl⟩, hx⟩ := hnear s e hm i a p b h1 h2 ha hp hb
    exact ⟨v, v0, v1, hx, fun h => by omega, fun h => by omega⟩
  have inl : ∀ {s e : ℕ} {b : ℝ × ℝ}, l[e]? = some b → s ≤ e → ∃ p, l[s]? = some p := by
    intro s e b hb hse
    obtain ⟨h3, -⟩ := List.getElem?_eq_some_iff.1 hb
    exact ⟨l[s], List.getElem?_eq_getElem (by omega)⟩
  constructor
  · rintro z ⟨e, he, v, v0, v1, rfl⟩
    obtain ⟨i, h1, h2⟩ := at_segment he
    obtain ⟨h3, -⟩ := List.getElem?_eq_some_iff.1 h2
    obtain ⟨s, f, hm, hs, hf⟩ := neighbours_cover ks 0 (l.length - 1) i h0 hn (Nat.zero_le i) (by omega)
    have hm' := List.mem_map_of_mem (f := fun q : ℕ × ℕ => (l[q.1]?, l[q.2]?)) hm
    rw [hpick, List.mem_map] at hm'
    obtain ⟨g, hg, heq⟩ := hm'
    obtain ⟨ha, hb⟩ := Prod.mk.inj heq
    obtain ⟨u, u0, u1, hu, -⟩ := close hm ha.symm hb.symm i hs hf.le _ h1
    obtain ⟨w, w0, w1, hw, -⟩ := close hm ha.symm hb.symm (i + 1) (hs.trans i.le_succ) hf _ h2
    refine ⟨along g.1 g.2 (u + v * (w - u)), ⟨g, hg, _, by nlinarith, by nlinarith, rfl⟩, ?_⟩
    rw [← along_along']
    exact eucl_along_le v0 v1 hu hw
  · rintro z ⟨g, hg, v, v0, v1, rfl⟩
    have hg' := List.mem_map_of_mem (f := fun e : (ℝ × ℝ) × (ℝ × ℝ) => (some e.1, some e.2)) hg
    rw [← hpick, List.mem_map] at hg'
    obtain ⟨⟨s, e⟩, hm, heq⟩ := hg'
    obtain ⟨ha, hb⟩ := Prod.mk.inj heq
    simp only at ha hb
    have hse := ord hm
    have hall : ∀ i, ∃ v, s ≤ i → i ≤ e → 0 ≤ v ∧ v ≤ 1 ∧ (∀ p, l[i]? = some p → eucl p (along g.1 g.2 v) ≤ t) ∧ (i = s → v = 0) ∧ (i = e → v = 1) := by
      intro i
      by_cases hi : s ≤ i ∧ i ≤ e
      · obtain ⟨p, hp⟩ := inl hb hi.2
        obtain ⟨v, a1, a2, a3, a4, a5⟩ := close hm ha hb i hi.1 hi.2 p hp
        exact ⟨v, fun _ _ => ⟨a1, a2, fun q hq => by rw [hp] at hq; cases hq; exact a3, a4, a5⟩⟩
      · exact ⟨0, fun h h' => absurd ⟨h, h'⟩ hi⟩
    choose f hf using hall
    have fs := (hf s le_rfl hse.le).2.2.2.1 rfl
    have fe := (hf e hse.le le_rfl).2.2.2.2 rfl
    obtain ⟨i, h1, h2, h3, h4⟩ := step_across f v hse (by rw [fs]; exact v0) (by rw [fe]; exact v1)
    obtain ⟨p, hp⟩ := inl hb h2.le
    obtain ⟨q, hq⟩ := inl hb (show i + 1 ≤ e from h2)
    obtain ⟨u0, u1, hu, -⟩ := hf i h1 h2.le
    obtain ⟨w0, w1, hw, -⟩ := hf (i + 1) (h1.trans i.le_succ) h2
    obtain ⟨c, c0, c1, hc⟩ : ∃ c, 0 ≤ c ∧ c ≤ 1 ∧ f i + c * (f (i + 1) - f i) = v := by
      rcases (h3.trans h4).eq_or_lt with h5 | h5
      · exact ⟨0, le_rfl, zero_le_one, by linarith⟩
      · have h6 : 0 < f (i + 1) - f i := sub_pos.2 h5
        exact ⟨(v - f i) / (f (i + 1) - f i), div_nonneg (by linarith) h6.le, (div_le_one h6).2 (by linarith), by field_simp; ring⟩
    refine ⟨along p q c, ⟨(p, q), segment_at hp hq, c, c0, c1, rfl⟩, ?_⟩
    have := eucl_along_le c0 c1 (hu p hp) (hw q hq)
    rw [along_along', hc] at this
    rwa [eucl_comm]

theorem simplifies_map {α β : Type} (f : α → β) {near : β → β → β → Prop} {l r : List α} (h : Simplifies (fun p a b => near (f p) (f a) (f b)) l r) :
    Simplifies near (l.map f) (r.map f) := by
  obtain ⟨ks, h1, h2, h3, h4, h5⟩ := h
  refine ⟨ks, h1, h2, by simpa using h3, ?_, ?_⟩
  · have := congrArg (List.map (Option.map f)) h4
    simpa [List.map_map, Function.comp_def, List.getElem?_map] using this
  · intro s e hm i a p b hi hi' ha hp hb
    simp only [List.getElem?_map, Option.map_eq_some_iff] at ha hp hb
    obtain ⟨a, ha, rfl⟩ := ha
    obtain ⟨p, hp, rfl⟩ := hp
    obtain ⟨b, hb, rfl⟩ := hb
    exact h5 s e hm i a p b hi hi' ha hp hb

/-- **C146.** In exact arithmetic every point of an open line (vertex or not) is within the threshold of the simplified line, and the other way round. -/
theorem C146_exact (srt : GoSort) (hsrt : SortOk srt) (grow : Nat → Nat → Nat) (m : Mem (Point (XR ℝ))) (line : Slice) (hv : m.Valid line)
    (t : ℝ) (ht : 0 ≤ t) (srid : Int) (hs : srid ≠ 4326) (l : List (ℝ × ℝ)) (hl : m.read line = l.map pt) (hlen : 2 ≤ l.length)
    (hopen : l.head? ≠ l.getLast?) :
    ∃ n, ∀ fuel, n ≤ fuel → ∃ m' line' r, DouglasPeuckerSimplify srt grow fuel m line (.fin t) srid = .ok (m', line') ∧
      m'.read line' = r.map pt ∧ CurvesWithin t l r := by
  obtain ⟨n, hn⟩ := C46_simplify_exact srt hsrt grow m line hv t ht srid hs l hl hlen hopen
  refine ⟨n, fun fuel hf => ?_⟩
  obtain ⟨m', line', r, h1, h2, h3⟩ := hn fuel hf
  exact ⟨m', line', r, h1, h2, curves_within ht h3⟩

/-- **C146.** In float64 the same holds with the threshold `t + M/2^46`, for coordinates up to `M` and points that are equal or at least 2^-40 apart. -/
theorem C146_float64 (srt : GoSort) (hsrt : SortOk srt) (grow : Nat → Nat → Nat) (m : Mem (Point Float)) (line : Slice) (hv : m.Valid line) {M : ℚ}
    {l : List (ℚ × ℚ)} (hl : AtAll M (m.read line) l) (h1 : 1 ≤ M) (h2 : M ≤ 2 ^ 99) (hlen : 2 ≤ l.length) (hopen : l.head? ≠ l.getLast?)
    (hsep : ∀ x ∈ l, ∀ y ∈ l, x = y ∨ 1 / 2 ^ 40 ≤ eucl (real x) (real y)) {threshold : Float} {t : ℚ} (ht : val threshold = .fin t) (ht0 : 0 ≤ t)
    (hdup : l.Nodup ∨ M / 2 ^ 46 ≤ t) (srid : Int) (hs : srid ≠ 4326) :
    ∃ n, ∀ fuel, n ≤ fuel → ∃ m' line' r, DouglasPeuckerSimplify srt grow fuel m line threshold srid = .ok (m', line') ∧ m'.Valid line' ∧
      AtAll M (m'.read line') r ∧ CurvesWithin (t + M / 2 ^ 46) (l.map real) (r.map real) := by
  obtain ⟨n, hn⟩ := C112_simplify_partial srt hsrt grow m line hv hl h1 h2 hlen hopen hsep ht ht0 hdup srid hs
  refine ⟨n, fun fuel hf => ?_⟩
  obtain ⟨m', line', r, a1, a2, a3, a4⟩ := hn fuel hf
  refine ⟨m', line', r, a1, a2, a3, curves_within ?_ (simplifies_map real a4)⟩
  have : (0 : ℝ) ≤ t := by exact_mod_cast ht0
  have : (1 : ℝ) ≤ M := by exact_mod_cast h1
  positivity

/-! ## The discrete Hausdorff distance against the distance of the curves -/

theorem eucl_along_self {a b : ℝ × ℝ} {v : ℝ} (v0 : 0 ≤ v) : eucl (along a b v) a = v * eucl a b := by
  rw [eucl, eucl, show ((along a b v).1 - a.1) ^ 2 + ((along a b v).2 - a.2) ^ 2 = v ^ 2 * ((a.1 - b.1) ^ 2 + (a.2 - b.2) ^ 2) by simp only [along]; ring,
    Real.sqrt_mul (sq_nonneg v), Real.sqrt_sq v0]

theorem along_swap (a b : ℝ × ℝ) (v : ℝ) : along a b v = along b a (1 - v) := by
  simp only [along]; ext <;> ring

/-- every point of a line is within half a segment of a vertex -/
theorem curve_vertex {L : ℝ} {l : List (ℝ × ℝ)} (hL : ∀ e ∈ segments l, eucl e.1 e.2 ≤ L) {z : ℝ × ℝ} (hz : OnCurve l z) : ∃ p ∈ l, eucl z p ≤ L / 2 := by
  obtain ⟨e, he, v, v0, v1, rfl⟩ := hz
  have h := hL e he
  have h0 : 0 ≤ eucl e.1 e.2 := Real.sqrt_nonneg _
  obtain ⟨i, h1, h2⟩ := at_segment he
  rcases le_total v (1 / 2) with h3 | h3
  · exact ⟨e.1, List.mem_of_getElem? h1, by rw [eucl_along_self v0]; nlinarith⟩
  · exact ⟨e.2, List.mem_of_getElem? h2, by rw [along_swap, eucl_along_self (by linarith), eucl_comm e.2 e.1]; nlinarith⟩

/-- vertices are points of the line -/
theorem vertex_curve {l : List (ℝ × ℝ)} (h : 2 ≤ l.length) {p : ℝ × ℝ} (hp : p ∈ l) : OnCurve l p := by
  obtain ⟨i, hi⟩ := List.mem_iff_getElem?.1 hp
  obtain ⟨hi', -⟩ := List.getElem?_eq_some_iff.1 hi
  rcases Nat.lt_or_ge (i + 1) l.length with h1 | h1
  · exact ⟨_, segment_at hi (List.getElem?_eq_getElem h1), 0, le_rfl, zero_le_one, by simp [along]⟩
  · obtain ⟨j, rfl⟩ : ∃ j, i = j + 1 := ⟨i - 1, by omega⟩
    exact ⟨_, segment_at (List.getElem?_eq_getElem (by omega)) hi, 1, zero_le_one, le_rfl, by simp [along]⟩

theorem hausdorff_curves {L d : ℝ} {l m : List (ℝ × ℝ)} (hl : 2 ≤ l.length) (hm : 2 ≤ m.length) (hL : ∀ e ∈ segments l ++ segments m, eucl e.1 e.2 ≤ L) (hd : IsHausdorff l m d) :
    CurvesWithin (d + L / 2) l m ∧ ∀ t, CurvesWithin t l m → d ≤ t + L / 2 := by
  have hl' : ∀ e ∈ segments l, eucl e.1 e.2 ≤ L := fun e he => hL e (List.mem_append_left _ he)
  have hm' : ∀ e ∈ segments m, eucl e.1 e.2 ≤ L := fun e he => hL e (List.mem_append_right _ he)
  obtain ⟨⟨d0, hd1, hd2⟩, hleast⟩ := hd
  refine ⟨⟨fun z hz => ?_, fun w hw => ?_⟩, fun t ht => ?_⟩
  · obtain ⟨p, hp, h1⟩ := curve_vertex hl' hz
    obtain ⟨q, hq, h2⟩ := hd1 p hp
    exact ⟨q, vertex_curve hm hq, by linarith [eucl_triangle z p q]⟩
  · obtain ⟨q, hq, h1⟩ := curve_vertex hm' hw
    obtain ⟨p, hp, h2⟩ := hd2 q hq
    exact ⟨p, vertex_curve hl hp, by linarith [eucl_triangle w q p, eucl_comm p q]⟩
  · apply hleast
    have key : ∀ {l m : List (ℝ × ℝ)}, 2 ≤ l.length → (∀ e ∈ segments m, eucl e.1 e.2 ≤ L) → (∀ z, OnCurve l z → ∃ w, OnCurve m w ∧ eucl z w ≤ t) →
        ∀ p ∈ l, ∃ q ∈ m, eucl p q ≤ t + L / 2 := by
      intro l m hl hm ht p hp
      obtain ⟨w, hw, h1⟩ := ht p (vertex_curve hl hp)
      obtain ⟨q, hq, h2⟩ := curve_vertex hm hw
      exact ⟨q, hq, by linarith [eucl_triangle p w q]⟩
    have k1 := key hl hm' ht.1
    have k2 := key hm hl' ht.2
    refine ⟨?_, k1, fun q hq => ?_⟩
    · obtain ⟨p, hp⟩ := List.exists_mem_of_length_pos (l := l) (by omega)
      obtain ⟨q, -, hq⟩ := k1 p hp
      exact (Real.sqrt_nonneg _).trans hq
    · obtain ⟨p, hp, h⟩ := k2 q hq
      exact ⟨p, hp, by rw [eucl_comm]; exact h⟩

theorem two_points {α : Type} {l : List α} {P : α × α → Prop} (h : ∃ e ∈ segments l, P e) : 2 ≤ l.length := by
  obtain ⟨e, he, -⟩ := h
  obtain ⟨i, -, h2⟩ := at_segment he
  obtain ⟨h3, -⟩ := List.getElem?_eq_some_iff.1 h2
  omega

/-- **C146.** `HausdorffDistance`, which looks at the vertices only, differs from the Hausdorff distance of the two lines as curves by at most
half of the longest segment. -/
theorem C146_hausdorff (l m : List (ℝ × ℝ)) (srid : Int) (hs : srid ≠ 4326) (hl : ∃ e ∈ segments l, e.1 ≠ e.2)
    (hm : ∃ e ∈ segments m, e.1 ≠ e.2) (hlt : ∀ p ∈ l, ∀ q ∈ m, eucl p q < 2 ^ 31) {L : ℝ} (hL : ∀ e ∈ segments l ++ segments m, eucl e.1 e.2 ≤ L) :
    ∃ d, HausdorffDistance (l.map pt) (m.map pt) srid = .fin d ∧ CurvesWithin (d + L / 2) l m ∧ ∀ t, CurvesWithin t l m → d ≤ t + L / 2 := by
  obtain ⟨d, h1, h2⟩ := C45_hausdorff l m srid hs hl hm hlt
  exact ⟨d, h1, hausdorff_curves (two_points hl) (two_points hm) hL h2⟩

/-- **C146.** The same in float64, for coordinates up to `M`. -/
theorem C146_hausdorff_float64 {M : ℚ} {ps qs : List (Point Float)} {l m : List (ℚ × ℚ)} (hl : AtAll M ps l) (hm : AtAll M qs m) (h1 : 1 ≤ M) (h2 : M ≤ 2 ^ 28)
    (hl0 : ∃ e ∈ segments l, 1 / 2 ^ 40 ≤ eucl (real e.1) (real e.2)) (hm0 : ∃ e ∈ segments m, 1 / 2 ^ 40 ≤ eucl (real e.1) (real e.2)) (srid : Int) (hs : srid ≠ 4326)
    {L : ℝ} (hL : ∀ e ∈ segments l ++ segments m, eucl (real e.1) (real e.2) ≤ L) :
    ∃ d : ℚ, val (HausdorffDistance ps qs srid) = .fin d ∧ CurvesWithin (d + M / 2 ^ 47 + L / 2) (l.map real) (m.map real) ∧
      ∀ t, CurvesWithin t (l.map real) (m.map real) → (d : ℝ) ≤ t + L / 2 + M / 2 ^ 47 := by
  obtain ⟨d, δ, a1, a2, a3⟩ := C105_hausdorff hl hm h1 h2 hl0 hm0 srid hs
  rw [abs_le] at a3
  have hseg : ∀ k : List (ℚ × ℚ), segments (k.map real) = (segments k).map fun e => (real e.1, real e.2) := by
    intro k; rw [segments, segments, ← List.map_tail, List.zip_map]; rfl
  obtain ⟨b1, b2⟩ := hausdorff_curves (L := L) (by simpa using two_points hl0) (by simpa using two_points hm0) (by
    intro e he
    rw [hseg, hseg, ← List.map_append, List.mem_map] at he
    obtain ⟨e, he, rfl⟩ := he
    exact hL e he) a2
  refine ⟨d, a1, ?_, fun t ht => by linarith [b2 t ht]⟩
  refine ⟨fun z hz => ?_, fun z hz => ?_⟩
  · obtain ⟨w, hw, h⟩ := b1.1 z hz
    exact ⟨w, hw, by linarith⟩
  · obtain ⟨w, hw, h⟩ := b1.2 z hz
    exact ⟨w, hw, by linarith⟩

/-! ## Non-vacuity -/

/-- the line (0,0), (1,2), (2,5), (3,2), (4,0) simplified with threshold 1 in float64 -/
example : ∃ n, ∀ fuel, n ≤ fuel → ∃ m' line' r, DouglasPeuckerSimplify insSort (fun _ _ => 0) fuel ⟨[[fpt 0 0, fpt 1 2, fpt 2 5, fpt 3 2, fpt 4 0]]⟩ ⟨0,0,5,5⟩ (lit 1 : Float) 0 =
      .ok (m', line') ∧ m'.Valid line' ∧ AtAll 5 (m'.read line') r ∧
      CurvesWithin ((1 : ℚ) + (5 : ℚ) / 2 ^ 46) ([(0, 0), (1, 2), (2, 5), (3, 2), (4, 0)].map real) (r.map real) := by
  have h := fpt_all 5 (by norm_num) [(0, 0), (1, 2), (2, 5), (3, 2), (4, 0)] (by decide)
  refine C146_float64 insSort insSort_ok _ _ _ ⟨by decide, by decide⟩ (l := [(0, 0), (1, 2), (2, 5), (3, 2), (4, 0)]) (by norm_num at h ⊢; exact h) (by norm_num) (by norm_num)
    (by simp) (by simp) ?_ val_lit1 zero_le_one (.inl (by norm_num)) 0 (by decide)
  intro x hx y hy
  simp only [List.mem_cons, List.not_mem_nil, or_false] at hx hy
  rcases hx with rfl | rfl | rfl | rfl | rfl <;> rcases hy with rfl | rfl | rfl | rfl | rfl <;>
    first | exact .inl rfl | exact .inr (long_of_apart (by norm_num))

/-- the same line in exact arithmetic -/
example : ∃ n, ∀ fuel, n ≤ fuel → ∃ m' line' r,
    DouglasPeuckerSimplify insSort (fun _ _ => 0) fuel ⟨[[(0, 0), (1, 2), (2, 5), (3, 2), (4, 0)].map pt]⟩ ⟨0,0,5,5⟩ (.fin (1 : ℝ)) 0 = .ok (m', line') ∧
      m'.read line' = r.map pt ∧ CurvesWithin 1 [(0, 0), (1, 2), (2, 5), (3, 2), (4, 0)] r :=
  C146_exact insSort insSort_ok _ _ _ ⟨by simp, by simp [Mem.arr]⟩ 1 zero_le_one 0 (by decide) _ rfl (by simp) (by simp)

/-- the lines (0,0)-(3,4) and (0,1)-(3,5): segments of length 5 -/
example : ∃ d, HausdorffDistance ([((0 : ℝ), (0 : ℝ)), (3, 4)].map pt) ([((0 : ℝ), (1 : ℝ)), (3, 5)].map pt) 0 = .fin d ∧
    CurvesWithin (d + 5 / 2) [(0, 0), (3, 4)] [(0, 1), (3, 5)] ∧ ∀ t, CurvesWithin t [(0, 0), (3, 4)] [(0, 1), (3, 5)] → d ≤ t + 5 / 2 := by
  apply C146_hausdorff _ _ 0 (by decide) ⟨((0, 0), (3, 4)), by simp [segments], by norm_num⟩ ⟨((0, 1), (3, 5)), by simp [segments], by norm_num⟩
  · intro p hp q hq
    simp only [List.mem_cons, List.not_mem_nil, or_false] at hp hq
    rw [eucl, Real.sqrt_lt' (by norm_num)]
    rcases hp with rfl | rfl <;> rcases hq with rfl | rfl <;> norm_num
  · intro e he
    simp only [segments, List.tail_cons, List.zip_cons_cons, List.zip_nil_right, List.cons_append, List.nil_append, List.mem_cons, List.not_mem_nil, or_false] at he
    rw [eucl, Real.sqrt_le_left (by norm_num)]
    rcases he with rfl | rfl <;> norm_num

end GoGeo
