import Verif.Props.RoundingHull
import Verif.Props.RoundingArea

/-!
# Predicates and areas on a grid: C114

Coordinates that are multiples of a power of two with few bits: the float64 results are those of exact arithmetic, in degenerate positions too.
-/

set_option linter.unusedSectionVars false

namespace GoGeo
open GoFloat FloatVal Spec

section
variable {F K : Type} [GoFloat F] [Field K] [LinearOrder K] [IsStrictOrderedRing K] [FloatVal F K]
include K

/-- a quotient of integers of at most 52 bits is rounded to the right side of 0 and of 1 -/
theorem rnd_quot {n d : ℤ} (hd : d ≠ 0) (hD : |d| ≤ 2 ^ 52) {b : K} (hb : b = 0 ∨ b = 1) :
    XR.lt (.fin b) (rnd F (.fin ((n : K) / d))) = decide (b < (n : K) / d) ∧ XR.lt (rnd F (.fin ((n : K) / d))) (.fin b) = decide ((n : K) / d < b) ∧
      XR.eq (rnd F (.fin ((n : K) / d))) (.fin b) = decide ((n : K) / d = b) := by
  have hpos : (0 : K) < 1 / 2 ^ 52 := by positivity
  have repb : rnd F (.fin b) = .fin b := by
    rcases hb with rfl | rfl
    · exact rnd_zero
    · have := rnd_rep (F := F) (K := K) 1 0 (by norm_num) (by norm_num)
      simpa using this
  have rep1 : rnd F (.fin (b + 1 / 2 ^ 52)) = .fin (b + 1 / 2 ^ 52) := by
    rcases hb with rfl | rfl
    · have := rnd_frac (F := F) (K := K) 1 52 (by norm_num) (by norm_num)
      simpa using this
    · have := rnd_frac (F := F) (K := K) (2 ^ 52 + 1) 52 (by norm_num) (by norm_num)
      have e : (((2 ^ 52 + 1 : ℕ) : K)) / 2 ^ 52 = 1 + 1 / 2 ^ 52 := by push_cast; field_simp; norm_num
      rwa [e] at this
  have rep2 : rnd F (.fin (b - 1 / 2 ^ 52)) = .fin (b - 1 / 2 ^ 52) := by
    rcases hb with rfl | rfl
    · have := rnd_int (F := F) (K := K) (-1) 52 (by norm_num) (by norm_num)
      have e : ((-1 : ℤ) : K) / 2 ^ 52 = 0 - 1 / 2 ^ 52 := by push_cast; ring
      rwa [e] at this
    · have := rnd_frac (F := F) (K := K) (2 ^ 52 - 1) 52 (by norm_num) (by norm_num)
      have e : (((2 ^ 52 - 1 : ℕ) : K)) / 2 ^ 52 = 1 - 1 / 2 ^ 52 := by
        rw [Nat.cast_sub (by norm_num)]; push_cast; field_simp; norm_num
      rwa [e] at this
  -- distance from b, if not equal
  have gap : (n : K) / d ≠ b → 1 / 2 ^ 52 ≤ |(n : K) / d - b| := by
    intro hne
    obtain ⟨m, hm⟩ : ∃ m : ℤ, (n : K) / d - b = (m : K) / d := by
      have hdK : (d : K) ≠ 0 := by exact_mod_cast hd
      rcases hb with rfl | rfl
      · exact ⟨n, by ring⟩
      · exact ⟨n - d, by push_cast; field_simp⟩
    have hm0 : m ≠ 0 := by
      rintro rfl
      apply hne
      rw [Int.cast_zero, zero_div] at hm
      linarith
    rw [hm, abs_div]
    have h1 : (1 : K) ≤ |(m : K)| := by
      have : (1 : ℤ) ≤ |m| := Int.one_le_abs hm0
      exact_mod_cast this
    have h2 : |(d : K)| ≤ 2 ^ 52 := by exact_mod_cast hD
    have h3 : 0 < |(d : K)| := abs_pos.2 (by exact_mod_cast hd)
    calc (1 : K) / 2 ^ 52 ≤ 1 / |(d : K)| := one_div_le_one_div_of_le h3 h2
      _ ≤ |(m : K)| / |(d : K)| := by gcongr
  by_cases he : (n : K) / d = b
  · rw [he, repb]
    simp [XR.lt, XR.eq]
  · have g := gap he
    rcases lt_or_gt_of_ne he with h | h
    · have h' : (n : K) / d ≤ b - 1 / 2 ^ 52 := by
        rw [abs_of_neg (by linarith)] at g; linarith
      have := rnd_mono (F := F) (.fin ((n : K) / d)) (.fin (b - 1 / 2 ^ 52)) (by simpa [XR.le] using h')
      rw [rep2] at this
      have k := xle_neg this b (by linarith)
      obtain ⟨k1, k2, k3⟩ := xlt_not k
      rw [k, k1, k2]
      simp [h, h.le, he]
    · have h' : b + 1 / 2 ^ 52 ≤ (n : K) / d := by
        rw [abs_of_pos (by linarith)] at g; linarith
      have := rnd_mono (F := F) (.fin (b + 1 / 2 ^ 52)) (.fin ((n : K) / d)) (by simpa [XR.le] using h')
      rw [rep1] at this
      have k := xle_pos this b (by linarith)
      obtain ⟨k1, k2, k3⟩ := xlt_not k
      rw [k, k1, k3]
      simp [h, h.le, he]

/-- a cross product of differences on the grid -/
theorem grid_cross {p q r s : Point F} {k : ℕ} (hk : k ≤ 500) {m1 n1 m2 n2 m3 n3 m4 n4 : ℤ} (hp : At p ((m1 : K) / 2 ^ k, (n1 : K) / 2 ^ k))
    (hq : At q ((m2 : K) / 2 ^ k, (n2 : K) / 2 ^ k)) (hr : At r ((m3 : K) / 2 ^ k, (n3 : K) / 2 ^ k)) (hs : At s ((m4 : K) / 2 ^ k, (n4 : K) / 2 ^ k))
    (b1 : |m1| ≤ 2 ^ 24) (b2 : |n1| ≤ 2 ^ 24) (b3 : |m2| ≤ 2 ^ 24) (b4 : |n2| ≤ 2 ^ 24) (b5 : |m3| ≤ 2 ^ 24) (b6 : |n3| ≤ 2 ^ 24) (b7 : |m4| ≤ 2 ^ 24) (b8 : |n4| ≤ 2 ^ 24) :
    val ((ConvertPointToVector p q).Cross (ConvertPointToVector r s)) = .fin ((((m2 - m1) * (n4 - n3) - (n2 - n1) * (m4 - m3) : ℤ) : K) / 2 ^ (k + k)) ∧
      |(m2 - m1) * (n4 - n3) - (n2 - n1) * (m4 - m3)| ≤ 2 ^ 52 := by
  have d : ∀ u v : ℤ, |u| ≤ 2 ^ 24 → |v| ≤ 2 ^ 24 → |u - v| ≤ 2 ^ 25 := fun u v hu hv => (abs_sub u v).trans (by norm_num at *; omega)
  have pr : ∀ u v : ℤ, |u| ≤ 2 ^ 25 → |v| ≤ 2 ^ 25 → |u * v| ≤ 2 ^ 50 := by
    intro u v hu hv
    rw [abs_mul]
    calc |u| * |v| ≤ 2 ^ 25 * 2 ^ 25 := mul_le_mul hu hv (abs_nonneg _) (by positivity)
      _ = 2 ^ 50 := by norm_num
  have s1 := grid_sub hq.1 hp.1 ((d m2 m1 b3 b1).trans (by norm_num)) (by omega)
  have s2 := grid_sub hs.2 hr.2 ((d n4 n3 b8 b6).trans (by norm_num)) (by omega)
  have s3 := grid_sub hq.2 hp.2 ((d n2 n1 b4 b2).trans (by norm_num)) (by omega)
  have s4 := grid_sub hs.1 hr.1 ((d m4 m3 b7 b5).trans (by norm_num)) (by omega)
  have q1 := pr _ _ (d m2 m1 b3 b1) (d n4 n3 b8 b6)
  have q2 := pr _ _ (d n2 n1 b4 b2) (d m4 m3 b7 b5)
  have p1 := grid_mul s1 s2 (q1.trans (by norm_num)) (by omega)
  have p2 := grid_mul s3 s4 (q2.trans (by norm_num)) (by omega)
  have hb : |(m2 - m1) * (n4 - n3) - (n2 - n1) * (m4 - m3)| ≤ 2 ^ 52 := (abs_sub _ _).trans (by norm_num at q1 q2 ⊢; omega)
  exact ⟨grid_sub p1 p2 (hb.trans (by norm_num)) (by omega), hb⟩

theorem segRel_grid {p1 p2 q1 q2 : Point F} {a b c d : K × K} {k : ℕ} (hk : k ≤ 500) (hp1 : At p1 a) (hp2 : At p2 b) (hq1 : At q1 c) (hq2 : At q2 d)
    (ga : OnGrid 24 k a) (gb : OnGrid 24 k b) (gc : OnGrid 24 k c) (gd : OnGrid 24 k d) :
    SegmentRelation ⟨p1, p2⟩ ⟨q1, q2⟩ = SegmentRelation (seg a b) (seg c d) := by
  obtain ⟨m1, n1, b1, b2, rfl⟩ := ga
  obtain ⟨m2, n2, b3, b4, rfl⟩ := gb
  obtain ⟨m3, n3, b5, b6, rfl⟩ := gc
  obtain ⟨m4, n4, b7, b8, rfl⟩ := gd
  obtain ⟨hD, bD⟩ := grid_cross hk hp1 hp2 hq1 hq2 b1 b2 b3 b4 b5 b6 b7 b8
  obtain ⟨hN1, bN1⟩ := grid_cross hk hp1 hq1 hq1 hq2 b1 b2 b5 b6 b5 b6 b7 b8
  obtain ⟨hN2, bN2⟩ := grid_cross hk hp1 hq1 hp1 hp2 b1 b2 b5 b6 b1 b2 b3 b4
  have two : ∀ j : ℕ, (2 : K) ^ j ≠ 0 := fun j => by positivity
  have eD : segD ((m1 : K) / 2 ^ k, (n1 : K) / 2 ^ k) ((m2 : K) / 2 ^ k, (n2 : K) / 2 ^ k) ((m3 : K) / 2 ^ k, (n3 : K) / 2 ^ k) ((m4 : K) / 2 ^ k, (n4 : K) / 2 ^ k) =
      (((m2 - m1) * (n4 - n3) - (n2 - n1) * (m4 - m3) : ℤ) : K) / 2 ^ (k + k) := by
    unfold segD; push_cast; rw [pow_add]; field_simp
  have eN1 : segN1 ((m1 : K) / 2 ^ k, (n1 : K) / 2 ^ k) ((m3 : K) / 2 ^ k, (n3 : K) / 2 ^ k) ((m4 : K) / 2 ^ k, (n4 : K) / 2 ^ k) =
      (((m3 - m1) * (n4 - n3) - (n3 - n1) * (m4 - m3) : ℤ) : K) / 2 ^ (k + k) := by
    unfold segN1; push_cast; rw [pow_add]; field_simp
  have eN2 : segN2 ((m1 : K) / 2 ^ k, (n1 : K) / 2 ^ k) ((m2 : K) / 2 ^ k, (n2 : K) / 2 ^ k) ((m3 : K) / 2 ^ k, (n3 : K) / 2 ^ k) =
      (((m3 - m1) * (n2 - n1) - (n3 - n1) * (m2 - m1) : ℤ) : K) / 2 ^ (k + k) := by
    unfold segN2; push_cast; rw [pow_add]; field_simp
  rw [segRel_fin, eD, eN1, eN2]
  generalize (m2 - m1) * (n4 - n3) - (n2 - n1) * (m4 - m3) = D at *
  generalize (m3 - m1) * (n4 - n3) - (n3 - n1) * (m4 - m3) = N1 at *
  generalize (m3 - m1) * (n2 - n1) - (n3 - n1) * (m2 - m1) = N2 at *
  have ve : ∀ a b : F, eq a b = XR.eq (val a) (val b) := val_eq
  have vl : ∀ a b : F, lt a b = XR.lt (val a) (val b) := val_lt
  have v0 : val (lit 0 : F) = .fin (0 : K) := val_lit0
  have v1 : val (lit 1 : F) = .fin (1 : K) := fval_lit1
  unfold SegmentRelation
  simp only [ConvertSegToVector, gt, ne, ve, vl, hD, hN2, v0, v1]
  have z : ∀ x : ℤ, (x : K) / 2 ^ (k + k) = 0 ↔ x = 0 := by
    intro x
    rw [div_eq_zero_iff]
    simp [two]
  by_cases hd : D = 0
  · subst hd
    by_cases hn : N2 = 0 <;> simp [XR.eq, z, hn]
  · have hdK : (D : K) / 2 ^ (k + k) ≠ 0 := fun h => hd ((z _).1 h)
    have quot : ∀ N : ℤ, (N : K) / 2 ^ (k + k) / ((D : K) / 2 ^ (k + k)) = (N : K) / D := by
      intro N
      have : (D : K) ≠ 0 := by exact_mod_cast hd
      field_simp
    have w1 : val ((ConvertPointToVector p1 q1).Cross (ConvertPointToVector q1 q2) / (ConvertPointToVector p1 p2).Cross (ConvertPointToVector q1 q2)) =
        rnd F (.fin ((N1 : K) / D)) := by
      rw [val_div _ _ (by rw [hD]; simpa using hd), hD, hN1, ← quot]; simp only [XR.div, hdK, if_false]
    have w2 : val ((ConvertPointToVector p1 q1).Cross (ConvertPointToVector p1 p2) / (ConvertPointToVector p1 p2).Cross (ConvertPointToVector q1 q2)) =
        rnd F (.fin ((N2 : K) / D)) := by
      rw [val_div _ _ (by rw [hD]; simpa using hd), hD, hN2, ← quot]; simp only [XR.div, hdK, if_false]
    obtain ⟨r1, r2, r3⟩ := rnd_quot (F := F) (n := N1) hd bD (.inl rfl : (0 : K) = 0 ∨ (0 : K) = 1)
    obtain ⟨r4, r5, r6⟩ := rnd_quot (F := F) (n := N1) hd bD (.inr rfl : (1 : K) = 0 ∨ (1 : K) = 1)
    obtain ⟨r7, r8, r9⟩ := rnd_quot (F := F) (n := N2) hd bD (.inl rfl : (0 : K) = 0 ∨ (0 : K) = 1)
    obtain ⟨r10, r11, r12⟩ := rnd_quot (F := F) (n := N2) hd bD (.inr rfl : (1 : K) = 0 ∨ (1 : K) = 1)
    rw [w1, w2, r1, r3, r5, r6, r7, r9, r11, r12, quot, quot]
    have hd' : XR.eq (.fin ((D : K) / 2 ^ (k + k)) : XR K) (.fin 0) = false := by simp [XR.eq, z, hd]
    rw [hd']
    simp only [hdK, if_false, Bool.false_and, Bool.not_false, Bool.and_eq_true, Bool.or_eq_true, decide_eq_true_eq, if_true, Bool.false_eq_true, and_assoc]

/-- the points `ps` have the coordinates `xs`, all multiples of `1 / 2^k` with numerators up to `2^B` -/
def GridAll (B k : ℕ) (ps : List (Point F)) (xs : List (K × K)) : Prop := List.Forall₂ (fun p x => At p x ∧ OnGrid B k x) ps xs

/-- **C114 (segments).** For coordinates that are multiples of `1 / 2^k` (`k ≤ 500`) with numerators up to 2^24, the relation of two segments in float64 is the exact one, touching and collinear
positions included: INTERSECT exactly for proper crossings, TOUCH exactly in the cases of C40, DISJOINT otherwise. -/
theorem C114_segments {p1 p2 q1 q2 : Point F} {a b c d : K × K} {k : ℕ} (hk : k ≤ 500) (hp1 : At p1 a) (hp2 : At p2 b) (hq1 : At q1 c) (hq2 : At q2 d)
    (ga : OnGrid 24 k a) (gb : OnGrid 24 k b) (gc : OnGrid 24 k c) (gd : OnGrid 24 k d) :
    (SegmentRelation ⟨p1, p2⟩ ⟨q1, q2⟩ = .intersect ↔ ProperCross a b c d) ∧
    (SegmentRelation ⟨p1, p2⟩ ⟨q1, q2⟩ = .touch ↔
      (Parallel a b c d ∧ turn a b c = 0) ∨ (¬ Parallel a b c d ∧ (a = c ∨ a = d ∨ b = c ∨ b = d))) ∧
    (SegmentRelation ⟨p1, p2⟩ ⟨q1, q2⟩ = .intersect ∨ SegmentRelation ⟨p1, p2⟩ ⟨q1, q2⟩ = .touch ∨ SegmentRelation ⟨p1, p2⟩ ⟨q1, q2⟩ = .disjoint) := by
  rw [segRel_grid hk hp1 hp2 hq1 hq2 ga gb gc gd]
  exact ⟨C39_intersect_iff _ _ _ _, C40_touch_exact _ _ _ _⟩

/-- **C114 (lines).** `LineRelation` on such a grid is what C68 says of exact arithmetic. -/
theorem C114_lines {k : ℕ} (hk : k ≤ 500) {ps qs : List (Point F)} {l m : List (K × K)} (hp : GridAll 24 k ps l) (hq : GridAll 24 k qs m) :
    (LineRelation ps qs = .intersect ↔ ∃ e ∈ segments l, ∃ d ∈ segments m,
      ProperCross e.1 e.2 d.1 d.2 ∨ (Parallel e.1 e.2 d.1 d.2 ∧ turn e.1 e.2 d.1 = 0) ∨
        (¬ Parallel e.1 e.2 d.1 d.2 ∧ (e.1 = d.1 ∨ e.1 = d.2 ∨ e.2 = d.1 ∨ e.2 = d.2))) ∧
    (LineRelation ps qs ≠ .intersect → LineRelation ps qs = .disjoint) := by
  constructor
  · rw [← (C68_lineRelation_exact l m).1, lineRelation_iff, lineRelation_iff, edges_map, edges_map]
    simp only [List.mem_map, exists_exists_and_eq_and, Prod.map_fst, Prod.map_snd]
    constructor
    · rintro ⟨e, he, d, hd, h⟩
      obtain ⟨e', he', r1, r2⟩ := forall₂_mem_left (edges_forall₂ hp) he
      obtain ⟨d', hd', r3, r4⟩ := forall₂_mem_left (edges_forall₂ hq) hd
      refine ⟨e', he', d', hd', ?_⟩
      rwa [segRel_grid hk r1.1 r2.1 r3.1 r4.1 r1.2 r2.2 r3.2 r4.2] at h
    · rintro ⟨e', he', d', hd', h⟩
      obtain ⟨e, he, r1, r2⟩ := forall₂_mem_right (edges_forall₂ hp) he'
      obtain ⟨d, hd, r3, r4⟩ := forall₂_mem_right (edges_forall₂ hq) hd'
      refine ⟨e, he, d, hd, ?_⟩
      rw [segRel_grid hk r1.1 r2.1 r3.1 r4.1 r1.2 r2.2 r3.2 r4.2]
      exact h
  · unfold LineRelation
    split <;> simp

/-- **C114 (rings).** `SelfIntersect` on such a grid is what C41 says of exact arithmetic: true exactly when two sides, neither of them the last, cross properly. -/
theorem C114_selfIntersect {k : ℕ} (hk : k ≤ 500) {ps : List (Point F)} {c : List (K × K)} (hp : GridAll 24 k ps (c ++ c.take 1)) (holes : List (List (Point F))) :
    SelfIntersect (ps :: holes) = true ↔
      ∃ (i j : Nat) (e d : (K × K) × (K × K)), i < j ∧ j + 1 < c.length ∧ (sides c)[i]? = some e ∧ (sides c)[j]? = some d ∧
        ProperCross e.1 e.2 d.1 d.2 := by
  have hE := forall₂_dropLast (edges_forall₂ hp)
  have hlen : (sides c).length = c.length := by simp [sides]
  rw [edges_closed c] at hE
  unfold SelfIntersect
  have g1 : GetExteriorRing (ps :: holes) = ps := rfl
  rw [g1, selfIntersectLoop_iff]
  constructor
  · rintro ⟨i, j, e, d, hij, he, hd, h⟩
    obtain ⟨e', he', r1, r2⟩ := (forall₂_get hE i).1 _ he
    obtain ⟨d', hd', r3, r4⟩ := (forall₂_get hE j).1 _ hd
    rw [segRel_grid hk r1.1 r2.1 r3.1 r4.1 r1.2 r2.2 r3.2 r4.2] at h
    rw [List.getElem?_dropLast] at he' hd'
    split at he' <;> split at hd' <;> try simp at he' hd'
    rename_i h1 h2
    exact ⟨i, j, e', d', hij, by omega, he', hd', (C39_intersect_iff _ _ _ _).1 h⟩
  · rintro ⟨i, j, e', d', hij, hj, he', hd', h⟩
    obtain ⟨e, he, r1, r2⟩ := (forall₂_get hE i).2 e' (by rw [List.getElem?_dropLast, if_pos (by omega)]; exact he')
    obtain ⟨d, hd, r3, r4⟩ := (forall₂_get hE j).2 d' (by rw [List.getElem?_dropLast, if_pos (by omega)]; exact hd')
    refine ⟨i, j, e, d, hij, he, hd, ?_⟩
    rw [segRel_grid hk r1.1 r2.1 r3.1 r4.1 r1.2 r2.2 r3.2 r4.2]
    exact (C39_intersect_iff _ _ _ _).2 h

/-- **C114 (two polygons).** `PolyRelation` on such a grid is INTERSECT exactly when two sides, neither the last of its ring, cross properly. -/
theorem C114_polyRelation {k : ℕ} (hk : k ≤ 500) {ps qs : List (Point F)} {c d : List (K × K)} (hp : GridAll 24 k ps (c ++ c.take 1)) (hq : GridAll 24 k qs (d ++ d.take 1))
    (o1 o2 : List (List (Point F))) :
    PolyRelation (ps :: o1) (qs :: o2) = .intersect ↔
      ∃ e ∈ (sides c).dropLast, ∃ f ∈ (sides d).dropLast, ProperCross e.1 e.2 f.1 f.2 := by
  have hE := forall₂_dropLast (edges_forall₂ hp)
  have hG := forall₂_dropLast (edges_forall₂ hq)
  rw [edges_closed] at hE hG
  unfold PolyRelation LinearPolyRelation
  rw [linePolyLoop_intersect _ _ (by simp)]
  have g1 : GetExteriorRing (ps :: o1) = ps := rfl
  have g2 : GetExteriorRing (qs :: o2) = qs := rfl
  simp only [segPoly_intersect, g1, g2]
  constructor
  · rintro ⟨e, he, f, hf, h⟩
    obtain ⟨e', he', r1, r2⟩ := forall₂_mem_left hE he
    obtain ⟨f', hf', r3, r4⟩ := forall₂_mem_left hG hf
    refine ⟨e', he', f', hf', (properCross_symm _ _ _ _).1 ?_⟩
    exact (C114_segments hk r3.1 r4.1 r1.1 r2.1 r3.2 r4.2 r1.2 r2.2).1.1 h
  · rintro ⟨e', he', f', hf', h⟩
    obtain ⟨e, he, r1, r2⟩ := forall₂_mem_right hE he'
    obtain ⟨f, hf, r3, r4⟩ := forall₂_mem_right hG hf'
    refine ⟨e, he, f, hf, ?_⟩
    exact (C114_segments hk r3.1 r4.1 r1.1 r2.1 r3.2 r4.2 r1.2 r2.2).1.2 ((properCross_symm _ _ _ _).1 h)

/-! ### areas -/

theorem cyc_rel {R : Point F → K × K → Prop} {ps : List (Point F)} {c : List (K × K)} (hc : List.Forall₂ R ps (c ++ c.take 1)) :
    List.Forall₂ (fun a b => R a.1 b.1 ∧ R a.2 b.2) (cyc ps) (sides c) := by
  cases c with
  | nil =>
    cases hc
    exact .nil
  | cons x c =>
    have hd := forall₂_dropLast hc
    rw [show x :: c ++ (x :: c).take 1 = (x :: c) ++ [x] by simp, List.dropLast_concat] at hd
    have hne : ps ≠ [] := by
      rintro rfl
      cases hc
    have : cyc ps = sides ps.dropLast := by
      conv_lhs => rw [← List.dropLast_append_getLast hne]
      rw [cyc_append]; rfl
    rw [this]
    exact forall₂_sides hd

theorem grid_add {f g : F} {m n : ℤ} {k : ℕ} (hf : val f = .fin ((m : K) / 2 ^ k)) (hg : val g = .fin ((n : K) / 2 ^ k)) (h : |m + n| ≤ 2 ^ 53) (hk : k ≤ 1074) :
    val (f + g) = .fin (((m + n : ℤ) : K) / 2 ^ k) := by
  rw [val_add, hf, hg]
  have : XR.add (.fin ((m : K) / 2 ^ k)) (.fin ((n : K) / 2 ^ k)) = .fin (((m + n : ℤ) : K) / 2 ^ k) := by
    show XR.fin _ = _
    congr 1; push_cast; ring
  rw [this]
  exact rnd_int _ _ h hk

theorem areaFold_grid {B k : ℕ} (hk : k ≤ 500) {L : List (Point F × Point F)} {E : List ((K × K) × (K × K))}
    (h : List.Forall₂ (fun a b => (At a.1 b.1 ∧ OnGrid B k b.1) ∧ (At a.2 b.2 ∧ OnGrid B k b.2)) L E) :
    ∀ {s : F} {S : ℤ} {j : ℕ}, (j + E.length) * 2 ^ (2 * B + 1) ≤ 2 ^ 53 → val s = .fin ((S : K) / 2 ^ (k + k)) → |S| ≤ j * 2 ^ (2 * B + 1) →
    ∃ T : ℤ, val (L.foldl areaStep s) = .fin ((T : K) / 2 ^ (k + k)) ∧ (T : K) / 2 ^ (k + k) = (S : K) / 2 ^ (k + k) + (E.map fun e => cross e.1 e.2).sum ∧ |T| ≤ 2 ^ 53 := by
  induction h with
  | nil =>
    intro s S j hj hs hS
    refine ⟨S, hs, by simp, hS.trans ?_⟩
    simp only [List.length_nil, add_zero] at hj
    exact_mod_cast hj
  | @cons pq e L E hab t ih =>
    intro s S j hj hs hS
    obtain ⟨⟨⟨px, py⟩, m1, n1, b1, b2, h1⟩, ⟨qx, qy⟩, m2, n2, b3, b4, h2⟩ := hab
    rw [h1] at px py
    rw [h2] at qx qy
    have pr : ∀ u v : ℤ, |u| ≤ 2 ^ B → |v| ≤ 2 ^ B → |u * v| ≤ 2 ^ (2 * B) := by
      intro u v hu hv
      rw [abs_mul, two_mul, pow_add]
      exact mul_le_mul hu hv (abs_nonneg _) (by positivity)
    have q1 := pr m1 n2 b1 b4
    have q2 := pr n1 m2 b2 b3
    have hj' : (((j : ℤ) + 1 + E.length) * 2 ^ (2 * B + 1) : ℤ) ≤ 2 ^ 53 := by
      have : (j + (e :: E).length) * 2 ^ (2 * B + 1) = (j + 1 + E.length) * 2 ^ (2 * B + 1) := by
        rw [List.length_cons]; ring
      rw [this] at hj
      exact_mod_cast hj
    have hE : (0 : ℤ) ≤ E.length * 2 ^ (2 * B + 1) := by positivity
    have hj2 : (j : ℤ) * 2 ^ (2 * B + 1) + 2 * 2 ^ (2 * B) ≤ 2 ^ 53 := by
      have e1 : (((j : ℤ) + 1 + E.length) * 2 ^ (2 * B + 1) : ℤ) = (j : ℤ) * 2 ^ (2 * B + 1) + 2 * 2 ^ (2 * B) + E.length * 2 ^ (2 * B + 1) := by ring
      linarith
    have hP : (0 : ℤ) ≤ 2 ^ (2 * B) := by positivity
    have hJ : (0 : ℤ) ≤ j * 2 ^ (2 * B + 1) := by positivity
    have s1 := grid_mul px qy (q1.trans (by linarith)) (by omega)
    have s2 := grid_mul py qx (q2.trans (by linarith)) (by omega)
    have a1 : |S + m1 * n2| ≤ 2 ^ 53 := (abs_add_le _ _).trans (by linarith)
    have a2 : |S + m1 * n2 - n1 * m2| ≤ j * 2 ^ (2 * B + 1) + 2 * 2 ^ (2 * B) := (abs_sub _ _).trans (by linarith [abs_add_le S (m1 * n2)])
    have s3 := grid_add hs s1 a1 (by omega)
    have s4 := grid_sub s3 s2 (a2.trans hj2) (by omega)
    obtain ⟨T, t1, t2, t3⟩ := ih (s := areaStep s pq) (S := S + m1 * n2 - n1 * m2) (j := j + 1) (by exact_mod_cast hj') s4
      (a2.trans (le_of_eq (by push_cast; ring)))
    refine ⟨T, t1, ?_, t3⟩
    rw [t2, List.map_cons, List.sum_cons, ← add_assoc]
    congr 1
    rw [h1, h2, cross]
    push_cast
    rw [pow_add]
    field_simp
    ring

theorem relativeArea_grid {B k : ℕ} (hk : k ≤ 500) {ps : List (Point F)} {c : List (K × K)} (hc : GridAll B k ps (c ++ c.take 1))
    (hn : c.length * 2 ^ (2 * B + 1) ≤ 2 ^ 53) (o : K × K) (holes : List (List (Point F))) :
    val (relativeArea (ps :: holes)) = .fin (fanArea o c) := by
  have hl : (sides c).length = c.length := by simp [sides]
  obtain ⟨T, t1, t2, t3⟩ := areaFold_grid hk (cyc_rel hc) (s := lit 0) (S := 0) (j := 0) (by rw [hl]; simpa using hn) (by simpa using val_lit0) (by simp)
  have hS : ((sides c).map fun e => cross e.1 e.2).sum = 2 * fanArea o c := by
    have e1 : ((sides c).map fun e => cross e.1 e.2).sum = cycSum cross c := by
      unfold sides cycSum
      rw [List.zip_eq_zipWith, List.map_zipWith]
    rw [e1, ← cross_fan o]
    unfold fanArea
    rw [cycSum_congr (f := fun p q => turn o p q / 2) (g := fun p q => (1 / 2) * turn o p q) (by intros; ring), cycSum_mul]
    ring
  rw [hS, Int.cast_zero, zero_div, zero_add] at t2
  have v2 : val (lit 2 : F) = .fin (2 : K) := by simpa using fval_nat (F := F) (K := K) 2 (by norm_num)
  show val (_ / lit 2 : F) = _
  rw [val_div _ _ (by rw [v2]; simp), t1, v2]
  have e : (T : K) / 2 ^ (k + k) / 2 = (T : K) / 2 ^ (k + k + 1) := by rw [pow_succ, div_div]
  have : XR.div (.fin ((T : K) / 2 ^ (k + k))) (.fin 2) = .fin ((T : K) / 2 ^ (k + k + 1)) := by
    rw [← e]; simp [XR.div]
  rw [this, rnd_int T (k + k + 1) t3 (by omega), ← e, t2]
  congr 1; ring

/-- **C114 (area).** For a closed ring of `n` corners whose coordinates are multiples of `1 / 2^k` with numerators up to `2^B`, and `n · 2^(2B+1) ≤ 2^53`, the computed area is the exact area. -/
theorem C114_area {B k : ℕ} (hk : k ≤ 500) {ps : List (Point F)} {c : List (K × K)} (hc : GridAll B k ps (c ++ c.take 1))
    (hn : c.length * 2 ^ (2 * B + 1) ≤ 2 ^ 53) (o : K × K) (holes : List (List (Point F))) :
    val (GetArea (.polygon (ps :: holes))) = .fin |fanArea o c| := by
  show val (GoFloat.abs (relativeArea (ps :: holes))) = _
  rw [val_abs, relativeArea_grid hk hc hn o]
  exact XR.fin_abs _

/-- **C114 (orientation).** Then the computed `IsCCW` is exact too, degenerate rings included. -/
theorem C114_ccw {B k : ℕ} (hk : k ≤ 500) {ps : List (Point F)} {c : List (K × K)} (hc : GridAll B k ps (c ++ c.take 1))
    (hn : c.length * 2 ^ (2 * B + 1) ≤ 2 ^ 53) (o : K × K) (holes : List (List (Point F))) :
    IsCCW (ps :: holes) = true ↔ 0 < fanArea o c := by
  have vl : ∀ a b : F, lt a b = XR.lt (val a) (val b) := val_lt
  unfold IsCCW GoFloat.gt
  rw [vl, relativeArea_grid hk hc hn o, val_lit0]
  simp [XR.lt]

end

/-! ### points in rings -/

section
variable {F K : Type} [GoFloat F] [Field K] [LinearOrder K] [IsStrictOrderedRing K] [FloatVal F K]

/-- a point of a grid that is on no side is 2e-6 away from the boundary horizontally -/
theorem grid_clear2X {B k : ℕ} (hB : B + k ≤ 17) {c : List (K × K)} {x : K × K} (hc : ∀ v ∈ c, OnGrid B k v) (hx : OnGrid B k x)
    (hoff : ∀ e ∈ sides c, ¬ OnSeg e.1 e.2 x) : Clear2X c x := by
  rintro ⟨y, z⟩ he q hq h2
  have hy : OnGrid B k y := hc _ (sides_mem_left he)
  have hz : OnGrid B k z := hc _ (sides_mem_right he)
  have hne : q ≠ x := by rintro rfl; exact hoff _ he hq
  have hne1 : q.1 ≠ x.1 := fun h => hne (Prod.ext h h2)
  have hno : ¬ OnSeg y z x := hoff _ he
  obtain ⟨t, t0, t1, rfl⟩ := hq
  have two : (2 : K) ^ k ≠ 0 := by positivity
  have e0 : (2 * eps : K) ≤ 1 / 2 ^ (B + 1 + k) := by
    have : (2 : K) ^ (B + 1 + k) ≤ 2 ^ 18 := pow_le_pow_right₀ (by norm_num) (by omega)
    refine le_trans ?_ (one_div_le_one_div_of_le (by positivity) this)
    unfold eps; norm_num
  refine e0.trans ?_
  obtain ⟨m1, n1, b1, b2, rfl⟩ := hy
  obtain ⟨m2, n2, b3, b4, rfl⟩ := hz
  obtain ⟨m3, n3, b5, b6, rfl⟩ := hx
  simp only [along] at h2 hne1 ⊢
  have h2' : t * ((n2 : K) - n1) = n3 - n1 := by
    field_simp at h2
    linarith
  have pk : (0 : K) < 2 ^ k := by positivity
  by_cases hn : n1 = n2
  · subst hn
    have e3 : n3 = n1 := by
      have : (n3 : K) = n1 := by rw [sub_self, mul_zero] at h2'; linarith
      exact_mod_cast this
    subst e3
    have small : (1 : K) / 2 ^ (B + 1 + k) ≤ 1 / 2 ^ k := one_div_le_one_div_of_le pk (pow_le_pow_right₀ (by norm_num) (by omega))
    refine small.trans ?_
    have eU : (m1 : K) / 2 ^ k + t * ((m2 : K) / 2 ^ k - (m1 : K) / 2 ^ k) - (m3 : K) / 2 ^ k = ((1 - t) * (m1 - m3) + t * (m2 - m3)) / 2 ^ k := by
      field_simp; ring
    rw [eU, abs_div, abs_of_pos pk]
    apply div_le_div_of_nonneg_right _ pk.le
    have side : (m3 + 1 ≤ m1 ∧ m3 + 1 ≤ m2) ∨ (m1 + 1 ≤ m3 ∧ m2 + 1 ≤ m3) := by
      by_contra hcon
      apply hno
      by_cases he : m1 = m2
      · have : m3 = m1 := by omega
        exact ⟨0, le_refl _, zero_le_one, by simp [along, this]⟩
      · have hd : ((m2 : K) - m1) ≠ 0 := by
          intro h; apply he; have : (m2 : K) = m1 := by linarith
          exact_mod_cast this.symm
        refine ⟨((m3 : K) - m1) / (m2 - m1), ?_, ?_, ?_⟩
        · rcases lt_or_gt_of_ne he with h | h
          · have c1 : (m1 : K) ≤ m3 := by exact_mod_cast (by omega : m1 ≤ m3)
            have c2 : (m1 : K) ≤ m2 := by exact_mod_cast h.le
            exact div_nonneg (by linarith) (by linarith)
          · have c1 : (m3 : K) ≤ m1 := by exact_mod_cast (by omega : m3 ≤ m1)
            have c2 : (m2 : K) ≤ m1 := by exact_mod_cast h.le
            exact div_nonneg_of_nonpos (by linarith) (by linarith)
        · rcases lt_or_gt_of_ne he with h | h
          · have c1 : (m3 : K) ≤ m2 := by exact_mod_cast (by omega : m3 ≤ m2)
            have c2 : (m1 : K) < m2 := by exact_mod_cast h
            rw [div_le_one (by linarith)]; linarith
          · have c1 : (m2 : K) ≤ m3 := by exact_mod_cast (by omega : m2 ≤ m3)
            have c2 : (m2 : K) < m1 := by exact_mod_cast h
            rw [div_le_one_of_neg (by linarith)]; linarith
        · simp only [along, sub_self, mul_zero, add_zero, Prod.mk.injEq, and_true]
          field_simp
          ring
    rcases side with ⟨s1, s2⟩ | ⟨s1, s2⟩
    · have c1 : (1 : K) ≤ m1 - m3 := by have : (m3 : K) + 1 ≤ m1 := by exact_mod_cast s1
                                        linarith
      have c2 : (1 : K) ≤ m2 - m3 := by have : (m3 : K) + 1 ≤ m2 := by exact_mod_cast s2
                                        linarith
      refine le_trans ?_ (le_abs_self _)
      have := mul_le_mul_of_nonneg_left c1 (sub_nonneg.2 t1)
      have := mul_le_mul_of_nonneg_left c2 t0
      linarith
    · have c1 : (1 : K) ≤ m3 - m1 := by have : (m1 : K) + 1 ≤ m3 := by exact_mod_cast s1
                                        linarith
      have c2 : (1 : K) ≤ m3 - m2 := by have : (m2 : K) + 1 ≤ m3 := by exact_mod_cast s2
                                        linarith
      refine le_trans ?_ (neg_le_abs _)
      have := mul_le_mul_of_nonneg_left c1 (sub_nonneg.2 t1)
      have := mul_le_mul_of_nonneg_left c2 t0
      linarith
  · have hd : ((n2 : K) - n1) ≠ 0 := by
      intro h; apply hn; have : (n2 : K) = n1 := by linarith
      exact_mod_cast this.symm
    have ht : t = ((n3 : K) - n1) / (n2 - n1) := by rw [eq_div_iff hd, h2']
    have eU : (m1 : K) / 2 ^ k + t * ((m2 : K) / 2 ^ k - (m1 : K) / 2 ^ k) - (m3 : K) / 2 ^ k =
        (((m1 - m3) * (n2 - n1) + (n3 - n1) * (m2 - m1) : ℤ) : K) / (((n2 - n1 : ℤ) : K) * 2 ^ k) := by
      rw [ht]; push_cast; field_simp; ring
    have hM : (m1 - m3) * (n2 - n1) + (n3 - n1) * (m2 - m1) ≠ 0 := by
      intro h
      rw [h, Int.cast_zero, zero_div] at eU
      exact hne1 (by linarith)
    rw [eU, abs_div, abs_mul, abs_of_pos pk, pow_add]
    have g1 : (1 : K) ≤ |(((m1 - m3) * (n2 - n1) + (n3 - n1) * (m2 - m1) : ℤ) : K)| := by
      have := Int.one_le_abs hM
      exact_mod_cast this
    have g2 : |((n2 - n1 : ℤ) : K)| ≤ 2 ^ (B + 1) := by
      have : |n2 - n1| ≤ 2 ^ (B + 1) := (abs_sub _ _).trans (by rw [pow_succ]; linarith)
      exact_mod_cast this
    have g3 : 0 < |((n2 - n1 : ℤ) : K)| := abs_pos.2 (by push_cast; exact hd)
    calc (1 : K) / (2 ^ (B + 1) * 2 ^ k) ≤ 1 / (|((n2 - n1 : ℤ) : K)| * 2 ^ k) := one_div_le_one_div_of_le (by positivity) (by gcongr)
      _ ≤ _ := by gcongr

theorem grid_clearY {B k : ℕ} (hB : B + k ≤ 17) {c : List (K × K)} {x : K × K} (hc : ∀ v ∈ c, OnGrid B k v) (hx : OnGrid B k x) : ClearY c x := by
  intro v hv
  obtain ⟨m1, n1, -, -, rfl⟩ := hc v hv
  obtain ⟨m3, n3, -, -, rfl⟩ := hx
  rcases le_or_gt n1 n3 with h | h
  · left
    have : (n1 : K) ≤ n3 := by exact_mod_cast h
    show (n1 : K) / 2 ^ k ≤ n3 / 2 ^ k
    gcongr
  · right
    have h1 : (n3 : K) + 1 ≤ n1 := by exact_mod_cast h
    have e0 : (eps : K) ≤ 1 / 2 ^ k := by
      have : (2 : K) ^ k ≤ 2 ^ 17 := pow_le_pow_right₀ (by norm_num) (by omega)
      refine le_trans ?_ (one_div_le_one_div_of_le (by positivity) this)
      unfold eps; norm_num
    show (n3 : K) / 2 ^ k + eps ≤ n1 / 2 ^ k
    calc (n3 : K) / 2 ^ k + eps ≤ n3 / 2 ^ k + 1 / 2 ^ k := by gcongr
      _ = (n3 + 1) / 2 ^ k := by ring
      _ ≤ n1 / 2 ^ k := by gcongr

variable [FloatErr F K]

/-- **C114 (points in rings).** For coordinates that are multiples of `1 / 2^k` with numerators up to `2^B`, `B + k ≤ 17`, a point other than the origin that is on no side gets in float64 the
answer of exact arithmetic; for a strictly convex counter-clockwise ring that is CONTAIN inside and DISJOINT outside. -/
theorem C114_inPolygon {B k : ℕ} (hB : B + k ≤ 17) {p : Point F} {ps : List (Point F)} {x : K × K} {c : List (K × K)} (hp : At p x) (gx : OnGrid B k x)
    (hc : GridAll B k ps (c ++ c.take 1)) (hoff : ∀ e ∈ sides c, ¬ OnSeg e.1 e.2 x) (h0 : x ≠ (0, 0)) (holes : List (List (Point F))) (holes' : List (List (Point (XR K)))) :
    IsPointInPolygon p (ps :: holes) = IsPointInPolygon (pt x) (ring c :: holes') ∧
    (StrictlyConvex c → (InsideConvex c x → IsPointInPolygon p (ps :: holes) = .contain) ∧ (OutsideConvex c x → IsPointInPolygon p (ps :: holes) = .disjoint)) := by
  have w : ∀ {v : K × K}, OnGrid B k v → Within (2 ^ 26) v := by
    rintro v ⟨m, n, b1, b2, rfl⟩
    have q : ∀ j : ℤ, |j| ≤ 2 ^ B → |(j : K) / 2 ^ k| ≤ 2 ^ 26 := by
      intro j hj
      rw [abs_div, abs_of_pos (by positivity : (0 : K) < 2 ^ k)]
      have h1 : |(j : K)| ≤ 2 ^ B := by exact_mod_cast hj
      have h2 : (2 : K) ^ B ≤ 2 ^ 26 := pow_le_pow_right₀ (by norm_num) (by omega)
      exact (div_le_self (abs_nonneg _) (one_le_pow₀ (by norm_num))).trans (h1.trans h2)
    exact ⟨q m b1, q n b2⟩
  have hg : ∀ v ∈ c, OnGrid B k v := by
    intro v hv
    obtain ⟨p, -, -, h⟩ := forall₂_mem_right hc (List.mem_append_left _ hv)
    exact h
  have hc' : AtAll (2 ^ 26) ps (c ++ c.take 1) := List.Forall₂.imp (fun _ _ h => ⟨h.1, w h.2⟩) hc
  have cx := grid_clear2X hB hg gx hoff
  have cy := grid_clearY hB hg gx
  exact ⟨C101_inPolygon_exact hp (w gx) hc' cx cy h0 holes holes', fun hconv => C101_inPolygon_convex hp (w gx) hc' hconv cx cy h0 holes⟩

open Classical in
/-- **C114 (even–odd rule on a grid).** If also no corner has exactly the point's height, CONTAIN says that the number of sides with a point straight to the right is odd, DISJOINT that it is even. -/
theorem C114_inPolygon_parity {B k : ℕ} (hB : B + k ≤ 17) {p : Point F} {ps : List (Point F)} {x : K × K} {c : List (K × K)} (hp : At p x) (gx : OnGrid B k x)
    (hc : GridAll B k ps (c ++ c.take 1)) (hoff : ∀ e ∈ sides c, ¬ OnSeg e.1 e.2 x) (h0 : x ≠ (0, 0)) (hne : ∀ v ∈ c, v.2 ≠ x.2) (holes : List (List (Point F))) :
    ((sides c).countP (fun e => decide (HitsRight x e)) % 2 = 1 → IsPointInPolygon p (ps :: holes) = .contain) ∧
    ((sides c).countP (fun e => decide (HitsRight x e)) % 2 = 0 → IsPointInPolygon p (ps :: holes) = .disjoint) := by
  have w : ∀ {v : K × K}, OnGrid B k v → Within (2 ^ 26) v := by
    rintro v ⟨m, n, b1, b2, rfl⟩
    have q : ∀ j : ℤ, |j| ≤ 2 ^ B → |(j : K) / 2 ^ k| ≤ 2 ^ 26 := by
      intro j hj
      rw [abs_div, abs_of_pos (by positivity : (0 : K) < 2 ^ k)]
      have h1 : |(j : K)| ≤ 2 ^ B := by exact_mod_cast hj
      have h2 : (2 : K) ^ B ≤ 2 ^ 26 := pow_le_pow_right₀ (by norm_num) (by omega)
      exact (div_le_self (abs_nonneg _) (one_le_pow₀ (by norm_num))).trans (h1.trans h2)
    exact ⟨q m b1, q n b2⟩
  have hg : ∀ v ∈ c, OnGrid B k v := by
    intro v hv
    obtain ⟨p, -, -, h⟩ := forall₂_mem_right hc (List.mem_append_left _ hv)
    exact h
  have hc' : AtAll (2 ^ 26) ps (c ++ c.take 1) := List.Forall₂.imp (fun _ _ h => ⟨h.1, w h.2⟩) hc
  exact C101_inPolygon_parity hp (w gx) hc' (grid_clear2X hB hg gx hoff) (grid_clearY hB hg gx) hne h0 holes

end

/-- **C114 needs its bound.** The segments (0,0)–(2^28+2, 2^28) and (-1,-1)–(2^28+3, 2^28+1) cross properly, in the middle of both, and the answer in float64 is DISJOINT:
with 29-bit coordinates the cross product of the directions, 4, is rounded to 0. -/
theorem C114_false :
    ProperCross ((0 : ℚ), (0 : ℚ)) (2 ^ 28 + 2, 2 ^ 28) (-1, -1) (2 ^ 28 + 3, 2 ^ 28 + 1) ∧
    SegmentRelation (F := Float) ⟨⟨0, 0⟩, ⟨268435458, 268435456⟩⟩ ⟨⟨-1, -1⟩, ⟨268435459, 268435457⟩⟩ = .disjoint := by
  refine ⟨?_, by decide +kernel⟩
  rw [← C39_intersect_iff]
  decide +kernel

theorem fpt_grid (l : List (Nat × Nat)) (B : ℕ) (hB : B ≤ 53) (h : ∀ p ∈ l, p.1 ≤ 2 ^ B ∧ p.2 ≤ 2 ^ B) :
    GridAll B 0 (l.map fun p => fpt p.1 p.2) (l.map fun p => ((p.1 : ℚ), (p.2 : ℚ))) := by
  have h53 : 2 ^ B ≤ 2 ^ 53 := Nat.pow_le_pow_right (by norm_num) hB
  induction l with
  | nil => exact .nil
  | cons p l ih =>
    obtain ⟨h1, h2⟩ := h p (by simp)
    refine .cons ⟨fpt_at _ _ (h1.trans h53) (h2.trans h53), p.1, p.2, ?_, ?_, by simp⟩ (ih fun q hq => h q (by simp [hq]))
    · rw [abs_of_nonneg (by positivity)]; exact_mod_cast h1
    · rw [abs_of_nonneg (by positivity)]; exact_mod_cast h2

/-- C114 on a touching pair of polylines, on a ring with a crossing, and on the area of a triangle -/
example : LineRelation [fpt 0 0, fpt 4 0, fpt 4 4] [fpt 4 4, fpt 7 9] = .intersect := by
  have h1 := fpt_grid [(0, 0), (4, 0), (4, 4)] 24 (by norm_num) (by decide)
  have h2 := fpt_grid [(4, 4), (7, 9)] 24 (by norm_num) (by decide)
  refine (C114_lines (by norm_num) h1 h2).1.2 ⟨((4, 0), (4, 4)), by simp [segments], ((4, 4), (7, 9)), by simp [segments], .inr (.inr ⟨?_, ?_⟩)⟩
  · unfold Parallel; norm_num
  · norm_num

example : val (GetArea (.polygon [[fpt 0 0, fpt 3 0, fpt 0 1, fpt 0 0]])) = .fin (3 / 2 : ℚ) := by
  have h1 := fpt_grid [(0, 0), (3, 0), (0, 1), (0, 0)] 20 (by norm_num) (by decide)
  have := C114_area (c := [((0 : ℚ), (0 : ℚ)), (3, 0), (0, 1)]) (B := 20) (k := 0) (by norm_num) (by simpa using h1) (by norm_num) 0 []
  have e : fanArea (0 : ℚ × ℚ) [(0, 0), (3, 0), (0, 1)] = 3 / 2 := by simp [fanArea, cycSum, turn]
  rw [e] at this
  rw [this]
  norm_num

example : IsPointInPolygon (fpt 2 1) [[fpt 0 0, fpt 4 0, fpt 0 4, fpt 0 0]] = .contain := by
  have h1 := fpt_grid [(0, 0), (4, 0), (0, 4), (0, 0)] 17 (by norm_num) (by decide)
  have hin : InsideConvex ([(0, 0), (4, 0), (0, 4)] : List (ℚ × ℚ)) (2, 1) := by unfold InsideConvex; decide +kernel
  have hp : At (fpt 2 1) ((2 : ℚ), (1 : ℚ)) := by simpa using fpt_at 2 1 (by norm_num) (by norm_num)
  refine ((C114_inPolygon (B := 17) (k := 0) (c := [((0 : ℚ), (0 : ℚ)), (4, 0), (0, 4)]) (by norm_num) hp ⟨2, 1, by norm_num, by norm_num, by norm_num⟩ (by simpa using h1) ?_ (by norm_num) [] []).2 ?_).1 hin
  · rintro e he ⟨t, -, -, ht⟩
    have := hin e he
    rw [ht] at this
    simp only [turn, along] at this
    ring_nf at this
    exact absurd this (lt_irrefl _)
  · unfold StrictlyConvex; decide +kernel

end GoGeo
