import Verif.Props.Stable
import Verif.Props.SimpleFloat
import Verif.Props.HullPerimeter
import Verif.Props.Buffer

/-!
# Area and orientation under small movements of the corners: C157
-/

namespace GoGeo.Region
open GoFloat FloatVal Spec

theorem tel_any {α : Type} (c : List α) (g : α → ℝ) : ((sides c).map fun e => g e.2 - g e.1).sum = 0 := by
  have h1 : ((sides c).map fun e => g e.2 - g e.1).sum = ((sides c).map fun e => g e.2).sum - ((sides c).map fun e => g e.1).sum := by
    generalize sides c = m
    induction m with
    | nil => simp
    | cons e m ih => simp only [List.map_cons, List.sum_cons, ih]; ring
  have hl : c.length = (c.rotate 1).length := by simp
  have e1 : (sides c).map (fun e => g e.1) = c.map g := by
    show (c.zip (c.rotate 1)).map (g ∘ Prod.fst) = _
    rw [← List.map_map (g := g) (f := Prod.fst), List.map_fst_zip hl.le]
  have e2 : (sides c).map (fun e => g e.2) = (c.rotate 1).map g := by
    show (c.zip (c.rotate 1)).map (g ∘ Prod.snd) = _
    rw [← List.map_map (g := g) (f := Prod.snd), List.map_snd_zip hl.ge]
  rw [h1, e1, e2, ((c.rotate_perm 1).map g).sum_eq, sub_self]

theorem sides_of_map {α β : Type} (f : α → β) (c : List α) : sides (c.map f) = (sides c).map (Prod.map f f) := by
  unfold sides
  rw [← List.map_rotate, List.zip_map]

theorem cross_le_eucl (p q p' q' : ℝ × ℝ) : |(q.1 - p.1) * (q'.2 - p'.2) - (q.2 - p.2) * (q'.1 - p'.1)| ≤ eucl p q * eucl p' q' := by
  unfold eucl
  rw [← Real.sqrt_mul (by positivity)]
  apply Real.abs_le_sqrt
  nlinarith [sq_nonneg ((q.1 - p.1) * (q'.1 - p'.1) + (q.2 - p.2) * (q'.2 - p'.2))]

/-- the length of the ring with corners `c` -/
noncomputable def around (c : List (ℝ × ℝ)) : ℝ := ((sides c).map fun e => eucl e.1 e.2).sum

theorem area_moved {ε : ℝ} {c c' : List (ℝ × ℝ)} (h : List.Forall₂ (fun x y => eucl x y ≤ ε) c c') (o : ℝ × ℝ) :
    |fanArea o c - fanArea o c'| ≤ ε * (around c + around c') / 2 := by
  obtain ⟨z, rfl, rfl, hz⟩ : ∃ z : List ((ℝ × ℝ) × (ℝ × ℝ)), c = z.map Prod.fst ∧ c' = z.map Prod.snd ∧ ∀ x ∈ z, eucl x.1 x.2 ≤ ε := by
    refine ⟨c.zip c', ?_, ?_, ?_⟩
    · rw [List.map_fst_zip h.length_eq.le]
    · rw [List.map_snd_zip h.length_eq.ge]
    · intro x hx
      exact List.forall₂_zip h hx
  unfold fanArea around
  rw [cycSum_sides, cycSum_sides, sides_of_map, sides_of_map, List.map_map, List.map_map, List.map_map, List.map_map]
  have tel := tel_any z fun x => turn o x.1 x.2
  have key : ∀ m : List (((ℝ × ℝ) × (ℝ × ℝ)) × ((ℝ × ℝ) × (ℝ × ℝ))), (∀ e ∈ m, eucl e.1.1 e.1.2 ≤ ε ∧ eucl e.2.1 e.2.2 ≤ ε) →
      |(m.map ((fun e => turn o e.1 e.2 / 2) ∘ Prod.map Prod.fst Prod.fst)).sum - (m.map ((fun e => turn o e.1 e.2 / 2) ∘ Prod.map Prod.snd Prod.snd)).sum
        + (m.map fun e => turn o e.2.1 e.2.2 - turn o e.1.1 e.1.2).sum / 2| ≤
      ε * ((m.map ((fun e => eucl e.1 e.2) ∘ Prod.map Prod.fst Prod.fst)).sum + (m.map ((fun e => eucl e.1 e.2) ∘ Prod.map Prod.snd Prod.snd)).sum) / 2 := by
    intro m hm
    induction m with
    | nil => simp
    | cons e m ih =>
      obtain ⟨⟨p, p'⟩, q, q'⟩ := e
      have ih' := ih fun e he => hm e (by simp [he])
      obtain ⟨h1, h2⟩ := hm _ List.mem_cons_self
      simp only [List.map_cons, List.sum_cons, Function.comp, Prod.map] at h1 h2 ⊢
      have k1 := cross_le_eucl p q p p'
      have k2 := cross_le_eucl p' q' q q'
      have hq : eucl p q * eucl p p' ≤ ε * eucl p q := by rw [mul_comm ε]; exact mul_le_mul_of_nonneg_left h1 (Real.sqrt_nonneg _)
      have hq' : eucl p' q' * eucl q q' ≤ ε * eucl p' q' := by rw [mul_comm ε]; exact mul_le_mul_of_nonneg_left h2 (Real.sqrt_nonneg _)
      have id1 : turn o p q / 2 - turn o p' q' / 2 + (turn o q q' - turn o p p') / 2 =
          (((q.1 - p.1) * (p'.2 - p.2) - (q.2 - p.2) * (p'.1 - p.1)) + ((q'.1 - p'.1) * (q'.2 - q.2) - (q'.2 - p'.2) * (q'.1 - q.1))) / 2 := by
        unfold turn; ring
      have b1 := abs_le.1 (k1.trans hq)
      have b2 := abs_le.1 (k2.trans hq')
      have b3 := abs_le.1 ih'
      simp only [Function.comp_def, Prod.map] at b3 ⊢
      rw [abs_le]
      constructor <;> linarith [id1, b1.1, b1.2, b2.1, b2.2, b3.1, b3.2]
  have := key (sides z) fun e he => ⟨hz _ (sides_mem_left he), hz _ (sides_mem_right he)⟩
  rw [tel] at this
  simpa using this

theorem same_sign {A A' D : ℝ} (h : |A - A'| ≤ D) (hD : D < |A|) : (0 < A ↔ 0 < A') := by
  have := abs_le.1 h
  rcases abs_cases A with ⟨e, _⟩ | ⟨e, _⟩ <;> rw [e] at hD <;> constructor <;> intro <;> linarith

/-- **C157 (exact arithmetic).** If every corner of a ring moves by at most `ε`, the area changes by at most `ε` times the mean of the
two lengths of the ring, and if the area is larger than that the orientation stays. -/
theorem C157_exact {ε : ℝ} {c c' : List (ℝ × ℝ)} (hne : c ≠ []) (h : List.Forall₂ (fun x y => eucl x y ≤ ε) c c') (holes holes' : List (List (Point (XR ℝ)))) :
    ∃ A A' L L', GetArea (.polygon (ring c :: holes)) = .fin A ∧ GetArea (.polygon (ring c' :: holes')) = .fin A' ∧
      LineLength (ring c) = .fin L ∧ LineLength (ring c') = .fin L' ∧ |A - A'| ≤ ε * ((L + L') / 2) ∧
      (ε * ((L + L') / 2) < A → IsCCW (ring c :: holes) = IsCCW (ring c' :: holes')) := by
  have hne' : c' ≠ [] := by rintro rfl; exact hne (List.length_eq_zero_iff.1 h.length_eq)
  have key := area_moved h (0, 0)
  have e : ε * (around c + around c') / 2 = ε * ((around c + around c') / 2) := by ring
  rw [e] at key
  refine ⟨_, _, _, _, (C32_area_fan (0, 0) c holes).1, (C32_area_fan (0, 0) c' holes').1, ring_length c hne, ring_length c' hne', ?_, ?_⟩
  · exact (abs_abs_sub_abs_le _ _).trans key
  · intro hb
    rw [Bool.eq_iff_iff, (C32_area_fan (0, 0) c holes).2, (C32_area_fan (0, 0) c' holes').2]
    exact same_sign key hb

theorem around_real {c : List (ℚ × ℚ)} (hne : c ≠ []) : around (c.map real) = ((segments (c ++ c.take 1)).map fun e => eucl (real e.1) (real e.2)).sum := by
  obtain ⟨a, l, rfl⟩ := List.exists_cons_of_ne_nil hne
  unfold around
  rw [sides_of_map, List.map_map]
  congr 2
  unfold sides segments
  simp only [List.rotate_cons_succ, List.rotate_zero, List.take_succ_cons, List.take_zero, List.cons_append, List.tail_cons]
  have := List.zip_append (l₁ := a :: l) (r₁ := [a]) (l₂ := l ++ [a]) (r₂ := []) (by simp)
  simpa using this.symm

/-- **C157 (float64).** The same for rings in float64, with the lengths and areas as computed, up to rounding. -/
theorem C157_float {M : ℚ} {ε : ℝ} {ps ps' : List (Point Float)} {c c' : List (ℚ × ℚ)} (hc : AtAll M ps (c ++ c.take 1)) (hc' : AtAll M ps' (c' ++ c'.take 1))
    (h1 : 1 ≤ M) (h2 : M ≤ 2 ^ 100) (hne : c ≠ []) (hn : c.length < 2 ^ 20) (hm : Moved ε c c') (holes holes' : List (List (Point Float))) :
    ∃ a a' d d' : ℚ, val (GetArea (.polygon (ps :: holes))) = .fin a ∧ val (GetArea (.polygon (ps' :: holes'))) = .fin a' ∧
      val (LineLength ps) = .fin d ∧ val (LineLength ps') = .fin d' ∧
      |(a : ℝ) - a'| ≤ ε * ((d + d') / 2 + c.length * (4 * c.length + 50) * M / 2 ^ 53) + 2 * (c.length * (c.length + 5) * (M * M) / 2 ^ 53) ∧
      (ε * ((d + d') / 2 + c.length * (4 * c.length + 50) * M / 2 ^ 53) + 2 * (c.length * (c.length + 5) * (M * M) / 2 ^ 53) < a →
        IsCCW (ps :: holes) = IsCCW (ps' :: holes')) := by
  have hlen := hm.length_eq
  have hne' : c' ≠ [] := by rintro rfl; exact hne (List.length_eq_zero_iff.1 hlen)
  obtain ⟨a, ha, ea⟩ := C102_area (K := ℚ) hc h1 h2 hn.le (0, 0) holes
  obtain ⟨a', ha', ea'⟩ := C102_area (K := ℚ) hc' h1 h2 (hlen ▸ hn.le) (0, 0) holes'
  have seg : ∀ {c : List (ℚ × ℚ)}, c ≠ [] → (c ++ c.take 1).length = c.length + 1 ∧ (segments (c ++ c.take 1)).length = c.length := by
    intro c hc
    obtain ⟨x, l, rfl⟩ := List.exists_cons_of_ne_nil hc
    simp [segments]
  obtain ⟨s1, s2⟩ := seg hne
  obtain ⟨s1', s2'⟩ := seg hne'
  obtain ⟨d, hd, ed⟩ := C103_length hc h1 h2 (by omega)
  obtain ⟨d', hd', ed'⟩ := C103_length hc' h1 h2 (by omega)
  rw [← around_real hne, s2] at ed
  rw [← around_real hne', s2', ← hlen] at ed'
  rw [← hlen] at ea'
  have mv : List.Forall₂ (fun x y => eucl x y ≤ ε) (c.map real) (c'.map real) := by
    rw [List.forall₂_map_left_iff, List.forall₂_map_right_iff]
    exact hm
  have hε : 0 ≤ ε := by
    obtain ⟨x, l, rfl⟩ := List.exists_cons_of_ne_nil hne
    cases hm with
    | cons h _ => exact (Real.sqrt_nonneg _).trans h
  have key := area_moved mv (real (0, 0))
  rw [fanArea_real, fanArea_real] at key
  have ea1 : |((a : ℝ) - |((fanArea (0, 0) c : ℚ) : ℝ)|)| ≤ c.length * (c.length + 5) * (M * M) / 2 ^ 53 := by exact_mod_cast ea
  have ea1' : |((a' : ℝ) - |((fanArea (0, 0) c' : ℚ) : ℝ)|)| ≤ c.length * (c.length + 5) * (M * M) / 2 ^ 53 := by exact_mod_cast ea'
  generalize hE : (c.length * (c.length + 5) * (M * M) / 2 ^ 53 : ℝ) = E at *
  generalize hG : (c.length * (4 * c.length + 50) * M / 2 ^ 53 : ℝ) = G at *
  have hL : ε * (around (c.map real) + around (c'.map real)) / 2 ≤ ε * ((d + d') / 2 + G) := by
    rw [mul_div_assoc]
    apply mul_le_mul_of_nonneg_left _ hε
    linarith [(abs_le.1 ed).1, (abs_le.1 ed').1]
  have key' := key.trans hL
  refine ⟨a, a', d, d', ha, ha', hd, hd', ?_, ?_⟩
  · have := (abs_abs_sub_abs_le ((fanArea (0, 0) c : ℚ) : ℝ) ((fanArea (0, 0) c' : ℚ) : ℝ)).trans key'
    rw [abs_le] at *
    constructor <;> linarith [ea1.1, ea1.2, ea1'.1, ea1'.2]
  · intro hb
    have hA : E + ε * ((d + d') / 2 + G) < |((fanArea (0, 0) c : ℚ) : ℝ)| := by linarith [(abs_le.1 ea1).2]
    have hE0 : 0 ≤ E := (abs_nonneg _).trans ea1
    have hD0 : 0 ≤ ε * ((d + d') / 2 + G) := (abs_nonneg _).trans key'
    have hA' : E < |((fanArea (0, 0) c' : ℚ) : ℝ)| := by
      have := (abs_abs_sub_abs_le ((fanArea (0, 0) c : ℚ) : ℝ) ((fanArea (0, 0) c' : ℚ) : ℝ)).trans key'
      linarith [(abs_le.1 this).2]
    have g1 : c.length * (c.length + 5) * (M * M) / 2 ^ 53 < |fanArea (0, 0) c| := by
      have : (c.length * (c.length + 5) * (M * M) / 2 ^ 53 : ℝ) < |((fanArea (0, 0) c : ℚ) : ℝ)| := by rw [hE]; linarith
      exact_mod_cast this
    have g2 : c'.length * (c'.length + 5) * (M * M) / 2 ^ 53 < |fanArea (0, 0) c'| := by
      have : (c.length * (c.length + 5) * (M * M) / 2 ^ 53 : ℝ) < |((fanArea (0, 0) c' : ℚ) : ℝ)| := by rw [hE]; linarith
      rw [← hlen]
      exact_mod_cast this
    rw [Bool.eq_iff_iff, C102_ccw (K := ℚ) hc h1 h2 hn.le (0, 0) holes g1, C102_ccw (K := ℚ) hc' h1 h2 (hlen ▸ hn.le) (0, 0) holes' g2]
    have := same_sign key' (by linarith)
    exact_mod_cast this

/-- non-vacuity: a square and the same square with a corner moved by one -/
example : List.Forall₂ (fun x y => eucl x y ≤ 1) [((0 : ℝ), (0 : ℝ)), (10, 0), (10, 10), (0, 10)] [((0 : ℝ), (0 : ℝ)), (10, 0), (10, 11), (0, 10)] := by
  have h0 : ∀ x : ℝ × ℝ, eucl x x ≤ 1 := fun x => by simp [eucl]
  refine .cons (h0 _) (.cons (h0 _) (.cons ?_ (.cons (h0 _) .nil)))
  norm_num [eucl]

/-- non-vacuity in float64: the corner of a square of side 10 moves by one; the orientation cannot have changed -/
example : ∃ a a' d d' : ℚ, val (GetArea (.polygon [[fpt 0 0, fpt 10 0, fpt 10 10, fpt 0 10, fpt 0 0]])) = .fin a ∧
    val (GetArea (.polygon [[fpt 0 0, fpt 10 0, fpt 10 11, fpt 0 10, fpt 0 0]])) = .fin a' ∧
    val (LineLength [fpt 0 0, fpt 10 0, fpt 10 10, fpt 0 10, fpt 0 0]) = .fin d ∧ val (LineLength [fpt 0 0, fpt 10 0, fpt 10 11, fpt 0 10, fpt 0 0]) = .fin d' ∧
    |(a : ℝ) - a'| ≤ 1 * ((d + d') / 2 + 4 * (4 * 4 + 50) * 16 / 2 ^ 53) + 2 * (4 * (4 + 5) * (16 * 16) / 2 ^ 53) := by
  have h0 : ∀ x : ℚ × ℚ, eucl (real x) (real x) ≤ 1 := fun x => by simp [eucl]
  obtain ⟨a, a', d, d', e1, e2, e3, e4, e5, -⟩ := C157_float (M := 16) (ε := 1) (c := [(0, 0), (10, 0), (10, 10), (0, 10)]) (c' := [(0, 0), (10, 0), (10, 11), (0, 10)])
    (by simpa using fpt_all 16 (by norm_num) [(0, 0), (10, 0), (10, 10), (0, 10), (0, 0)] (by decide))
    (by simpa using fpt_all 16 (by norm_num) [(0, 0), (10, 0), (10, 11), (0, 10), (0, 0)] (by decide)) (by norm_num) (by norm_num) (by simp) (by simp)
    (.cons (h0 _) (.cons (h0 _) (.cons (by norm_num [eucl, real]) (.cons (h0 _) .nil)))) [] []
  refine ⟨a, a', d, d', e1, e2, e3, e4, ?_⟩
  simpa using e5

end GoGeo.Region
