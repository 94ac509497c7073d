import Verif.Props.JordanPair
import Verif.Props.Direction
import Verif.Props.SimpleFloat
import Verif.Props.SimpleDistance

/-!
# Cutting a polygon in two along a diagonal: C160
-/
set_option linter.unusedSectionVars false

namespace GoGeo.Spec

/-- the segment from `a` to `b` runs inside the ring: between its ends it does not touch the ring and nothing leads away from it -/
def Diagonal (c : List (ℝ × ℝ)) (a b : ℝ × ℝ) : Prop := ∀ z, InSeg a b z → ¬ OnRing c z ∧ ¬ Escapes c z

end GoGeo.Spec

namespace GoGeo.Region
open MeasureTheory Set Spec Real

section
variable {α : Type}

theorem edges_join (l m : List α) (b : α) : edges (l ++ b :: m) = edges (l ++ [b]) ++ edges (b :: m) := by
  induction l with
  | nil => simp [edges]
  | cons x l ih =>
    cases l with
    | nil => simp [edges]
    | cons y l =>
      simp only [List.cons_append, edges] at ih ⊢
      rw [ih]

/-- the sides of the ring are those of the two ways from `a` to `b` -/
theorem sides_cut (a b : α) (xs ys : List α) : sides (a :: xs ++ b :: ys) = edges (a :: xs ++ [b]) ++ edges (b :: ys ++ [a]) := by
  rw [← edges_closed]
  have e : a :: xs ++ b :: ys ++ (a :: xs ++ b :: ys).take 1 = (a :: xs) ++ b :: (ys ++ [a]) := by simp
  rw [e, edges_join]
  simp

theorem sides_part (a b : α) (xs : List α) : sides (a :: xs ++ [b]) = edges (a :: xs ++ [b]) ++ [(b, a)] := by
  rw [← edges_closed]
  have e : a :: xs ++ [b] ++ (a :: xs ++ [b]).take 1 = (a :: xs) ++ b :: [a] := by simp
  rw [e, edges_join]
  simp [edges]

theorem edges_ends (a b : α) (xs : List α) {e : α × α} (h : e ∈ edges (a :: xs ++ [b])) : e.1 ∈ a :: xs ∧ e.2 ∈ xs ++ [b] := by
  rw [edges_zip] at h
  exact List.of_mem_zip h

end

theorem hits_swap {z u v : ℝ × ℝ} : HitsRight z (u, v) ↔ HitsRight z (v, u) := by
  unfold HitsRight
  constructor
  all_goals
    rintro ⟨x, hx, h⟩
    exact ⟨x, hx, onSeg_swap h⟩

theorem winding_cut (a b : ℝ × ℝ) (xs ys : List (ℝ × ℝ)) (z : ℝ × ℝ) :
    winding (a :: xs ++ b :: ys) z = winding (a :: xs ++ [b]) z + winding (b :: ys ++ [a]) z := by
  classical
  unfold winding
  rw [sides_cut, sides_part, sides_part]
  simp only [List.countP_append, List.countP_cons, List.countP_nil]
  have := hits_swap (z := z) (u := a) (v := b)
  by_cases h : HitsRight z (a, b)
  · have h' := this.1 h
    by_cases h1 : z.2 < a.2 <;> by_cases h2 : z.2 < b.2 <;> simp [h, h', h1, h2] <;> ring
  · have h' : ¬ HitsRight z (b, a) := fun g => h (this.2 g)
    simp [h, h']; ring

theorem onRing_cut {a b : ℝ × ℝ} {xs ys : List (ℝ × ℝ)} {z : ℝ × ℝ} (h : OnRing (a :: xs ++ [b]) z) : OnRing (a :: xs ++ b :: ys) z ∨ OnSeg a b z := by
  obtain ⟨e, he, hz⟩ := h
  rw [sides_part, List.mem_append, List.mem_singleton] at he
  rcases he with he | rfl
  · exact Or.inl ⟨e, by rw [sides_cut]; exact List.mem_append_left _ he, hz⟩
  · exact Or.inr (onSeg_swap hz)

theorem evenOdd_cut (a b : ℝ × ℝ) (xs ys : List (ℝ × ℝ)) (z : ℝ × ℝ) :
    EvenOdd (a :: xs ++ b :: ys) z ↔ ¬ (EvenOdd (a :: xs ++ [b]) z ↔ EvenOdd (b :: ys ++ [a]) z) := by
  rw [evenOdd_iff, evenOdd_iff, evenOdd_iff, winding_cut, Int.odd_add, ← Int.not_odd_iff_even]
  tauto

theorem cut_perm (a b : ℝ × ℝ) (xs ys : List (ℝ × ℝ)) : (sides (b :: ys ++ a :: xs)).Perm (sides (a :: xs ++ b :: ys)) := by
  rw [sides_cut, sides_cut]
  exact List.perm_append_comm

theorem onRing_turned (a b : ℝ × ℝ) (xs ys : List (ℝ × ℝ)) (z : ℝ × ℝ) : OnRing (b :: ys ++ a :: xs) z ↔ OnRing (a :: xs ++ b :: ys) z := by
  unfold OnRing
  simp only [(cut_perm a b xs ys).mem_iff]

theorem simple_turned {a b : ℝ × ℝ} {xs ys : List (ℝ × ℝ)} (h : SimpleRing (a :: xs ++ b :: ys)) : SimpleRing (b :: ys ++ a :: xs) := by
  obtain ⟨h1, h2, h3⟩ := h
  refine ⟨by simp at h1 ⊢; omega, (List.perm_append_comm (l₁ := a :: xs) (l₂ := b :: ys)).nodup_iff.1 h2, ?_⟩
  intro e he f hf
  rw [(cut_perm a b xs ys).mem_iff] at he hf
  exact h3 e he f hf

theorem diagonal_turned {a b : ℝ × ℝ} {xs ys : List (ℝ × ℝ)} (h : Diagonal (a :: xs ++ b :: ys) a b) : Diagonal (b :: ys ++ a :: xs) b a := by
  intro z ⟨t, t0, t1, hz⟩
  have := h z ⟨1 - t, by linarith, by linarith, by rw [hz, along_turned]⟩
  refine ⟨fun g => this.1 ((onRing_turned a b xs ys z).1 g), fun g => this.2 ?_⟩
  intro R
  obtain ⟨y, hy, hj⟩ := g R
  refine ⟨y, hy, ?_⟩
  have e : {x | ¬ OnRing (b :: ys ++ a :: xs) x} = {x | ¬ OnRing (a :: xs ++ b :: ys) x} := by
    ext x; simp only [mem_ofPred_eq, onRing_turned a b xs ys x]
  rwa [e] at hj

/-- a corner is on the sides it is an end of only -/
theorem corner_end {c : List (ℝ × ℝ)} (hc : SimpleRing c) {v : ℝ × ℝ} (hv : v ∈ c) {e} (he : e ∈ sides c) (h : OnSeg e.1 e.2 v) : v = e.1 ∨ v = e.2 := by
  obtain ⟨h1, h2, h3⟩ := hc
  obtain ⟨u, w, -, hw, -, -, -⟩ := corner_sides h1 h2 hv
  by_cases g : e = (v, w)
  · rw [g]; exact Or.inl rfl
  · rcases h3 e he _ hw g v h ⟨0, le_rfl, zero_le_one, by simp [along]⟩ with ⟨k, -⟩ | ⟨k, -⟩
    · exact Or.inr k
    · exact Or.inl k

theorem inSeg_or {a b z : ℝ × ℝ} (h : OnSeg a b z) : InSeg a b z ∨ z = a ∨ z = b := by
  obtain ⟨t, t0, t1, rfl⟩ := h
  rcases eq_or_lt_of_le t0 with rfl | t0
  · right; left; simp [along]
  rcases eq_or_lt_of_le t1 with rfl | t1
  · right; right; simp [along]
  · exact Or.inl ⟨t, t0, t1, rfl⟩

theorem part_simple {a b : ℝ × ℝ} {xs ys : List (ℝ × ℝ)} (hc : SimpleRing (a :: xs ++ b :: ys)) (hd : Diagonal (a :: xs ++ b :: ys) a b) :
    SimpleRing (a :: xs ++ [b]) := by
  have hn := hc.2.1
  have hnP : (a :: xs ++ [b]).Nodup := List.Nodup.sublist ((List.Sublist.refl _).append (by simp)) hn
  have sub : ∀ e ∈ edges (a :: xs ++ [b]), e ∈ sides (a :: xs ++ b :: ys) := fun e he => by rw [sides_cut]; exact List.mem_append_left _ he
  have hxs : xs ≠ [] := by
    rintro rfl
    have hs : (a, b) ∈ sides ([a] ++ b :: ys) := sub _ (by simp [edges])
    exact (hd (along a b (1 / 2)) ⟨1 / 2, by norm_num, by norm_num, rfl⟩).1 ⟨_, hs, 1 / 2, by norm_num, by norm_num, rfl⟩
  have main : ∀ e ∈ edges (a :: xs ++ [b]), ∀ x, OnSeg e.1 e.2 x → OnSeg b a x → (x = e.2 ∧ x = b) ∨ (x = e.1 ∧ x = a) := by
    intro e he x hx hba
    have hends := edges_ends a b xs he
    rcases inSeg_or (onSeg_swap hba) with g | rfl | rfl
    · exact absurd ⟨e, sub e he, hx⟩ (hd x g).1
    · right
      refine ⟨(corner_end hc (by simp) (sub e he) hx).resolve_right ?_, rfl⟩
      intro g
      rw [← g] at hends
      rw [List.cons_append, List.nodup_cons] at hnP
      exact hnP.1 hends.2
    · left
      refine ⟨(corner_end hc (by simp) (sub e he) hx).resolve_left ?_, rfl⟩
      intro g
      rw [← g] at hends
      exact (List.nodup_append.1 hnP).2.2 _ hends.1 _ (by simp) rfl
  refine ⟨?_, hnP, ?_⟩
  · cases xs with
    | nil => exact absurd rfl hxs
    | cons => simp
  · intro e he f hf hef x hx hfx
    rw [sides_part, List.mem_append, List.mem_singleton] at he hf
    rcases he with he | rfl <;> rcases hf with hf | rfl
    · exact hc.2.2 e (sub e he) f (sub f hf) hef x hx hfx
    · exact main e he x hx hfx
    · rcases main f hf x hfx hx with ⟨h1, h2⟩ | ⟨h1, h2⟩
      · exact Or.inr ⟨h2, h1⟩
      · exact Or.inl ⟨h2, h1⟩
    · exact absurd rfl hef

/-- the two parts go round in the same direction as the whole -/
theorem cut_ccw {a b : ℝ × ℝ} {xs ys : List (ℝ × ℝ)} (hc : SimpleRing (a :: xs ++ b :: ys)) (hd : Diagonal (a :: xs ++ b :: ys) a b) (h₀ h₁ h₂ : List (List (Point (XR ℝ)))) :
    IsCCW (ring (a :: xs ++ [b]) :: h₁) = IsCCW (ring (a :: xs ++ b :: ys) :: h₀) ∧ IsCCW (ring (b :: ys ++ [a]) :: h₂) = IsCCW (ring (a :: xs ++ b :: ys) :: h₀) := by
  have hP := part_simple hc hd
  have hQ := part_simple (simple_turned hc) (diagonal_turned hd)
  have hm := hd (along a b (1 / 2)) ⟨1 / 2, by norm_num, by norm_num, rfl⟩
  obtain ⟨δ, hδ, near⟩ := evenOdd_near hm.1
  have hin := (evenOdd_escapes hc hm.1).2 hm.2
  have hon : OnRing (a :: xs ++ [b]) (along a b (1 / 2)) := by
    refine ⟨(b, a), by rw [sides_part]; simp, onSeg_swap ⟨1 / 2, by norm_num, by norm_num, rfl⟩⟩
  obtain ⟨⟨y, hy, y1, y2⟩, z, hz, z1, z2⟩ := C140_boundary _ hP _ hon δ hδ
  have off : ∀ w, ¬ OnRing (a :: xs ++ [b]) w → ¬ OnRing (a :: xs ++ b :: ys) w → ¬ OnRing (b :: ys ++ [a]) w := by
    intro w h1 h2 h3
    rcases onRing_cut (ys := xs) h3 with g | g
    · exact h2 ((onRing_turned a b xs ys w).1 g)
    · exact h1 ⟨(b, a), by rw [sides_part]; simp, g⟩
  have ny := near y hy
  have nz := near z hz
  have ey : EvenOdd (a :: xs ++ b :: ys) y := ny.2.2 hin
  have ez : EvenOdd (a :: xs ++ b :: ys) z := nz.2.2 hin
  have qy : ¬ EvenOdd (b :: ys ++ [a]) y := by
    have := (evenOdd_cut a b xs ys y).1 ey
    tauto
  have qz : EvenOdd (b :: ys ++ [a]) z := by
    have := (evenOdd_cut a b xs ys z).1 ez
    tauto
  have w1 := winding_cut a b xs ys y
  have w2 := winding_cut a b xs ys z
  rw [(C140_ccw _ hP h₁ y y1).1 y2, (C140_ccw _ hQ h₂ y (off y y1 ny.1)).2 qy, (C140_ccw _ hc h₀ y ny.1).1 ey] at w1
  rw [(C140_ccw _ hP h₁ z z1).2 z2, (C140_ccw _ hQ h₂ z (off z z1 nz.1)).1 qz, (C140_ccw _ hc h₀ z nz.1).1 ez] at w2
  constructor
  · cases h : IsCCW (ring (a :: xs ++ [b]) :: h₁) <;> cases h' : IsCCW (ring (a :: xs ++ b :: ys) :: h₀) <;> rw [h, h'] at w1 <;> simp at w1 ⊢
  · cases h : IsCCW (ring (b :: ys ++ [a]) :: h₂) <;> cases h' : IsCCW (ring (a :: xs ++ b :: ys) :: h₀) <;> rw [h, h'] at w2 <;> simp at w2 ⊢

/-- **C160 (the parts).** A simple ring cut in two along a diagonal from corner `a` to corner `b` that runs inside it: both parts are simple rings, go
round the same way as the whole, and a point off the ring and the diagonal is shut in by the ring exactly if it is shut in by one of the parts, and never by
both. -/
theorem C160_parts (a b : ℝ × ℝ) (xs ys : List (ℝ × ℝ)) (hc : SimpleRing (a :: xs ++ b :: ys)) (hd : Diagonal (a :: xs ++ b :: ys) a b) :
    SimpleRing (a :: xs ++ [b]) ∧ SimpleRing (b :: ys ++ [a]) ∧
    (∀ h₀ h₁ h₂, IsCCW (ring (a :: xs ++ [b]) :: h₁) = IsCCW (ring (a :: xs ++ b :: ys) :: h₀) ∧ IsCCW (ring (b :: ys ++ [a]) :: h₂) = IsCCW (ring (a :: xs ++ b :: ys) :: h₀)) ∧
    ∀ z, ¬ OnRing (a :: xs ++ b :: ys) z → ¬ OnSeg a b z →
      (¬ Escapes (a :: xs ++ b :: ys) z ↔ ¬ Escapes (a :: xs ++ [b]) z ∨ ¬ Escapes (b :: ys ++ [a]) z) ∧
      (Escapes (a :: xs ++ [b]) z ∨ Escapes (b :: ys ++ [a]) z) := by
  have hP := part_simple hc hd
  have hQ := part_simple (simple_turned hc) (diagonal_turned hd)
  refine ⟨hP, hQ, fun h₀ h₁ h₂ => cut_ccw hc hd h₀ h₁ h₂, ?_⟩
  intro z hz hs
  have zP : ¬ OnRing (a :: xs ++ [b]) z := fun h => (onRing_cut h).elim hz hs
  have zQ : ¬ OnRing (b :: ys ++ [a]) z := fun h => (onRing_cut (ys := xs) h).elim (fun g => hz ((onRing_turned a b xs ys z).1 g)) fun g => hs (onSeg_swap g)
  rw [← evenOdd_escapes hc hz, ← evenOdd_escapes hP zP, ← evenOdd_escapes hQ zQ]
  have key := evenOdd_cut a b xs ys z
  have both : ¬ (EvenOdd (a :: xs ++ [b]) z ∧ EvenOdd (b :: ys ++ [a]) z) := by
    rintro ⟨g1, g2⟩
    have g0 : ¬ EvenOdd (a :: xs ++ b :: ys) z := by tauto
    have hw := winding_cut a b xs ys z
    obtain ⟨o1, o2⟩ := cut_ccw hc hd [] [] []
    rw [(C140_ccw _ hP [] z zP).1 g1, (C140_ccw _ hQ [] z zQ).1 g2, (C140_ccw _ hc [] z hz).2 g0, o1, o2] at hw
    cases h : IsCCW (ring (a :: xs ++ b :: ys) :: []) <;> rw [h] at hw <;> simp at hw
  refine ⟨by tauto, ?_⟩
  by_contra h
  push Not at h
  exact both ⟨(evenOdd_escapes hP zP).2 h.1, (evenOdd_escapes hQ zQ).2 h.2⟩

/-- **C160 (area).** The areas of the two parts add up to the area of the whole. -/
theorem C160_area (a b : ℝ × ℝ) (xs ys : List (ℝ × ℝ)) (hc : SimpleRing (a :: xs ++ b :: ys)) (hd : Diagonal (a :: xs ++ b :: ys) a b) (h₀ h₁ h₂ : List (List (Point (XR ℝ)))) :
    ∃ A B : ℝ, 0 < A ∧ 0 < B ∧ GetArea (.polygon (ring (a :: xs ++ [b]) :: h₁)) = .fin A ∧ GetArea (.polygon (ring (b :: ys ++ [a]) :: h₂)) = .fin B ∧
      GetArea (.polygon (ring (a :: xs ++ b :: ys) :: h₀)) = .fin (A + B) := by
  obtain ⟨i1, a1, c1⟩ := C135_area (a :: xs ++ [b]) h₁
  obtain ⟨i2, a2, c2⟩ := C135_area (b :: ys ++ [a]) h₂
  obtain ⟨i0, a0, c0⟩ := C135_area (a :: xs ++ b :: ys) h₀
  obtain ⟨A, pA, -, eA, -⟩ := C140_area _ (part_simple hc hd) h₁
  obtain ⟨B, pB, -, eB, -⟩ := C140_area _ (part_simple (simple_turned hc) (diagonal_turned hd)) h₂
  obtain ⟨o1, o2⟩ := cut_ccw hc hd h₀ h₁ h₂
  have hsum : ∫ z, (winding (a :: xs ++ b :: ys) z : ℝ) = (∫ z, (winding (a :: xs ++ [b]) z : ℝ)) + ∫ z, (winding (b :: ys ++ [a]) z : ℝ) := by
    rw [← integral_add i1 i2]
    congr 1; funext z
    rw [winding_cut]; push_cast; rfl
  refine ⟨A, B, pA, pB, eA, eB, ?_⟩
  rw [eA] at a1
  rw [eB] at a2
  injection a1 with a1
  injection a2 with a2
  rw [a0, hsum, a1, a2]
  congr 1
  have s : (0 < ∫ z, (winding (a :: xs ++ [b]) z : ℝ)) ↔ 0 < ∫ z, (winding (b :: ys ++ [a]) z : ℝ) := by
    rw [← c1, ← c2, o1, o2]
  generalize ∫ z, (winding (a :: xs ++ [b]) z : ℝ) = u at *
  generalize ∫ z, (winding (b :: ys ++ [a]) z : ℝ) = v at *
  rcases lt_or_ge 0 u with hu | hu
  · have hv := s.1 hu
    rw [abs_of_pos hu, abs_of_pos hv, abs_of_pos (by linarith)]
  · have hv : v ≤ 0 := not_lt.1 fun g => absurd (s.2 g) (not_lt.2 hu)
    rw [abs_of_nonpos hu, abs_of_nonpos hv, abs_of_nonpos (by linarith)]
    ring

/-- **C160 (centroid).** The centroid of the whole is the mean of the centroids of the parts, weighted with their areas. -/
theorem C160_centroid (a b : ℝ × ℝ) (xs ys : List (ℝ × ℝ)) (hc : SimpleRing (a :: xs ++ b :: ys)) (hd : Diagonal (a :: xs ++ b :: ys) a b) (h₀ h₁ h₂ : List (List (Point (XR ℝ)))) :
    ∃ (A B : ℝ) (g p q : ℝ × ℝ), GetArea (.polygon (ring (a :: xs ++ [b]) :: h₁)) = .fin A ∧ GetArea (.polygon (ring (b :: ys ++ [a]) :: h₂)) = .fin B ∧
      Centroid (.polygon (ring (a :: xs ++ [b]) :: h₁)) = .ok (pt p) ∧ Centroid (.polygon (ring (b :: ys ++ [a]) :: h₂)) = .ok (pt q) ∧
      Centroid (.polygon (ring (a :: xs ++ b :: ys) :: h₀)) = .ok (pt g) ∧ 0 < A ∧ 0 < B ∧ (A + B) • g = A • p + B • q := by
  obtain ⟨i1, a1, c1⟩ := C135_area (a :: xs ++ [b]) h₁
  obtain ⟨i2, a2, c2⟩ := C135_area (b :: ys ++ [a]) h₂
  obtain ⟨i0, a0, c0⟩ := C135_area (a :: xs ++ b :: ys) h₀
  obtain ⟨A, B, pA, pB, eA, eB, eS⟩ := C160_area a b xs ys hc hd h₀ h₁ h₂
  obtain ⟨o1, o2⟩ := cut_ccw hc hd h₀ h₁ h₂
  have add : ∀ (f : ℝ × ℝ → ℝ) (β γ : ℝ), (f = fun p => 0 + β * p.1 + γ * p.2) → ∫ z, f z * (winding (a :: xs ++ b :: ys) z : ℝ) =
      (∫ z, f z * (winding (a :: xs ++ [b]) z : ℝ)) + ∫ z, f z * (winding (b :: ys ++ [a]) z : ℝ) := by
    intro f β γ hf
    rw [← integral_add (winding_affine 0 _ 0 β γ hf).1 (winding_affine 0 _ 0 β γ hf).1]
    congr 1; funext z
    rw [winding_cut]; push_cast; ring
  have hx := add (fun z => z.1) 1 0 (by funext p; simp)
  have hy := add (fun z => z.2) 0 1 (by funext p; simp)
  rw [eA] at a1
  rw [eB] at a2
  rw [eS] at a0
  injection a1 with a1
  injection a2 with a2
  injection a0 with a0
  have n1 : ∫ z, (winding (a :: xs ++ [b]) z : ℝ) ≠ 0 := by intro h; rw [h, abs_zero] at a1; linarith
  have n2 : ∫ z, (winding (b :: ys ++ [a]) z : ℝ) ≠ 0 := by intro h; rw [h, abs_zero] at a2; linarith
  have n0 : ∫ z, (winding (a :: xs ++ b :: ys) z : ℝ) ≠ 0 := by intro h; rw [h, abs_zero] at a0; linarith
  refine ⟨A, B, _, _, _, eA, eB, C135_centroid _ n1 h₁, C135_centroid _ n2 h₂, C135_centroid _ n0 h₀, pA, pB, ?_⟩
  rw [hx, hy]
  have s1 : (0 < ∫ z, (winding (a :: xs ++ [b]) z : ℝ)) ↔ 0 < ∫ z, (winding (a :: xs ++ b :: ys) z : ℝ) := by rw [← c1, ← c0, o1]
  have s2 : (0 < ∫ z, (winding (b :: ys ++ [a]) z : ℝ)) ↔ 0 < ∫ z, (winding (a :: xs ++ b :: ys) z : ℝ) := by rw [← c2, ← c0, o2]
  clear hx hy c0 c1 c2 i0 i1 i2
  generalize ∫ z, (winding (a :: xs ++ [b]) z : ℝ) = u at *
  generalize ∫ z, (winding (b :: ys ++ [a]) z : ℝ) = v at *
  generalize ∫ z, (winding (a :: xs ++ b :: ys) z : ℝ) = w at *
  generalize ∫ z, z.1 * (winding (a :: xs ++ [b]) z : ℝ) = u1
  generalize ∫ z, z.1 * (winding (b :: ys ++ [a]) z : ℝ) = v1
  generalize ∫ z, z.2 * (winding (a :: xs ++ [b]) z : ℝ) = u2
  generalize ∫ z, z.2 * (winding (b :: ys ++ [a]) z : ℝ) = v2
  have : ∃ s : ℝ, A = s * u ∧ B = s * v ∧ A + B = s * w := by
    by_cases h : 0 < w
    · exact ⟨1, by rw [a1, abs_of_pos (s1.2 h), one_mul], by rw [a2, abs_of_pos (s2.2 h), one_mul], by rw [a0, abs_of_pos h, one_mul]⟩
    · have hu : u ≤ 0 := not_lt.1 fun g => h (s1.1 g)
      have hv : v ≤ 0 := not_lt.1 fun g => h (s2.1 g)
      exact ⟨-1, by rw [a1, abs_of_nonpos hu]; ring, by rw [a2, abs_of_nonpos hv]; ring, by rw [a0, abs_of_nonpos (not_lt.1 h)]; ring⟩
  obtain ⟨s, e1, e2, e3⟩ := this
  rw [e3, e1, e2]
  ext
  · simp only [Prod.smul_mk, Prod.mk_add_mk, smul_eq_mul]
    field_simp
  · simp only [Prod.smul_mk, Prod.mk_add_mk, smul_eq_mul]
    field_simp

/-! ### float64 -/

section
open GoFloat FloatVal

theorem grid_within {B k : ℕ} (hB : B + k ≤ 17) {v : ℚ × ℚ} : OnGrid B k v → Within (2 ^ 26) v := by
  rintro ⟨m, n, b1, b2, rfl⟩
  have q : ∀ j : ℤ, |j| ≤ 2 ^ B → |(j : ℚ) / 2 ^ k| ≤ 2 ^ 26 := by
    intro j hj
    rw [abs_div, abs_of_pos (by positivity : (0 : ℚ) < 2 ^ k)]
    have h1 : |(j : ℚ)| ≤ 2 ^ B := by exact_mod_cast hj
    have h2 : (2 : ℚ) ^ B ≤ 2 ^ 26 := pow_le_pow_right₀ (by norm_num) (by omega)
    exact (div_le_self (abs_nonneg _) (one_le_pow₀ (by norm_num))).trans (h1.trans h2)
  exact ⟨q m b1, q n b2⟩

/-- on a grid the answer is that of the even-odd rule, for any ring -/
theorem grid_evenOdd {B k : ℕ} (hB : B + k ≤ 17) {p : Point Float} {ps : List (Point Float)} {x : ℚ × ℚ} {c : List (ℚ × ℚ)} (hp : At p x) (gx : OnGrid B k x)
    (hc : GridAll B k ps (c ++ c.take 1)) (hoff : ∀ e ∈ sides c, ¬ OnSeg e.1 e.2 x) (h0 : x ≠ (0, 0)) (holes : List (List (Point Float))) :
    (IsPointInPolygon p (ps :: holes) = .contain ↔ EvenOdd (c.map real) (real x)) ∧ (IsPointInPolygon p (ps :: holes) = .disjoint ↔ ¬ EvenOdd (c.map real) (real x)) := by
  have hg : ∀ v ∈ c, OnGrid B k v := by
    intro v hv
    obtain ⟨p, -, -, h⟩ := forall₂_mem_right hc (List.mem_append_left _ hv)
    exact h
  obtain ⟨h1, h2⟩ := C101_inPolygon_evenOdd hp (grid_within hB gx) (List.Forall₂.imp (fun _ _ h => ⟨h.1, grid_within hB h.2⟩) hc) (grid_clear2X hB hg gx hoff)
    (grid_clearY hB hg gx) h0 holes
  rw [evenOdd_real]
  by_cases h : EvenOdd c x
  · simp [h1 h, h]
  · simp [h2 h, h]

/-- **C160 (IsPointInPolygon, any ring).** Any ring in float64 on a grid, simple or not, cut along the segment between any two of its corners, and any grid
point off the ring and off that segment, the origin excepted: IsPointInPolygon answers CONTAIN for the ring exactly if it answers CONTAIN for one of the
parts and not for the other, and DISJOINT otherwise. -/
theorem C160_point {B k : ℕ} (hB : B + k ≤ 17) {p : Point Float} {ps qs rs : List (Point Float)} {x a b : ℚ × ℚ} {xs ys : List (ℚ × ℚ)} (hp : At p x) (gx : OnGrid B k x)
    (hps : GridAll B k ps (a :: xs ++ b :: ys ++ [a])) (hqs : GridAll B k qs (a :: xs ++ [b] ++ [a])) (hrs : GridAll B k rs (b :: ys ++ [a] ++ [b]))
    (hoff : ∀ e ∈ sides (a :: xs ++ b :: ys), ¬ OnSeg e.1 e.2 x) (hdi : ¬ OnSeg a b x) (h0 : x ≠ (0, 0)) (holes : List (List (Point Float))) :
    (IsPointInPolygon p (ps :: holes) = .contain ↔ ¬ (IsPointInPolygon p (qs :: holes) = .contain ↔ IsPointInPolygon p (rs :: holes) = .contain)) ∧
    (IsPointInPolygon p (ps :: holes) = .disjoint ↔ (IsPointInPolygon p (qs :: holes) = .contain ↔ IsPointInPolygon p (rs :: holes) = .contain)) := by
  have o1 : ∀ e ∈ sides (a :: xs ++ [b]), ¬ OnSeg e.1 e.2 x := by
    intro e he
    rw [sides_part, List.mem_append, List.mem_singleton] at he
    rcases he with he | rfl
    · exact hoff e (by rw [sides_cut]; exact List.mem_append_left _ he)
    · exact fun h => hdi (onSeg_swap h)
  have o2 : ∀ e ∈ sides (b :: ys ++ [a]), ¬ OnSeg e.1 e.2 x := by
    intro e he
    rw [sides_part, List.mem_append, List.mem_singleton] at he
    rcases he with he | rfl
    · exact hoff e (by rw [sides_cut]; exact List.mem_append_right _ he)
    · exact hdi
  obtain ⟨a1, a2⟩ := grid_evenOdd hB hp gx (c := a :: xs ++ b :: ys) (by simpa using hps) hoff h0 holes
  obtain ⟨b1, -⟩ := grid_evenOdd hB hp gx (c := a :: xs ++ [b]) (by simpa using hqs) o1 h0 holes
  obtain ⟨c1, -⟩ := grid_evenOdd hB hp gx (c := b :: ys ++ [a]) (by simpa using hrs) o2 h0 holes
  have key := evenOdd_cut (real a) (real b) (xs.map real) (ys.map real) (real x)
  simp only [List.map_append, List.map_cons, List.map_nil] at a1 a2 b1 c1
  have h1 := (key.trans (not_congr (iff_congr b1 c1).symm))
  exact ⟨a1.trans h1, a2.trans ((not_congr h1).trans not_not)⟩

/-- **C160 (IsPointInPolygon).** If the ring is simple and the diagonal runs inside it, the answer is CONTAIN for the ring exactly if it is for one of
the parts, and it is for at most one of them. -/
theorem C160_point_simple {B k : ℕ} (hB : B + k ≤ 17) {p : Point Float} {ps qs rs : List (Point Float)} {x a b : ℚ × ℚ} {xs ys : List (ℚ × ℚ)} (hp : At p x) (gx : OnGrid B k x)
    (hps : GridAll B k ps (a :: xs ++ b :: ys ++ [a])) (hqs : GridAll B k qs (a :: xs ++ [b] ++ [a])) (hrs : GridAll B k rs (b :: ys ++ [a] ++ [b]))
    (hs : SimpleRing ((a :: xs ++ b :: ys).map real)) (hd : Diagonal ((a :: xs ++ b :: ys).map real) (real a) (real b))
    (hoff : ¬ OnRing ((a :: xs ++ b :: ys).map real) (real x)) (hdi : ¬ OnSeg (real a) (real b) (real x)) (h0 : x ≠ (0, 0)) (holes : List (List (Point Float))) :
    (IsPointInPolygon p (ps :: holes) = .contain ↔ IsPointInPolygon p (qs :: holes) = .contain ∨ IsPointInPolygon p (rs :: holes) = .contain) ∧
    ¬ (IsPointInPolygon p (qs :: holes) = .contain ∧ IsPointInPolygon p (rs :: holes) = .contain) := by
  simp only [List.map_append, List.map_cons] at hs hd hoff
  obtain ⟨s1, s2, -, hz⟩ := C160_parts _ _ _ _ hs hd
  obtain ⟨k1, k2⟩ := hz _ hoff hdi
  have z1 : ¬ OnRing (real a :: xs.map real ++ [real b]) (real x) := fun h => (onRing_cut h).elim hoff hdi
  have z2 : ¬ OnRing (real b :: ys.map real ++ [real a]) (real x) := fun h =>
    (onRing_cut (ys := xs.map real) h).elim (fun g => hoff ((onRing_turned (real a) (real b) (xs.map real) (ys.map real) (real x)).1 g)) fun g => hdi (onSeg_swap g)
  have a1 := (C140_inside_grid hB hp gx (c := a :: xs ++ b :: ys) (by simpa using hps) (by simpa using hs) (by simpa using hoff) h0 holes).1
  have b1 := (C140_inside_grid hB hp gx (c := a :: xs ++ [b]) (by simpa using hqs) (by simpa using s1) (by simpa using z1) h0 holes).1
  have c1 := (C140_inside_grid hB hp gx (c := b :: ys ++ [a]) (by simpa using hrs) (by simpa using s2) (by simpa using z2) h0 holes).1
  simp only [List.map_append, List.map_cons, List.map_nil] at a1 b1 c1
  refine ⟨a1.trans (k1.trans (or_congr b1 c1).symm), fun h => k2.elim (b1.1 h.1) (c1.1 h.2)⟩

/-- **C160 (area, float64).** On a grid on which areas are exact, the computed areas of the parts add up to that of the whole exactly. -/
theorem C160_area_grid {B k : ℕ} (hk : k ≤ 500) {ps qs rs : List (Point Float)} {a b : ℚ × ℚ} {xs ys : List (ℚ × ℚ)}
    (hps : GridAll B k ps (a :: xs ++ b :: ys ++ [a])) (hqs : GridAll B k qs (a :: xs ++ [b] ++ [a])) (hrs : GridAll B k rs (b :: ys ++ [a] ++ [b]))
    (hn : (a :: xs ++ b :: ys).length * 2 ^ (2 * B + 1) ≤ 2 ^ 53)
    (hs : SimpleRing ((a :: xs ++ b :: ys).map real)) (hd : Diagonal ((a :: xs ++ b :: ys).map real) (real a) (real b)) (holes : List (List (Point Float))) :
    ∃ A₁ A₂ : ℚ, 0 < A₁ ∧ 0 < A₂ ∧ val (GetArea (.polygon (qs :: holes))) = .fin A₁ ∧ val (GetArea (.polygon (rs :: holes))) = .fin A₂ ∧
      val (GetArea (.polygon (ps :: holes))) = .fin (A₁ + A₂) := by
  simp only [List.map_append, List.map_cons] at hs hd
  obtain ⟨A, A', p1, p2, e1, e2, e0⟩ := C160_area _ _ _ _ hs hd [] [] []
  have m1 : real a :: xs.map real ++ [real b] = (a :: xs ++ [b]).map real := by simp
  have m2 : real b :: ys.map real ++ [real a] = (b :: ys ++ [a]).map real := by simp
  have m0 : real a :: xs.map real ++ real b :: ys.map real = (a :: xs ++ b :: ys).map real := by simp
  rw [m1, (C32_area_fan (real (0, 0)) _ []).1, fanArea_real] at e1
  rw [m2, (C32_area_fan (real (0, 0)) _ []).1, fanArea_real] at e2
  rw [m0, (C32_area_fan (real (0, 0)) _ []).1, fanArea_real] at e0
  injection e1 with e1
  injection e2 with e2
  injection e0 with e0
  have l1 : (a :: xs ++ [b]).length * 2 ^ (2 * B + 1) ≤ 2 ^ 53 := le_trans (Nat.mul_le_mul_right _ (by simp)) hn
  have l2 : (b :: ys ++ [a]).length * 2 ^ (2 * B + 1) ≤ 2 ^ 53 := le_trans (Nat.mul_le_mul_right _ (by simp)) hn
  refine ⟨|fanArea (0, 0) (a :: xs ++ [b])|, |fanArea (0, 0) (b :: ys ++ [a])|, ?_, ?_, C114_area hk (by simpa using hqs) l1 (0, 0) holes,
    C114_area hk (by simpa using hrs) l2 (0, 0) holes, ?_⟩
  · rw [← e1] at p1; exact_mod_cast p1
  · rw [← e2] at p2; exact_mod_cast p2
  · rw [C114_area hk (c := a :: xs ++ b :: ys) (by simpa using hps) hn (0, 0) holes]
    rw [← e1, ← e2] at e0
    congr 1
    exact_mod_cast e0

end

/-- the hypotheses of the theorems can be met: the dart, which is not convex, has a diagonal -/
theorem dart_diagonal : Diagonal dart (0, 0) (1, 1) := by
  rintro z ⟨t, t0, t1, rfl⟩
  have hz : along ((0 : ℝ), (0 : ℝ)) (1, 1) t = (t, t) := by simp [along]
  rw [hz]
  have hoff : ¬ OnRing dart (t, t) := by
    rintro ⟨e, he, s, s0, s1, hs⟩
    simp only [dart, sides, List.rotate_cons_succ, List.rotate_zero, List.cons_append, List.nil_append, List.zip_cons_cons, List.zip_nil_right,
      List.mem_cons, List.not_mem_nil, or_false] at he
    rcases he with rfl | rfl | rfl | rfl <;> simp only [along, Prod.mk.injEq] at hs <;> obtain ⟨h1, h2⟩ := hs <;> norm_num at h1 h2 <;> linarith
  refine ⟨hoff, (evenOdd_escapes dart_simple hoff).1 ((evenOdd_iff _ _).2 ?_)⟩
  have h := winding_chi dart (t, t)
  have : (winding dart (t, t) : ℝ) = 1 := by
    rw [h]
    have q1 : ¬ t < 0 := not_lt.2 t0.le
    have q2 : t < 4 := by linarith
    have c1 : chi (0, 0) (4, 0) (t, t) = 0 := chi_flat _ _ _ _
    have c2 : chi (4, 0) (1, 1) (t, t) = 1 := by
      unfold chi; exact if_pos ⟨q1, t1, by unfold turn; simp only; linarith⟩
    have c3 : chi (1, 1) (0, 4) (t, t) = 0 := by
      unfold chi; rw [if_neg (fun h => h.1 t1), if_neg (fun h => h.2.1 q2)]
    have c4 : chi (0, 4) (0, 0) (t, t) = 0 := by
      unfold chi; rw [if_neg (fun h => h.1 q2), if_neg (fun h => ?_)]
      have := h.2.2
      unfold turn at this
      simp only at this
      linarith
    simp only [dart, sides, List.rotate_cons_succ, List.rotate_zero, List.cons_append, List.nil_append, List.zip_cons_cons, List.zip_nil_right,
      List.map_cons, List.sum_cons, List.map_nil, List.sum_nil, c1, c2, c3, c4]
    norm_num
  have : winding dart (t, t) = 1 := by exact_mod_cast this
  rw [this]; exact odd_one

/-- the areas of its parts, and a point in one of them -/
example : ∃ A B : ℝ, 0 < A ∧ 0 < B ∧ GetArea (.polygon [ring [((0 : ℝ), (0 : ℝ)), (4, 0), (1, 1)]]) = .fin A ∧ GetArea (.polygon [ring [((1 : ℝ), (1 : ℝ)), (0, 4), (0, 0)]]) = .fin B ∧
    GetArea (.polygon [ring dart]) = .fin (A + B) :=
  C160_area (0, 0) (1, 1) [(4, 0)] [(0, 4)] dart_simple dart_diagonal [] [] []

example : ∃ A₁ A₂ : ℚ, 0 < A₁ ∧ 0 < A₂ ∧ FloatVal.val (GetArea (.polygon [[fpt 0 0, fpt 4 0, fpt 1 1, fpt 0 0]])) = .fin A₁ ∧
    FloatVal.val (GetArea (.polygon [[fpt 1 1, fpt 0 4, fpt 0 0, fpt 1 1]])) = .fin A₂ ∧
    FloatVal.val (GetArea (.polygon [[fpt 0 0, fpt 4 0, fpt 1 1, fpt 0 4, fpt 0 0]])) = .fin (A₁ + A₂) := by
  have h0 := fpt_grid [(0, 0), (4, 0), (1, 1), (0, 4), (0, 0)] 17 (by norm_num) (by decide)
  have h1 := fpt_grid [(0, 0), (4, 0), (1, 1), (0, 0)] 17 (by norm_num) (by decide)
  have h2 := fpt_grid [(1, 1), (0, 4), (0, 0), (1, 1)] 17 (by norm_num) (by decide)
  have hd : ([((0 : ℚ), (0 : ℚ)), (4, 0), (1, 1), (0, 4)] : List (ℚ × ℚ)).map real = dart := by norm_num [real, dart]
  refine C160_area_grid (k := 0) (B := 17) (a := (0, 0)) (b := (1, 1)) (xs := [(4, 0)]) (ys := [(0, 4)]) (by norm_num) (by simpa using h0) (by simpa using h1) (by simpa using h2)
    (by norm_num) ?_ ?_ []
  · show SimpleRing (([((0 : ℚ), (0 : ℚ)), (4, 0), (1, 1), (0, 4)] : List (ℚ × ℚ)).map real)
    rw [hd]; exact dart_simple
  · show Diagonal (([((0 : ℚ), (0 : ℚ)), (4, 0), (1, 1), (0, 4)] : List (ℚ × ℚ)).map real) _ _
    rw [hd]
    have e0 : real (0, 0) = (0, 0) := by norm_num [real]
    have e1 : real (1, 1) = (1, 1) := by norm_num [real]
    rw [e0, e1]; exact dart_diagonal

example : (IsPointInPolygon (fpt 2 0) [[fpt 0 0, fpt 4 1, fpt 1 1, fpt 0 4, fpt 0 0]] = .contain ↔
    ¬ (IsPointInPolygon (fpt 2 0) [[fpt 0 0, fpt 4 1, fpt 1 1, fpt 0 0]] = .contain ↔ IsPointInPolygon (fpt 2 0) [[fpt 1 1, fpt 0 4, fpt 0 0, fpt 1 1]] = .contain)) := by
  have h0 := fpt_grid [(0, 0), (4, 1), (1, 1), (0, 4), (0, 0)] 17 (by norm_num) (by decide)
  have h1 := fpt_grid [(0, 0), (4, 1), (1, 1), (0, 0)] 17 (by norm_num) (by decide)
  have h2 := fpt_grid [(1, 1), (0, 4), (0, 0), (1, 1)] 17 (by norm_num) (by decide)
  refine (C160_point (k := 0) (B := 17) (x := (2, 0)) (a := (0, 0)) (b := (1, 1)) (xs := [(4, 1)]) (ys := [(0, 4)]) (by norm_num) (by simpa using fpt_at 2 0 (by norm_num) (by norm_num))
    ⟨2, 0, by norm_num, by norm_num, by norm_num⟩ (by simpa using h0) (by simpa using h1) (by simpa using h2) ?_ ?_ (by norm_num) []).1
  · rintro e he ⟨s, s0, s1, hs⟩
    simp only [sides, List.rotate_cons_succ, List.rotate_zero, List.cons_append, List.nil_append, List.zip_cons_cons, List.zip_nil_right,
      List.mem_cons, List.not_mem_nil, or_false] at he
    rcases he with rfl | rfl | rfl | rfl <;> simp only [along, Prod.mk.injEq] at hs <;> obtain ⟨h1, h2⟩ := hs <;> (try norm_num at h1 h2) <;> (try linarith)
  · rintro ⟨s, s0, s1, hs⟩
    simp only [along, Prod.mk.injEq] at hs
    obtain ⟨h1, h2⟩ := hs
    norm_num at h1 h2
    linarith

end GoGeo.Region
