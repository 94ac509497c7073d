import Verif.Spec.Rings
import Verif.Geo.LineLemmas
import Verif.Props.Line

/-!
# The rings of a polygon: C130
-/

namespace GoGeo
open Spec

section
variable {ρ : Type} [Inhabited ρ] (grow : Nat → Nat → Nat)

/-- one edit: it does not panic, it is the list edit, and slices in other arrays are as before -/
theorem ringEdit_step (e : RingEdit ρ) (m : Mem ρ) (poly : Slice) (h : m.Valid poly) :
    ∃ m' poly', e.call grow m poly = .ok (m', poly') ∧ m'.Valid poly' ∧ m'.read poly' = e.onList (m.read poly) ∧
      m.arrs.length ≤ m'.arrs.length ∧ (poly'.arr = poly.arr ∨ m.arrs.length ≤ poly'.arr) ∧
      ∀ t, m.Valid t → m'.Valid t ∧ (t.arr ≠ poly.arr → m'.read t = m.read t) := by
  have happ : ∀ r : ρ, ∃ m' poly', m.append grow poly [r] = (m', poly') ∧ m'.Valid poly' ∧ m'.read poly' = m.read poly ++ [r] ∧
      m.arrs.length ≤ m'.arrs.length ∧ (poly'.arr = poly.arr ∨ m.arrs.length ≤ poly'.arr) ∧
      ∀ t, m.Valid t → m'.Valid t ∧ (t.arr ≠ poly.arr → m'.read t = m.read t) := by
    intro r
    obtain ⟨h1, h2, h3, h4⟩ := Mem.append_spec grow h [r]
    obtain ⟨h5, h6⟩ := Mem.append_arrs grow m poly [r]
    exact ⟨_, _, rfl, h2, h1, h5, h6, fun t ht => ⟨h3 t ht, fun hn => h4 t ht fun he => absurd he hn⟩⟩
  have hl := h.length
  cases e with
  | addInterior r =>
    obtain ⟨m', p', h1, h2⟩ := happ r
    exact ⟨m', p', by show Except.ok (Poly.AddInteriorRing grow m poly r) = _; unfold Poly.AddInteriorRing; rw [h1], h2⟩
  | setExterior r =>
    by_cases h0 : poly.len = 0
    · obtain ⟨m', p', h1, hv, h2, h3⟩ := happ r
      have hr : m.read poly = [] := List.length_eq_zero_iff.1 (by omega)
      refine ⟨m', p', ?_, hv, ?_, h3⟩
      · show Poly.SetExteriorRing grow m poly r = _
        unfold Poly.SetExteriorRing; rw [if_pos h0, h1]
      · rw [h2, hr]; rfl
    · obtain ⟨m', h1, h2, h3, h4, h5, -⟩ := Mem.set_spec h 0 (by omega) r
      refine ⟨m', poly, ?_, h4 _ h, ?_, by omega, Or.inl rfl, fun t ht => ⟨h4 t ht, fun hn => h5 t (Or.inl hn)⟩⟩
      · show Poly.SetExteriorRing grow m poly r = _
        unfold Poly.SetExteriorRing
        rw [if_neg h0, show m.set poly 0 r = .ok m' from h1]; rfl
      · rw [h2]
        cases hr : m.read poly with
        | nil => rw [hr] at hl; simp at hl; omega
        | cons a l => rfl

/-- **C130 (edits), partial.** Any sequence of `SetExteriorRing` and `AddInteriorRing` (`AddPolygon` for multi-polygons) calls on a polygon runs
without a panic and leaves the polygon with the rings that the same edits of a plain list give; polygons kept
in other arrays are as before.  Missing: copies that share the array, see below. -/
theorem C130_edits_partial (es : List (RingEdit ρ)) : ∀ (m : Mem ρ) (poly : Slice), m.Valid poly →
    ∃ m' poly', editPolygon grow m poly es = .ok (m', poly') ∧ m'.Valid poly' ∧ m'.read poly' = editList es (m.read poly) ∧
      ∀ t, m.Valid t → t.arr ≠ poly.arr → t.arr < m.arrs.length → m'.read t = m.read t := by
  induction es with
  | nil => intro m poly h; exact ⟨m, poly, rfl, h, rfl, fun t _ _ _ => rfl⟩
  | cons e es ih =>
    intro m poly h
    obtain ⟨m1, p1, e1, v1, r1, l1, a1, f1⟩ := ringEdit_step grow e m poly h
    obtain ⟨m2, p2, e2, v2, r2, f2⟩ := ih m1 p1 v1
    refine ⟨m2, p2, ?_, v2, ?_, fun t ht hn hlt => ?_⟩
    · unfold editPolygon; rw [e1]; exact e2
    · rw [r2, r1]; rfl
    · rw [f2 t (f1 t ht).1 ?_ (by omega), (f1 t ht).2 hn]
      rcases a1 with a | a
      · rwa [a]
      · omega

/-- **C130 (reads).** `GetExteriorRing` is the first ring (nil without rings) and `GetInteriorRing` gives the rings after the first, in
order; neither panics. -/
theorem C130_reads (m : Mem ρ) (poly : Slice) (h : m.Valid poly) :
    Poly.GetExteriorRing m poly = .ok ((m.read poly).headD default) ∧
    ∃ inner, Poly.GetInteriorRing poly = .ok inner ∧ m.read inner = (m.read poly).tail := by
  have hl := h.length
  by_cases h0 : poly.len = 0
  · have hr : m.read poly = [] := List.length_eq_zero_iff.1 (by omega)
    refine ⟨?_, Slice.nil, ?_, ?_⟩
    · unfold Poly.GetExteriorRing; rw [if_pos h0, hr]; rfl
    · unfold Poly.GetInteriorRing; rw [if_pos h0]
    · rw [hr]; simp [Mem.read, Slice.nil]
  · obtain ⟨t, e, -, -, hr⟩ := Mem.sub_spec h 1 poly.len (by omega) h.len
    refine ⟨?_, t, ?_, ?_⟩
    · unfold Poly.GetExteriorRing
      rw [if_neg h0]
      cases hr : m.read poly with
      | nil => rw [hr] at hl; simp at hl; omega
      | cons a l => exact get_ok 0 a (by rw [hr]; rfl)
    · unfold Poly.GetInteriorRing; rw [if_neg h0]; exact e
    · rw [hr (Nat.le_refl _), List.take_of_length_le (by omega), List.drop_one]

/-- **C130 (after a set).** The ring set last is the one read, and the interior rings are the ones the polygon had. -/
theorem C130_set_get (m : Mem ρ) (poly : Slice) (h : m.Valid poly) (r : ρ) :
    ∃ m' poly' inner, Poly.SetExteriorRing grow m poly r = .ok (m', poly') ∧ Poly.GetExteriorRing m' poly' = .ok r ∧
      Poly.GetInteriorRing poly' = .ok inner ∧ m'.read inner = (m.read poly).tail := by
  obtain ⟨m', p', e, v, hr, -, -, -⟩ := ringEdit_step grow (.setExterior r) m poly h
  obtain ⟨h1, inner, h2, h3⟩ := C130_reads m' p' v
  have hl : m'.read p' = r :: (m.read poly).tail := by
    rw [hr]; cases m.read poly <;> rfl
  refine ⟨m', p', inner, e, ?_, h2, ?_⟩
  · rw [h1, hl]; rfl
  · rw [h3, hl]; rfl

/-- **C130 is false for copies (SetExteriorRing).** A copy `q := *p` of a polygon with rings gets the new exterior ring too. -/
theorem C130_copy_set_false (m : Mem ρ) (poly : Slice) (h : m.Valid poly) (h0 : m.read poly ≠ []) (r : ρ) :
    ∃ m' poly', Poly.SetExteriorRing grow m poly r = .ok (m', poly') ∧ m'.read poly = r :: (m.read poly).tail := by
  have hl := h.length
  have h1 : poly.len ≠ 0 := fun e => h0 (List.length_eq_zero_iff.1 (by omega))
  obtain ⟨m', e, hr, -⟩ := Mem.set_spec h 0 (by omega) r
  refine ⟨m', poly, ?_, ?_⟩
  · unfold Poly.SetExteriorRing; rw [if_neg h1, show m.set poly 0 r = .ok m' from e]; rfl
  · rw [hr]
    cases hm : m.read poly with
    | nil => exact absurd hm h0
    | cons a l => rfl

/-- **C130 is false for copies (AddInteriorRing).** When the array of a polygon has room, adding a ring to a copy of it replaces the
ring that was added to the original. -/
theorem C130_copy_add_false (m : Mem ρ) (poly : Slice) (h : m.Valid poly) (hroom : poly.len < poly.cap) (a b : ρ) :
    (Poly.AddInteriorRing grow m poly a).1.read (Poly.AddInteriorRing grow m poly a).2 = m.read poly ++ [a] ∧
    (Poly.AddInteriorRing grow (Poly.AddInteriorRing grow m poly a).1 poly b).1.read (Poly.AddInteriorRing grow m poly a).2 = m.read poly ++ [b] := by
  obtain ⟨h1, h2, h3, h4⟩ := Mem.append_spec grow h [a]
  refine ⟨h1, ?_⟩
  obtain ⟨k1, -⟩ := Mem.append_spec grow (h3 poly h) [b]
  have e1 : (m.append grow poly [a]).2 = { poly with len := poly.len + 1 } := by
    unfold Mem.append; rw [if_pos (by simp; omega)]; rfl
  have e2 : ((m.append grow poly [a]).1.append grow poly [b]).2 = { poly with len := poly.len + 1 } := by
    unfold Mem.append; rw [if_pos (by simp; omega)]; rfl
  unfold Poly.AddInteriorRing
  rw [e2] at k1
  rw [e1, k1, h4 poly h fun _ => Or.inl (Nat.le_refl _)]

end

/-- C130 on a concrete polygon with room for one more ring -/
example : (match editPolygon (fun _ _ => 1) (⟨[[7, 8, 0]]⟩ : Mem Nat) ⟨0, 0, 2, 3⟩ [.addInterior 9, .setExterior 5, .addInterior 6] with
    | .ok (m, p) => m.read p | .error _ => []) = [5, 8, 9, 6] := by decide +kernel

end GoGeo
