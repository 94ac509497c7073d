import Verif.Props.Relation
import Verif.Props.Mbr
import Verif.Geo.Accessors

/-!
# Points on lines: C129, and the centroid of a ring: C34
-/
set_option linter.unusedSectionVars false

namespace GoGeo
open GoFloat Spec

theorem edges_eq_zip {α : Type} : ∀ l : List α, edges l = l.zip l.tail
  | [] => rfl
  | [_] => rfl
  | a :: b :: l => by
    have := edges_eq_zip (b :: l)
    simp only [edges, List.tail_cons, List.zip_cons_cons] at this ⊢
    rw [this]

section
variable {F : Type} [GoFloat F] [FloatOrd F]

theorem onSegment_zero {a b p : F × F} (h : IsPointOnSegment (F := F) ⟨a.1, a.2⟩ ⟨b.1, b.2⟩ ⟨p.1, p.2⟩ = true) : Same p.1 (lit 0) ∧ Same p.2 (lit 0) := by
  unfold IsPointOnSegment at h
  split at h
  · rename_i hc
    rw [Bool.and_eq_true] at hc
    have h2 := hc.2
    simp only [IsPointInBox, Bool.and_eq_true] at h2
    obtain ⟨⟨⟨h1, h2⟩, h3⟩, h4⟩ := h2
    exact ⟨⟨h2, h1⟩, h4, h3⟩
  · cases h

/-- **C129 (float64).** `IsPointOnLine` is never true of a point other than the origin, for any line whatsoever. -/
theorem C129_only_origin (p : Point F) (line : List (Point F)) (h : IsPointOnLine p line = true) : Same p.X (lit 0) ∧ Same p.Y (lit 0) := by
  cases line with
  | nil => exact absurd h (by simp [IsPointOnLine])
  | cons a rest =>
    simp only [IsPointOnLine, Bool.or_eq_true, List.any_eq_true] at h
    rcases h with ⟨e, _, h⟩ | h
    · exact onSegment_zero (a := (e.1.X, e.1.Y)) (b := (e.2.X, e.2.Y)) (p := (p.X, p.Y)) h
    · exact onSegment_zero (a := (a.X, a.Y)) (b := (((a :: rest).getLast (by simp)).X, ((a :: rest).getLast (by simp)).Y)) (p := (p.X, p.Y)) h
end

section
variable {K : Type} [Field K] [LinearOrder K] [IsStrictOrderedRing K]

/-- **C129 (what it decides).** In exact arithmetic: the point is the origin, and it is in line with two consecutive points or with the first
and the last. -/
theorem C129_exact (p a : K × K) (rest : List (K × K)) :
    IsPointOnLine (pt p) ((a :: rest).map pt) = true ↔ p = (0, 0) ∧
      ((∃ e ∈ (a :: rest).zip rest, turn e.1 e.2 p = 0) ∨ turn a ((a :: rest).getLast (by simp)) p = 0) := by
  have hlast : ∀ h, (pt a :: rest.map pt).getLast h = pt ((a :: rest).getLast (by simp)) := by
    intro h
    exact List.getLast_map (f := pt) (l := a :: rest) (by simp)
  rw [List.map_cons]
  simp only [IsPointOnLine, Bool.or_eq_true, List.any_eq_true, hlast, isPointOnSegment_fin]
  rw [← List.map_cons, edges_map, edges_eq_zip, List.tail_cons]
  constructor
  · rintro (⟨e, he, h⟩ | h)
    · obtain ⟨d, hd, rfl⟩ := List.mem_map.1 he
      rw [Prod.map_fst, Prod.map_snd, isPointOnSegment_fin] at h
      exact ⟨h.1, Or.inl ⟨d, hd, h.2⟩⟩
    · exact ⟨h.1, Or.inr h.2⟩
  · rintro ⟨h0, ⟨d, hd, h⟩ | h⟩
    · refine Or.inl ⟨_, List.mem_map.2 ⟨d, hd, rfl⟩, ?_⟩
      rw [Prod.map_fst, Prod.map_snd, isPointOnSegment_fin]
      exact ⟨h0, h⟩
    · exact Or.inr ⟨h0, h⟩

/-- **C129 (closed lines).** On a closed line the only point reported is the origin, and the origin always is. -/
theorem C129_closed (p a : K × K) (mid : List (K × K)) :
    IsPointOnLine (pt p) ((a :: (mid ++ [a])).map pt) = true ↔ p = (0, 0) := by
  rw [C129_exact]
  refine ⟨fun h => h.1, fun h => ⟨h, Or.inr ?_⟩⟩
  rw [show (a :: (mid ++ [a])).getLast (by simp) = a by simp]
  simp [turn]

/-- **C129 (partial).** For the origin and a line none of whose segments leaves it outside on its own line, and
whose ends are not in line with it, the answer is right.
Missing: every other point, the origin beyond the ends of a segment, and lines whose ends are in line with it. -/
theorem C129_onLine_partial (a : K × K) (rest : List (K × K))
    (h : ∀ e ∈ (a :: rest).zip rest, turn e.1 e.2 (0, 0) = 0 → OnSeg e.1 e.2 (0, 0)) (h0 : turn a ((a :: rest).getLast (by simp)) (0, 0) ≠ 0) :
    IsPointOnLine (pt (0, 0)) ((a :: rest).map pt) = true ↔ ∃ e ∈ (a :: rest).zip rest, OnSeg e.1 e.2 (0, 0) := by
  rw [C129_exact]
  constructor
  · rintro ⟨-, ⟨e, he, h1⟩ | h1⟩
    · exact ⟨e, he, h e he h1⟩
    · exact absurd h1 h0
  · rintro ⟨e, he, t, -, -, ht⟩
    refine ⟨rfl, Or.inl ⟨e, he, ?_⟩⟩
    rw [ht, turn_along, turn_self_left, turn_self_right]; ring

/-- **C34 (LinearCentroid).** The centroid of a closed ring of non-zero area, given as a ring, is the area-weighted mean of the
centroids of the triangles of a fan from any point. -/
theorem C34_linearCentroid (o : K × K) (c : List (K × K)) (h : fanArea o c ≠ 0) :
    LinearCentroid (ring c) = pt (fanMomentX o c / fanArea o c, fanMomentY o c / fanArea o c) := by
  have := C34_centroid_fan o c [] h
  exact Except.ok.inj this

end

/-- **C129 is false.** In float64 `IsPointOnLine` denies that (1,1) is on the line from (0,0) to (2,2), and even that a line contains its own
ends; and it reports the origin on a line that passes it on the far side, because the first and the last point are joined. -/
theorem C129_false :
    IsPointOnLine (F := Float) ⟨1, 1⟩ [⟨0, 0⟩, ⟨2, 2⟩] = false ∧
    IsPointOnLine (F := Float) ⟨2, 2⟩ [⟨0, 0⟩, ⟨2, 2⟩] = false ∧
    IsPointOnLine (F := Float) ⟨0, 0⟩ [⟨-1, 0⟩, ⟨0.5, 5⟩, ⟨1, 0⟩] = true := by decide +kernel

/-- C129 for a line through the origin -/
example : IsPointOnLine (pt ((0 : ℚ), (0 : ℚ))) ([(-1, -2), (1, 2), (5, 0)].map pt) = true := by decide +kernel

end GoGeo
