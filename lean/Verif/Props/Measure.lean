import Verif.Geo.MeasureLemmas
import Verif.Props.Box
import Verif.Props.Line

/-!
# Properties of areas and centroids: C23, C31 – C34
-/
set_option linter.unusedSectionVars false

namespace GoGeo
open GoFloat Spec

section
variable {K : Type} [Field K] [LinearOrder K] [IsStrictOrderedRing K]

theorem reverse_ring (c : List (K × K)) : ∃ c', (ring c).reverse = ring c' ∧
    (∀ f, cycSum f c' = cycSum (fun a b => f b a) c) := by
  cases c with
  | nil => exact ⟨[], rfl, fun f => by simp [cycSum]⟩
  | cons a c =>
    refine ⟨a :: c.reverse, by simp [ring], fun f => ?_⟩
    have h := cycSum_reverse f (a :: c)
    rw [List.reverse_cons, ← cycSum_rotate f (c.reverse ++ [a]) c.reverse.length, List.rotate_append_length_eq] at h
    exact h

/-! ## C31 -/

/-- **C31 (reversal).** Reversing a closed ring does not change its area. -/
theorem C31_area_reverse (c : List (K × K)) (holes : List (List (Point (XR K)))) :
    GetArea (.polygon ((ring c).reverse :: holes)) = GetArea (.polygon (ring c :: holes)) := by
  obtain ⟨c', h, hs⟩ := reverse_ring c
  show GoFloat.abs (relativeArea _) = GoFloat.abs (relativeArea _)
  rw [h, relativeArea_ring, relativeArea_ring, hs, cycSum_congr (g := fun a b => -cross a b) (by intro a b; simp only [cross]; ring),
    cycSum_neg, XR.fin_abs, XR.fin_abs, neg_div, abs_neg]

/-- **C31 (orientation).** Reversing a closed ring of non-zero area flips `IsCCW`. -/
theorem C31_ccw_reverse (c : List (K × K)) (holes : List (List (Point (XR K))))
    (h : GetArea (.polygon (ring c :: holes)) ≠ .fin 0) :
    IsCCW ((ring c).reverse :: holes) = !IsCCW (ring c :: holes) := by
  have h0 : cycSum cross c / 2 ≠ 0 := by
    intro e
    apply h
    show GoFloat.abs (relativeArea _) = _
    rw [relativeArea_ring, XR.fin_abs, e, abs_zero]
  obtain ⟨c', e, hs⟩ := reverse_ring c
  unfold IsCCW
  rw [e, relativeArea_ring, relativeArea_ring, hs, cycSum_congr (g := fun a b => -cross a b) (by intro a b; simp only [cross]; ring),
    cycSum_neg, neg_div, XR.fin_lit, Nat.cast_zero]
  show decide (0 < -(cycSum cross c / 2)) = !decide (0 < cycSum cross c / 2)
  rcases lt_or_gt_of_ne h0 with h1 | h1
  · rw [decide_eq_true (by linarith), decide_eq_false (by linarith)]; rfl
  · rw [decide_eq_false (by linarith), decide_eq_true h1]; rfl

/-- **C31 (start vertex).** Starting the ring at another corner changes neither area nor orientation. -/
theorem C31_area_rotate (c : List (K × K)) (k : ℕ) (holes : List (List (Point (XR K)))) :
    GetArea (.polygon (ring (c.rotate k) :: holes)) = GetArea (.polygon (ring c :: holes)) ∧
    IsCCW (ring (c.rotate k) :: holes) = IsCCW (ring c :: holes) := by
  have h : relativeArea (ring (c.rotate k) :: holes) = relativeArea (ring c :: holes) := by
    rw [relativeArea_ring, relativeArea_ring, cycSum_rotate]
  exact ⟨by show GoFloat.abs _ = GoFloat.abs _; rw [h], by unfold IsCCW; rw [h]⟩

/-- **C31 (translation).** Translating a ring changes neither area nor orientation. -/
theorem C31_area_translate (c : List (K × K)) (v : K × K) (holes : List (List (Point (XR K)))) :
    GetArea (.polygon (ring (c.map (· + v)) :: holes)) = GetArea (.polygon (ring c :: holes)) ∧
    IsCCW (ring (c.map (· + v)) :: holes) = IsCCW (ring c :: holes) := by
  have h : relativeArea (ring (c.map (· + v)) :: holes) = relativeArea (ring c :: holes) := by
    rw [relativeArea_ring, relativeArea_ring, cycSum_map, ← cross_fan (-v) c]
    congr 2
    apply cycSum_congr
    intro a b
    simp only [cross, turn, Prod.fst_add, Prod.snd_add, Prod.fst_neg, Prod.snd_neg]; ring
  exact ⟨by show GoFloat.abs _ = GoFloat.abs _; rw [h], by unfold IsCCW; rw [h]⟩

/-- C31 on a concrete ring: an L-shaped hexagon of area 3, counter-clockwise. -/
example : GetArea (.polygon [ring [((0 : ℚ), (0 : ℚ)), (2, 0), (2, 1), (1, 1), (1, 2), (0, 2)]]) = .fin 3 ∧
    IsCCW [ring [((0 : ℚ), (0 : ℚ)), (2, 0), (2, 1), (1, 1), (1, 2), (0, 2)]] = true := by decide +kernel

/-! ## C32 -/

/-- **C32 (any ring).** The area of a closed ring is the absolute value of the sum of the signed areas
of the triangles of a fan from any point `o`; `IsCCW` is the sign of that sum. -/
theorem C32_area_fan (o : K × K) (c : List (K × K)) (holes : List (List (Point (XR K)))) :
    GetArea (.polygon (ring c :: holes)) = .fin |fanArea o c| ∧
    (IsCCW (ring c :: holes) = true ↔ 0 < fanArea o c) := by
  have h : relativeArea (ring c :: holes) = .fin (fanArea o c) := by
    rw [relativeArea_ring, ← cross_fan o]
    unfold fanArea
    rw [cycSum_congr (f := fun p q => turn o p q / 2) (g := fun p q => (1 / 2) * turn o p q) (by intros; ring), cycSum_mul]
    congr 1; ring
  constructor
  · show GoFloat.abs (relativeArea _) = _; rw [h, XR.fin_abs]
  · unfold IsCCW; rw [h, XR.fin_lit, Nat.cast_zero]
    show decide _ = true ↔ _
    simp

/-- **C32 (triangle).** The area of a triangle is half the absolute cross product of two sides. -/
theorem C32_triangle (p q r : K × K) :
    GetArea (.polygon [ring [p, q, r]]) = .fin (|(q.1 - p.1) * (r.2 - p.2) - (q.2 - p.2) * (r.1 - p.1)| / 2) := by
  rw [(C32_area_fan p [p, q, r] []).1]
  congr 1
  have : fanArea p [p, q, r] = ((q.1 - p.1) * (r.2 - p.2) - (q.2 - p.2) * (r.1 - p.1)) / 2 := by
    simp [fanArea, cycSum, turn]
  rw [this, abs_div, abs_two]

/-- **C32 (rectangle).** Width times height. -/
theorem C32_rectangle (x y w h : K) (hw : 0 ≤ w) (hh : 0 ≤ h) :
    GetArea (.polygon [ring [(x, y), (x + w, y), (x + w, y + h), (x, y + h)]]) = .fin (w * h) := by
  rw [(C32_area_fan (x, y) _ []).1]
  congr 1
  have : fanArea (x, y) [(x, y), (x + w, y), (x + w, y + h), (x, y + h)] = w * h := by
    simp [fanArea, cycSum, turn]
  rw [this, abs_of_nonneg (mul_nonneg hw hh)]

/-- **C32 (multipolygon).** The area of a multipolygon is the sum of the areas of its parts. -/
theorem C32_multi (ps : List (List (K × K))) (o : K × K) :
    GetArea (.multiPolygon (ps.map fun c => [ring c])) = .fin ((ps.map fun c => |fanArea o c|).sum) := by
  show (ps.map fun c => [ring c]).foldl _ (lit 0) = _
  rw [XR.fin_lit, Nat.cast_zero]
  have : ∀ (ps : List (List (K × K))) (s : K), (ps.map fun c => [ring c]).foldl (fun s v => s + polyArea v) (XR.fin s) =
      .fin (s + (ps.map fun c => |fanArea o c|).sum) := by
    intro ps
    induction ps with
    | nil => intro s; simp
    | cons c ps ih =>
      intro s
      rw [List.map_cons, List.foldl_cons, show polyArea [ring c] = .fin |fanArea o c| from (C32_area_fan o c []).1, XR.fin_add, ih,
        List.map_cons, List.sum_cons, add_assoc]
  rw [this, zero_add]

end

section
variable {F K : Type} [GoFloat F] [Field K] [LinearOrder K] [IsStrictOrderedRing K] [V : FloatVal F K]
open FloatVal

include V in
theorem abs_nonneg_or_nan (a : F) : isNaN (abs a) = true ∨ le (lit 0) (abs a) = true := by
  rw [val_isNaN, val_le, val_lit0, val_abs]
  cases val a <;> simp [XR.abs, XR.isNaN, XR.le]
  split <;> rename_i h
  · linarith
  · exact not_lt.1 h

include V in
theorem add_nonneg_or_nan (a b : F) (ha : isNaN a = true ∨ le (lit 0) a = true) (hb : isNaN b = true ∨ le (lit 0) b = true) :
    isNaN (a + b) = true ∨ le (lit 0) (a + b) = true := by
  rw [val_isNaN, val_le, val_lit0] at *
  rw [val_add, rnd_isNaN]
  have key : XR.isNaN (XR.add (val a) (val b)) = true ∨ XR.le (.fin 0) (XR.add (val a) (val b)) = true := by
    revert ha hb
    cases val a <;> cases val b <;> simp [XR.add, XR.isNaN, XR.le]
    exact fun h h' => add_nonneg h h'
  rcases key with h | h
  · exact Or.inl h
  · exact Or.inr (zero_le_rnd h)

include V in
/-- **C32 (sign).** No area is negative — for float64 as for exact arithmetic, whatever the coordinates. -/
theorem C32_area_nonneg (g : Geometry F) : lt (GetArea g) (lit 0) = false := by
  have key : isNaN (GetArea g) = true ∨ le (lit 0) (GetArea g) = true := by
    have h0 : isNaN (lit 0 : F) = true ∨ le (lit 0) (lit 0 : F) = true :=
      Or.inr (FloatOrd.le_refl _ (FloatOrd.dec_not_nan 0 0))
    cases g with
    | polygon rs => exact abs_nonneg_or_nan _
    | multiPolygon ps =>
      show isNaN (ps.foldl _ (lit 0)) = true ∨ le (lit 0) (ps.foldl _ (lit 0)) = true
      have : ∀ (ps : List (List (List (Point F)))) (s : F), (isNaN s = true ∨ le (lit 0) s = true) →
          (isNaN (ps.foldl (fun s v => s + polyArea v) s) = true ∨ le (lit 0) (ps.foldl (fun s v => s + polyArea v) s) = true) := by
        intro ps
        induction ps with
        | nil => intro s hs; exact hs
        | cons p ps ih => intro s hs; exact ih _ (add_nonneg_or_nan _ _ hs (abs_nonneg_or_nan _))
      exact this ps _ h0
    | _ => exact h0
  cases h : lt (GetArea g) (lit 0)
  · rfl
  · obtain ⟨h1, h2, h3⟩ := lt_iff'.1 h
    rcases key with k | k
    · rw [h1] at k; cases k
    · rw [h3] at k; cases k

end

/-! ## C33 -/

/-- **C33, exact.** `GetArea` of a polygon is the area of its exterior ring: holes are not looked at. -/
theorem C33_holes_ignored {F : Type} [GoFloat F] (ext : List (Point F)) (holes : List (List (Point F))) :
    GetArea (.polygon (ext :: holes)) = GetArea (.polygon [ext]) := rfl

/-- **C33 is false**: a 3×3 square with a 1×1 hole has area 9, not 8. -/
theorem C33_holes_false :
    GetArea (.polygon [[⟨0, 0⟩, ⟨3, 0⟩, ⟨3, 3⟩, ⟨0, 3⟩, ⟨0, 0⟩], [⟨1, 1⟩, ⟨1, 2⟩, ⟨2, 2⟩, ⟨2, 1⟩, ⟨1, 1⟩]]) = (9 : Float) ∧
    GetArea (.polygon [[⟨1, 1⟩, ⟨1, 2⟩, ⟨2, 2⟩, ⟨2, 1⟩, ⟨1, 1⟩]]) = (1 : Float) := by
  constructor <;> decide +kernel

/-! ## C34 -/
section
variable {K : Type} [Field K] [LinearOrder K] [IsStrictOrderedRing K]

/-- **C34 (what it is).** The centroid of a closed ring of non-zero area is the area-weighted mean of the
centroids of the triangles of a fan from any point `o`. -/
theorem C34_centroid_fan (o : K × K) (c : List (K × K)) (holes : List (List (Point (XR K)))) (h : fanArea o c ≠ 0) :
    Centroid (.polygon (ring c :: holes)) = .ok (pt (fanMomentX o c / fanArea o c, fanMomentY o c / fanArea o c)) := by
  have ha : fanArea o c = cycSum cross c / 2 := by
    rw [← cross_fan o]
    unfold fanArea
    rw [cycSum_congr (f := fun p q => turn o p q / 2) (g := fun p q => (1 / 2) * turn o p q) (by intros; ring), cycSum_mul]
    ring
  have hx : fanMomentX o c = momX c / 6 := by
    rw [← momX_fan o]
    unfold fanMomentX
    rw [cycSum_congr (f := fun p q => turn o p q / 2 * ((o.1 + p.1 + q.1) / 3)) (g := fun p q => (1 / 6) * (turn o p q * (o.1 + p.1 + q.1)))
      (by intros; ring), cycSum_mul]
    ring
  have hy : fanMomentY o c = momY c / 6 := by
    rw [← momY_fan o]
    unfold fanMomentY
    rw [cycSum_congr (f := fun p q => turn o p q / 2 * ((o.2 + p.2 + q.2) / 3)) (g := fun p q => (1 / 6) * (turn o p q * (o.2 + p.2 + q.2)))
      (by intros; ring), cycSum_mul]
    ring
  have h0 : cycSum cross c ≠ 0 := by intro e; apply h; rw [ha, e]; simp
  show Except.ok (polyCentroid _) = _
  rw [polyCentroid_ring c holes h0, hx, hy, ha]
  congr 3 <;> field_simp <;> ring

/-- **C34 (translation).** The centroid moves with the ring. -/
theorem C34_centroid_translate (c : List (K × K)) (v : K × K) (holes : List (List (Point (XR K)))) (h : fanArea 0 c ≠ 0) :
    ∃ g : K × K, Centroid (.polygon (ring c :: holes)) = .ok (pt g) ∧
      Centroid (.polygon (ring (c.map (· + v)) :: holes)) = .ok (pt (g + v)) := by
  have e : ∀ p q : K × K, turn (0 + v) (p + v) (q + v) = turn 0 p q := by
    intro p q; simp only [turn, Prod.fst_add, Prod.snd_add]; ring
  have ea : fanArea (0 + v) (c.map (· + v)) = fanArea 0 c := by
    unfold fanArea; rw [cycSum_map]; simp only [e]
  have ex : fanMomentX (0 + v) (c.map (· + v)) = fanMomentX 0 c + v.1 * fanArea 0 c := by
    unfold fanMomentX fanArea; rw [cycSum_map, ← cycSum_mul, ← cycSum_add]
    apply cycSum_congr; intro p q; simp only [e, Prod.fst_add]; ring
  have ey : fanMomentY (0 + v) (c.map (· + v)) = fanMomentY 0 c + v.2 * fanArea 0 c := by
    unfold fanMomentY fanArea; rw [cycSum_map, ← cycSum_mul, ← cycSum_add]
    apply cycSum_congr; intro p q; simp only [e, Prod.snd_add]; ring
  refine ⟨_, C34_centroid_fan 0 c holes h, ?_⟩
  rw [C34_centroid_fan (0 + v) _ holes (by rw [ea]; exact h), ea, ex, ey]
  congr 2
  refine Prod.ext ?_ ?_ <;> simp only [Prod.fst_add, Prod.snd_add] <;> field_simp

/-- **C34 (orientation and start).** The centroid does not depend on the orientation or on the start vertex. -/
theorem C34_centroid_invariant (c : List (K × K)) (k : ℕ) (holes : List (List (Point (XR K)))) (h : fanArea 0 c ≠ 0) :
    Centroid (.polygon ((ring c).reverse :: holes)) = Centroid (.polygon (ring c :: holes)) ∧
    Centroid (.polygon (ring (c.rotate k) :: holes)) = Centroid (.polygon (ring c :: holes)) := by
  constructor
  · obtain ⟨c', e, hs⟩ := reverse_ring c
    have ea : fanArea 0 c' = -fanArea 0 c := by
      unfold fanArea; rw [hs, ← cycSum_neg]; apply cycSum_congr; intro p q; simp only [turn]; ring
    have ex : fanMomentX 0 c' = -fanMomentX 0 c := by
      unfold fanMomentX; rw [hs, ← cycSum_neg]; apply cycSum_congr; intro p q; simp only [turn]; ring
    have ey : fanMomentY 0 c' = -fanMomentY 0 c := by
      unfold fanMomentY; rw [hs, ← cycSum_neg]; apply cycSum_congr; intro p q; simp only [turn]; ring
    rw [e, C34_centroid_fan 0 c holes h, C34_centroid_fan 0 c' holes (by rw [ea]; exact neg_ne_zero.2 h), ea, ex, ey,
      neg_div_neg_eq, neg_div_neg_eq]
  · have ea : fanArea 0 (c.rotate k) = fanArea 0 c := cycSum_rotate _ _ _
    rw [C34_centroid_fan 0 c holes h, C34_centroid_fan 0 _ holes (by rw [ea]; exact h), ea]
    congr 2
    unfold fanMomentX fanMomentY
    rw [cycSum_rotate, cycSum_rotate]

/-- **C34 (triangle).** The centroid of a triangle is the mean of its corners. -/
theorem C34_centroid_triangle (p q r : K × K) (h : turn p q r ≠ 0) :
    Centroid (.polygon [ring [p, q, r]]) = .ok (pt ((p.1 + q.1 + r.1) / 3, (p.2 + q.2 + r.2) / 3)) := by
  have ea : fanArea p [p, q, r] = turn p q r / 2 := by simp [fanArea, cycSum, turn]
  have ex : fanMomentX p [p, q, r] = turn p q r / 2 * ((p.1 + q.1 + r.1) / 3) := by simp [fanMomentX, cycSum, turn]
  have ey : fanMomentY p [p, q, r] = turn p q r / 2 * ((p.2 + q.2 + r.2) / 3) := by simp [fanMomentY, cycSum, turn]
  have h0 : fanArea p [p, q, r] ≠ 0 := by rw [ea]; exact div_ne_zero h (by norm_num)
  rw [C34_centroid_fan p _ [] h0, ex, ey, ea, mul_div_cancel_left₀ _ (ea ▸ h0), mul_div_cancel_left₀ _ (ea ▸ h0)]

theorem points_fold (f : K × K → K) (g : Point (XR K) → XR K) (hg : ∀ p, g (pt p) = .fin (f p)) (ps : List (K × K)) (s : K) :
    (ps.map pt).foldl (fun s p => s + g p) (XR.fin s) = .fin (s + (ps.map f).sum) := by
  induction ps generalizing s with
  | nil => simp
  | cons p ps ih => rw [List.map_cons, List.foldl_cons, hg, XR.fin_add, ih, List.map_cons, List.sum_cons, add_assoc]

/-- **C34 (points).** The centroid of points is their mean. -/
theorem C34_centroid_points (ps : List (K × K)) (h : ps ≠ []) :
    Centroid (.multiPoint (ps.map pt)) = .ok (pt ((ps.map Prod.fst).sum / ps.length, (ps.map Prod.snd).sum / ps.length)) := by
  have hl : (ps.length : K) ≠ 0 := by
    have : 0 < ps.length := List.length_pos_iff.2 h
    exact_mod_cast this.ne'
  show Except.ok (pointsCenteriod _) = _
  unfold pointsCenteriod
  rw [if_neg (by simp [h]), XR.fin_lit, Nat.cast_zero, points_fold Prod.fst Point.X (fun _ => rfl), points_fold Prod.snd Point.Y (fun _ => rfl),
    zero_add, zero_add, List.length_map, XR.fin_ofInt]
  rw [XR.fin_div _ _ (by exact_mod_cast hl), XR.fin_div _ _ (by exact_mod_cast hl)]
  simp [pt]

theorem closeRing_ring (a : K × K) (c : List (K × K)) : closeRing (ring (a :: c)) = some (ring (a :: c)) := by
  have h : ring (a :: c) = pt a :: (c.map pt ++ [pt a]) := by simp [ring]
  rw [h]
  cases hc : c.map pt ++ [pt a] with
  | nil => simp at hc
  | cons b rest =>
    unfold closeRing
    simp only []
    have hl : (b :: rest).getLast (by simp) = pt a := by
      have : (b :: rest).getLast? = some (pt a) := by rw [← hc, List.getLast?_concat]
      rw [List.getLast?_eq_some_getLast (by simp)] at this
      exact Option.some.inj this
    rw [hl, if_pos]
    unfold Point.Equal COORDPRESION pt
    rw [XR.fin_sub, XR.fin_sub, XR.fin_abs, XR.fin_abs, XR.fin_dec, XR.fin_lt, XR.fin_lt, sub_self, sub_self, abs_zero]
    simp

/-- **C34 (closed lines).** A closed line has the centroid of the ring it draws; and a line of fewer than
two points makes `Centroid` panic. -/
theorem C34_centroid_line (a : K × K) (c : List (K × K)) :
    Centroid (.lineString (ring (a :: c))) = Centroid (.polygon [ring (a :: c)]) := by
  show lineCentroid _ = Except.ok (polyCentroid _)
  unfold lineCentroid
  rw [closeRing_ring]

theorem C34_short_line_panics {F : Type} [GoFloat F] (l : List (Point F)) (h : l.length < 2) :
    Centroid (.lineString l) = .error .nilDeref := by
  match l, h with
  | [], _ => rfl
  | [_], _ => rfl

/-- C34 on a concrete ring: the L-shaped hexagon. -/
example : fanArea 0 [((0 : ℚ), (0 : ℚ)), (2, 0), (2, 1), (1, 1), (1, 2), (0, 2)] ≠ 0 ∧
    Centroid (.polygon [ring [((0 : ℚ), (0 : ℚ)), (2, 0), (2, 1), (1, 1), (1, 2), (0, 2)]]) = .ok (pt (5 / 6, 5 / 6)) := by decide +kernel

/-! ## C23 -/

/-- **C23 is false (area)**: for every box that is not thinner than the tolerance, over exact arithmetic,
the polygon of the box has half the box's area, and its ring is not closed. -/
theorem C23_area_false (x₀ y₀ x₁ y₁ : K) (hx : (1 : K) / 10 ^ 6 ≤ x₁ - x₀) (hy : (1 : K) / 10 ^ 6 ≤ y₁ - y₀) :
    let b : Box (XR K) := ⟨.fin x₀, .fin y₀, .fin x₁, .fin y₁⟩
    GetArea (BoxToGeo b) = .fin ((x₁ - x₀) * (y₁ - y₀) / 2) ∧ b.Size = .fin ((x₁ - x₀) * (y₁ - y₀)) ∧
    ∃ p q r s, BoxToGeo b = .polygon [[p, q, r, s]] ∧ p.Equal s = false := by
  intro b
  have t : (0 : K) < 1 / 10 ^ 6 := by positivity
  have hx' : lt (GoFloat.abs (XR.fin x₀ - XR.fin x₁)) (COORDPRESION : XR K) = false := by
    unfold COORDPRESION
    rw [XR.fin_sub, XR.fin_abs, XR.fin_dec, XR.fin_lt, abs_sub_comm, abs_of_nonneg (by linarith)]
    simpa using hx
  have hy' : lt (GoFloat.abs (XR.fin y₀ - XR.fin y₁)) (COORDPRESION : XR K) = false := by
    unfold COORDPRESION
    rw [XR.fin_sub, XR.fin_abs, XR.fin_dec, XR.fin_lt, abs_sub_comm, abs_of_nonneg (by linarith)]
    simpa using hy
  have hb : BoxToGeo b = .polygon [[pt (x₀, y₀), pt (x₀, y₁), pt (x₁, y₁), pt (x₁, y₀)]] := by
    unfold BoxToGeo Point.Equal
    simp only [b, hx', hy', Bool.and_false, Bool.false_and, Bool.false_eq_true, if_false, pt]
  refine ⟨?_, ?_, _, _, _, _, hb, ?_⟩
  · rw [hb]
    have := relativeArea_corners [(x₀, y₀), (x₀, y₁), (x₁, y₁)] (pt (x₁, y₀)) []
    show GoFloat.abs (relativeArea [[pt (x₀, y₀), pt (x₀, y₁), pt (x₁, y₁), pt (x₁, y₀)]]) = _
    simp only [List.map_cons, List.map_nil, List.cons_append, List.nil_append] at this
    rw [this, XR.fin_abs]
    congr 1
    have e : cycSum cross [(x₀, y₀), (x₀, y₁), (x₁, y₁)] = -((x₁ - x₀) * (y₁ - y₀)) := by
      simp [cycSum, cross]; ring
    rw [e, neg_div, abs_neg, abs_of_nonneg]
    have : 0 ≤ (x₁ - x₀) * (y₁ - y₀) := mul_nonneg (by linarith) (by linarith)
    linarith
  · show (XR.fin x₁ - XR.fin x₀) * (XR.fin y₁ - XR.fin y₀) = _
    rw [XR.fin_sub, XR.fin_sub, XR.fin_mul]
  · unfold Point.Equal pt
    simp only [hx', Bool.false_and]

end

section
variable {F : Type} [GoFloat F] [FloatOrd F]

/-- **C23 (bounding box), partial.** For a proper box within ±2^31 that is at least 1e-6 wide (as computed
in `F`), the geometry of the box has the box as its bounding box — in float64 and in exact arithmetic.
Missing: thin boxes, see `C23_thin_false`, and the area, see `C23_area_false`. -/
theorem C23_boundingBox_partial (b : Box F) (hp : ProperBox b)
    (hb : Bounded31 b.MinX ∧ Bounded31 b.MinY ∧ Bounded31 b.MaxX ∧ Bounded31 b.MaxY)
    (hw : lt (GoFloat.abs (b.MinX - b.MaxX)) (dec 1 6) = false) : SameBox (BoundingBox (BoxToGeo b)) b := by
  have hw' : lt (GoFloat.abs (b.MinX - b.MaxX)) (COORDPRESION : F) = false := hw
  have key : ∀ (l : List (Point F)), (∀ p ∈ l, (p.X = b.MinX ∨ p.X = b.MaxX) ∧ (p.Y = b.MinY ∨ p.Y = b.MaxY)) →
      (⟨b.MinX, b.MinY⟩ : Point F) ∈ l → (⟨b.MaxX, b.MaxY⟩ : Point F) ∈ l → SameBox (BoundingBox (.lineString l)) b := by
    intro l hl h1 h2
    have hbd : ∀ p ∈ l, Bounded31 p.X ∧ Bounded31 p.Y := by
      intro p hp
      obtain ⟨ha | ha, hb' | hb'⟩ := hl p hp <;> rw [ha, hb'] <;> simp [hb]
    obtain ⟨⟨p1, m1, s1⟩, ⟨p2, m2, s2⟩, ⟨p3, m3, s3⟩, ⟨p4, m4, s4⟩⟩ :=
      C20_boundingBox_attained (.lineString l) (by rintro h; rw [show boxedVertices (.lineString l) = l from rfl] at h; rw [h] at h1; simp at h1) hbd
    have nx := FloatOrd.le_left _ _ hp.x
    have nX := FloatOrd.le_right _ _ hp.x
    have ny := FloatOrd.le_left _ _ hp.y
    have nY := FloatOrd.le_right _ _ hp.y
    have c1 := C19_boundingBox_covers (.lineString l) (by simp) _ h1
    have c2 := C19_boundingBox_covers (.lineString l) (by simp) _ h2
    have lo : ∀ p ∈ l, Le b.MinX p.X ∧ Le p.X b.MaxX ∧ Le b.MinY p.Y ∧ Le p.Y b.MaxY := by
      intro p hp'
      obtain ⟨ha, hb'⟩ := hl p hp'
      refine ⟨?_, ?_, ?_, ?_⟩
      · rcases ha with ha | ha <;> rw [ha]; exacts [le_refl' nx, hp.x]
      · rcases ha with ha | ha <;> rw [ha]; exacts [hp.x, le_refl' nX]
      · rcases hb' with ha | ha <;> rw [ha]; exacts [le_refl' ny, hp.y]
      · rcases hb' with ha | ha <;> rw [ha]; exacts [hp.y, le_refl' nY]
    refine ⟨⟨?_, ?_, ?_, ?_⟩, ⟨(c1.1 nx).1, (c1.2 ny).1, (c2.1 nX).2, (c2.2 nY).2⟩⟩
    · exact le_trans' (lo p1 m1).1 s1.2
    · exact le_trans' (lo p2 m2).2.2.1 s2.2
    · exact le_trans' s3.1 (lo p3 m3).2.1
    · exact le_trans' s4.1 (lo p4 m4).2.2.2
  unfold BoxToGeo Point.Equal
  simp only [hw', Bool.false_and, Bool.false_eq_true, if_false]
  split
  · exact key [⟨b.MinX, b.MinY⟩, ⟨b.MaxX, b.MaxY⟩] (by simp) (by simp) (by simp)
  · exact key [⟨b.MinX, b.MinY⟩, ⟨b.MinX, b.MaxY⟩, ⟨b.MaxX, b.MaxY⟩, ⟨b.MaxX, b.MinY⟩] (by simp) (by simp) (by simp)

end

/-- **C23 is false for thin boxes**: a box 1e-7 wide becomes a line that loses the right side. -/
theorem C23_thin_false : ∃ b : Box Float, ProperBox b ∧ ¬ SameBox (BoundingBox (BoxToGeo b)) b := by
  refine ⟨⟨0, 0, 1e-7, 1⟩, ⟨by unfold Le; decide +kernel, by unfold Le; decide +kernel⟩, ?_⟩
  intro h
  have := h.2.maxX
  revert this
  unfold Le
  decide +kernel

/-- C23 on a concrete float64 box. -/
example : lt (GoFloat.abs ((1 : Float) - 4)) (dec 1 6) = false ∧ ProperBox (⟨1, 2, 4, 7⟩ : Box Float) := by
  refine ⟨by decide +kernel, by unfold Le; decide +kernel, by unfold Le; decide +kernel⟩

end GoGeo
