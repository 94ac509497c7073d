import Verif.Props.Angle

/-!
# Rotated bounding rectangles (C77), real arithmetic
-/

set_option linter.unusedSectionVars false

namespace GoGeo
open GoFloat Spec Real

/-- less than 1e-4 apart in both coordinates -/
def Near4 (p q : ℝ × ℝ) : Prop := |p.1 - q.1| < 1 / 10000 ∧ |p.2 - q.2| < 1 / 10000

theorem rotatePoint_fin (p c : ℝ × ℝ) (θ : ℝ) : ∃ q, rotatePoint (F := XR ℝ) (pt p) (pt c) (.fin θ) = pt q ∧ Near4 q (cw c θ p) := by
  obtain ⟨x, h1, h2⟩ := trunc4_fin (cw c θ p).1
  obtain ⟨y, h3, h4⟩ := trunc4_fin (cw c θ p).2
  refine ⟨(x, y), ?_, h2, h4⟩
  unfold rotatePoint
  rw [rotateExact_fin]
  show (⟨trunc4 (XR.fin _), trunc4 (XR.fin _)⟩ : Point (XR ℝ)) = _
  rw [h1, h3]; rfl

theorem calBox_fold (l : List (ℝ × ℝ)) (a b c d : ℝ) : ∃ a' b' c' d' : ℝ,
    (l.map pt).foldl calBoxStep (⟨.fin a, .fin b, .fin c, .fin d⟩ : Box (XR ℝ)) = ⟨.fin a', .fin b', .fin c', .fin d'⟩ ∧
    a' ≤ a ∧ b' ≤ b ∧ c ≤ c' ∧ d ≤ d' ∧ ∀ p ∈ l, a' ≤ p.1 ∧ p.1 ≤ c' ∧ b' ≤ p.2 ∧ p.2 ≤ d' := by
  induction l generalizing a b c d with
  | nil => exact ⟨a, b, c, d, rfl, le_rfl, le_rfl, le_rfl, le_rfl, by simp⟩
  | cons p l ih =>
    have e : calBoxStep (⟨.fin a, .fin b, .fin c, .fin d⟩ : Box (XR ℝ)) (pt p) = ⟨.fin (min p.1 a), .fin (min p.2 b), .fin (max p.1 c), .fin (max p.2 d)⟩ := by
      unfold calBoxStep pt
      simp only [gt, XR.fin_lt, decide_eq_true_eq]
      congr 1
      · by_cases h : p.1 < a
        · rw [if_pos h, min_eq_left h.le]
        · rw [if_neg h, min_eq_right (not_lt.1 h)]
      · by_cases h : p.2 < b
        · rw [if_pos h, min_eq_left h.le]
        · rw [if_neg h, min_eq_right (not_lt.1 h)]
      · by_cases h : c < p.1
        · rw [if_pos h, max_eq_left h.le]
        · rw [if_neg h, max_eq_right (not_lt.1 h)]
      · by_cases h : d < p.2
        · rw [if_pos h, max_eq_left h.le]
        · rw [if_neg h, max_eq_right (not_lt.1 h)]
    obtain ⟨a', b', c', d', h, h1, h2, h3, h4, h5⟩ := ih (min p.1 a) (min p.2 b) (max p.1 c) (max p.2 d)
    refine ⟨a', b', c', d', by rw [List.map_cons, List.foldl_cons, e, h], h1.trans (min_le_right _ _), h2.trans (min_le_right _ _),
      (le_max_right _ _).trans h3, (le_max_right _ _).trans h4, ?_⟩
    intro q hq
    rcases List.mem_cons.1 hq with rfl | hq
    · exact ⟨h1.trans (min_le_left _ _), (le_max_left _ _).trans h3, h2.trans (min_le_left _ _), (le_max_left _ _).trans h4⟩
    · exact h5 q hq

theorem calBox_fin (l : List (ℝ × ℝ)) : ∃ lo hi : ℝ × ℝ, calBox (F := XR ℝ) (l.map pt) = ⟨.fin lo.1, .fin lo.2, .fin hi.1, .fin hi.2⟩ ∧
    ∀ p ∈ l, lo.1 ≤ p.1 ∧ p.1 ≤ hi.1 ∧ lo.2 ≤ p.2 ∧ p.2 ≤ hi.2 := by
  obtain ⟨a, b, c, d, h, _, _, _, _, h5⟩ := calBox_fold l (2 ^ 31) (2 ^ 31) (-2 ^ 31) (-2 ^ 31)
  refine ⟨(a, b), (c, d), ?_, h5⟩
  unfold calBox
  rw [← h]
  have : (INF : XR ℝ) = .fin (2 ^ 31) := by unfold INF; rw [XR.fin_lit]; norm_num
  rw [this]
  rfl

/-- the box around the turned ring -/
theorem rotated_box (l : List (ℝ × ℝ)) (c : ℝ × ℝ) (θ : ℝ) (rot : Geometry (XR ℝ)) (h : RotateCW (.polygon [l.map pt]) (pt c) (.fin θ) = .ok rot) :
    ∃ lo hi : ℝ × ℝ, BoundingBox rot = ⟨.fin lo.1, .fin lo.2, .fin hi.1, .fin hi.2⟩ ∧
      ∀ p ∈ l, lo.1 - 1 / 10000 ≤ (cw c θ p).1 ∧ (cw c θ p).1 ≤ hi.1 + 1 / 10000 ∧ lo.2 - 1 / 10000 ≤ (cw c θ p).2 ∧ (cw c θ p).2 ≤ hi.2 + 1 / 10000 := by
  choose f hf hn using fun p => rotatePoint_fin p c θ
  have hm : (l.map pt).map (fun v => rotatePoint (F := XR ℝ) v (pt c) (.fin θ)) = (l.map f).map pt := by
    rw [List.map_map, List.map_map]
    exact List.map_congr_left fun p _ => hf p
  have hl : ∃ l' : List (ℝ × ℝ), rot = .polygon [l'.map pt] ∧ ∀ p ∈ l, f p ∈ l' := by
    unfold RotateCW GetExteriorRing at h
    simp only [hm] at h
    rcases hlf : l.map f with _ | ⟨a, _ | ⟨b, rest⟩⟩
    · rw [hlf] at h; simp [closeRing] at h
    · rw [hlf] at h; simp [closeRing] at h
    · rw [hlf] at h
      simp only [List.map_cons, closeRing] at h
      have hmem : ∀ p ∈ l, f p ∈ a :: b :: rest := by
        intro p hp; rw [← hlf]; exact List.mem_map_of_mem hp
      split_ifs at h with hq
      · cases h; exact ⟨a :: b :: rest, by simp, hmem⟩
      · cases h; exact ⟨a :: b :: rest ++ [a], by simp, fun p hp => List.mem_append_left _ (hmem p hp)⟩
  obtain ⟨l', rfl, hmem⟩ := hl
  obtain ⟨lo, hi, hb, hc⟩ := calBox_fin l'
  refine ⟨lo, hi, hb, ?_⟩
  intro p hp
  obtain ⟨h1, h2, h3, h4⟩ := hc _ (hmem p hp)
  obtain ⟨n1, n2⟩ := hn p
  rw [abs_lt] at n1 n2
  refine ⟨?_, ?_, ?_, ?_⟩ <;> linarith

/-- what the loop of `Mbr` keeps: the best rectangle so far is the box around the hull turned by the direction of an edge -/
def MbrInv (es : List ((ℝ × ℝ) × (ℝ × ℝ))) (l : List (ℝ × ℝ)) (c : ℝ × ℝ) (st : XR ℝ × XR ℝ × Geometry (XR ℝ)) : Prop :=
  st.2.2 = .nil ∨ ∃ e ∈ es, ∃ rot, st.2.1 = .fin (Complex.arg ⟨e.2.1 - e.1.1, e.2.2 - e.1.2⟩) ∧
    RotateCW (.polygon [l.map pt]) (pt c) st.2.1 = .ok rot ∧ st.2.2 = BoxToGeo (BoundingBox rot)

theorem mbr_loop (es : List ((ℝ × ℝ) × (ℝ × ℝ))) (l : List (ℝ × ℝ)) (c : ℝ × ℝ) (todo : List ((ℝ × ℝ) × (ℝ × ℝ))) (hsub : ∀ e ∈ todo, e ∈ es)
    (st st' : XR ℝ × XR ℝ × Geometry (XR ℝ)) (hst : MbrInv es l c st)
    (h : (todo.map fun z => (pt z.1, pt z.2)).foldlM (mbrStep (l.map pt) (pt c)) st = .ok st') : MbrInv es l c st' := by
  induction todo generalizing st with
  | nil => cases h; exact hst
  | cons e todo ih =>
    rw [List.map_cons, List.foldlM_cons] at h
    cases hs : mbrStep (l.map pt) (pt c) st (pt e.1, pt e.2) with
    | error x => rw [hs] at h; cases h
    | ok st1 =>
      rw [hs, bind_ok'] at h
      refine ih (fun e he => hsub e (by simp [he])) st1 ?_ h
      unfold mbrStep at hs
      simp only [pt, XR.fin_sub, atan2_fin] at hs
      cases hr : RotateCW (.polygon [l.map pt]) (pt c) (XR.fin (Complex.arg ⟨e.2.1 - e.1.1, e.2.2 - e.1.2⟩)) with
      | error x =>
        have : RotateCW (.polygon [l.map pt]) ⟨XR.fin c.1, XR.fin c.2⟩ (XR.fin (Complex.arg ⟨e.2.1 - e.1.1, e.2.2 - e.1.2⟩)) = .error x := hr
        rw [this] at hs; cases hs
      | ok rot =>
        have : RotateCW (.polygon [l.map pt]) ⟨XR.fin c.1, XR.fin c.2⟩ (XR.fin (Complex.arg ⟨e.2.1 - e.1.1, e.2.2 - e.1.2⟩)) = .ok rot := hr
        rw [this, bind_ok'] at hs
        simp only [pure, Except.pure, Except.ok.injEq] at hs
        split_ifs at hs with hlt
        · subst hs
          exact Or.inr ⟨e, hsub e (by simp), rot, rfl, hr, rfl⟩
        · subst hs; exact hst

theorem edges_pt (l : List (ℝ × ℝ)) : edges (l.map (pt (K := ℝ))) = (edges l).map fun z => (pt z.1, pt z.2) := by
  induction l with
  | nil => rfl
  | cons a l ih =>
    cases l with
    | nil => rfl
    | cons b l =>
      simp only [List.map_cons, edges] at ih ⊢
      rw [ih]

theorem edges_mem {α : Type} (l : List α) : ∀ e ∈ edges l, e.1 ∈ l ∧ e.2 ∈ l := by
  induction l with
  | nil => simp [edges]
  | cons a l ih =>
    cases l with
    | nil => simp [edges]
    | cons b l =>
      intro e he
      rw [edges, List.mem_cons] at he
      rcases he with rfl | he
      · simp
      · have := ih e he
        exact ⟨by simp [this.1], by simp [this.2]⟩

theorem centroid_pt (l : List (ℝ × ℝ)) : isNaN (polyCentroid [l.map (pt (K := ℝ))]).X = true ∨ ∃ c, polyCentroid [l.map (pt (K := ℝ))] = pt c := by
  rcases List.eq_nil_or_concat l with rfl | ⟨l, x, rfl⟩
  · left
    unfold polyCentroid
    simp only [List.map_nil]
    rw [cyc_short _ (by simp)]
    rw [if_pos (by simp [XR.fin_lit, XR.fin_eq])]
    rfl
  · rw [List.concat_eq_append, List.map_append, List.map_singleton]
    by_cases h : cycSum cross l = 0
    · left
      unfold polyCentroid
      simp only []
      rw [cyc_append, ← List.map_rotate, zip_pt, XR.fin_lit, Nat.cast_zero, centroid_fold, zero_add, zero_add, zero_add, zip_map_sum cross, h]
      rw [if_pos (by simp [XR.fin_eq])]
      rfl
    · right; exact ⟨_, polyCentroid_corners l (pt x) [] h⟩

/-- a half plane that has the corners of the hull has all the points -/
theorem Spec.HullOf.halfplane {pts v : List (ℝ × ℝ)} (h : HullOf pts v) (A B d : ℝ) (hAB : A ^ 2 + B ^ 2 = 1)
    (hv : ∀ x ∈ v, d ≤ A * x.1 + B * x.2) : ∀ p ∈ pts, d ≤ A * p.1 + B * p.2 := by
  have e : ∀ x : ℝ × ℝ, turn (d * A, d * B) (d * A + B, d * B - A) x = A * x.1 + B * x.2 - d := by
    intro x; unfold turn; simp only; linear_combination -d * hAB
  intro p hp
  have := h.tight (d * A, d * B) (d * A + B, d * B - A) (fun x hx => by rw [e]; linarith [hv x hx]) p hp
  rw [e] at this; linarith

/-- the corners of a geometry that is not a point, those of the exterior rings for polygons -/
def cornersOf : Geometry (XR ℝ) → List (Point (XR ℝ))
  | .multiPoint ps => ps
  | .lineString ps => ps
  | .multiLineString ls => ls.flatten
  | .polygon rs => rs.headD []
  | .multiPolygon ps => ps.flatMap fun rs => rs.headD []
  | _ => []

/-- **C77, what holds.** If `Mbr` of a geometry with at least three different vertices returns a polygon, its corners are, up to 1e-4, the
corners of the box `[lo, hi]` turned back by the direction `θ` from one vertex `a` to another `b`, and every vertex is, turned
by `θ`, in this box up to 1e-4.  Missing: least area (`C77_minimal_false`), and that there is a result at all (`C77_tiny_panics_false`). -/
theorem C77_covers_partial (sortPts : List (Point (XR ℝ)) → List (Point (XR ℝ))) (hs : HullSort sortPts) (hp : ∀ l, (sortPts l).Perm l)
    (g : Geometry (XR ℝ)) (pts : List (ℝ × ℝ)) (hg : cornersOf g = pts.map pt) (hd : pts.Nodup) (h3 : 3 ≤ pts.length)
    (rs : List (List (Point (XR ℝ)))) (h : Mbr sortPts g = .ok (some rs)) :
    ∃ (c a b lo hi q1 q2 q3 q4 : ℝ × ℝ) (θ : ℝ), a ∈ pts ∧ b ∈ pts ∧ b.1 - a.1 = eucl b a * cos θ ∧ b.2 - a.2 = eucl b a * sin θ ∧
      (∀ p ∈ pts, lo.1 - 1 / 10000 ≤ (cw c θ p).1 ∧ (cw c θ p).1 ≤ hi.1 + 1 / 10000 ∧ lo.2 - 1 / 10000 ≤ (cw c θ p).2 ∧ (cw c θ p).2 ≤ hi.2 + 1 / 10000) ∧
      Near4 q1 (cw c (-θ) lo) ∧ Near4 q2 (cw c (-θ) (lo.1, hi.2)) ∧ Near4 q3 (cw c (-θ) hi) ∧ Near4 q4 (cw c (-θ) (hi.1, lo.2)) ∧
      (rs = [[pt q1, pt q2, pt q3, pt q4, pt q1]] ∨ rs = [[pt q1, pt q2, pt q3, pt q4]]) := by
  replace hg : mbrCoords g = some (pts.map pt) := by
    have hx : (GetExteriorRing : List (List (Point (XR ℝ))) → _) = fun rs => rs.headD [] := funext fun rs => by cases rs <;> rfl
    cases g <;> first
      | exact congrArg some hg
      | (simp only [mbrCoords, cornersOf, hx, List.flatMap_def] at hg ⊢; exact congrArg some hg)
      | (exfalso; have := congrArg List.length hg; simp [cornersOf] at this; omega)
  obtain ⟨after, r, v, hh, hull, hr⟩ := C48_hull sortPts hs pts hd h3
  have hafter := hull_after sortPts hp _ _ _ hh
  obtain ⟨aft, rfl, haft⟩ := unmap_pt hafter
  obtain ⟨l, rfl, hvl⟩ : ∃ l : List (ℝ × ℝ), r = l.map pt ∧ ∀ x ∈ v, x ∈ l := by
    rcases hr with h | ⟨h, _⟩
    · exact ⟨v ++ v.take 1, h, fun x hx => by simp [hx]⟩
    · exact ⟨v, h, fun x hx => hx⟩
  unfold Mbr at h
  rw [hg] at h
  simp only at h
  rw [hh, bind_ok'] at h
  simp only at h
  rcases centroid_pt l with hn | ⟨c, hc⟩
  · rw [if_pos (by simp [hn])] at h; cases h
  rw [hc, if_neg (by have : ∀ x : ℝ, isNaN (XR.fin x) = false := fun _ => rfl; simp [pt, this])] at h
  rw [edges_pt] at h
  cases hl : ((edges aft).map fun z => (pt z.1, pt z.2)).foldlM (mbrStep (l.map pt) (pt c)) ((maxFloat64 : XR ℝ), (lit 0 : XR ℝ), Geometry.nil) with
  | error x => rw [hl] at h; cases h
  | ok st =>
    rw [hl, bind_ok'] at h
    obtain ⟨m, ang, ssr⟩ := st
    simp only at h
    have hinv := mbr_loop (edges aft) l c (edges aft) (fun e he => he) _ _ (Or.inl rfl) hl
    rcases hinv with hnil | ⟨e, he, rot, h1, h2, h4⟩
    · simp only at hnil
      subst hnil
      cases h
    simp only at h1 h2 h4
    subst h1 h4
    obtain ⟨lo, hi, hb, hin⟩ := rotated_box l c _ rot h2
    set θ := Complex.arg ⟨e.2.1 - e.1.1, e.2.2 - e.1.2⟩ with hθ
    have hem := edges_mem aft e he
    -- every vertex, not only the corners of the hull
    have hall : ∀ p ∈ pts, lo.1 - 1 / 10000 ≤ (cw c θ p).1 ∧ (cw c θ p).1 ≤ hi.1 + 1 / 10000 ∧ lo.2 - 1 / 10000 ≤ (cw c θ p).2 ∧ (cw c θ p).2 ≤ hi.2 + 1 / 10000 := by
      have t := sin_sq_add_cos_sq θ
      intro p hp
      refine ⟨?_, ?_, ?_, ?_⟩
      · have := hull.halfplane (cos θ) (sin θ) (lo.1 - 1 / 10000 - c.1 + c.1 * cos θ + c.2 * sin θ) (by linarith)
          (fun x hx => by have := (hin x (hvl x hx)).1; unfold cw at this; simp only at this; linarith) p hp
        unfold cw; simp only; linarith
      · have := hull.halfplane (-cos θ) (-sin θ) (-(hi.1 + 1 / 10000 - c.1 + c.1 * cos θ + c.2 * sin θ)) (by linarith)
          (fun x hx => by have := (hin x (hvl x hx)).2.1; unfold cw at this; simp only at this; linarith) p hp
        unfold cw; simp only; linarith
      · have := hull.halfplane (-sin θ) (cos θ) (lo.2 - 1 / 10000 - c.2 + c.2 * cos θ - c.1 * sin θ) (by linarith)
          (fun x hx => by have := (hin x (hvl x hx)).2.2.1; unfold cw at this; simp only at this; linarith) p hp
        unfold cw; simp only; linarith
      · have := hull.halfplane (sin θ) (-cos θ) (-(hi.2 + 1 / 10000 - c.2 + c.2 * cos θ - c.1 * sin θ)) (by linarith)
          (fun x hx => by have := (hin x (hvl x hx)).2.2.2; unfold cw at this; simp only at this; linarith) p hp
        unfold cw; simp only; linarith
    have hneg : (-(XR.fin θ) : XR ℝ) = .fin (-θ) := rfl
    obtain ⟨q1, e1, n1⟩ := rotatePoint_fin lo c (-θ)
    obtain ⟨q2, e2, n2⟩ := rotatePoint_fin (lo.1, hi.2) c (-θ)
    obtain ⟨q3, e3, n3⟩ := rotatePoint_fin hi c (-θ)
    obtain ⟨q4, e4, n4⟩ := rotatePoint_fin (hi.1, lo.2) c (-θ)
    refine ⟨c, e.1, e.2, lo, hi, q1, q2, q3, q4, θ, (haft.mem_iff).1 hem.1, (haft.mem_iff).1 hem.2, ?_, ?_, hall, n1, n2, n3, n4, ?_⟩
    · rw [eucl_vec, hθ]
      rw [show (e.1.1 - e.2.1) * (e.1.1 - e.2.1) + (e.1.2 - e.2.2) * (e.1.2 - e.2.2) = (e.2.1 - e.1.1) * (e.2.1 - e.1.1) + (e.2.2 - e.1.2) * (e.2.2 - e.1.2) by ring]
      exact (polar_re (e.2.1 - e.1.1) (e.2.2 - e.1.2)).symm
    · rw [eucl_vec, hθ]
      rw [show (e.1.1 - e.2.1) * (e.1.1 - e.2.1) + (e.1.2 - e.2.2) * (e.1.2 - e.2.2) = (e.2.1 - e.1.1) * (e.2.1 - e.1.1) + (e.2.2 - e.1.2) * (e.2.2 - e.1.2) by ring]
      exact (polar_im (e.2.1 - e.1.1) (e.2.2 - e.1.2)).symm
    · rw [hb] at h
      unfold BoxToGeo at h
      simp only at h
      split_ifs at h with c1 c2 c3
      · cases h
      · cases h
      · cases h
      · unfold RotateCCW RotateCW GetExteriorRing at h
        rw [hneg] at h
        simp only [List.map_cons, List.map_nil] at h
        rw [show (⟨XR.fin lo.1, XR.fin lo.2⟩ : Point (XR ℝ)) = pt lo from rfl, show (⟨XR.fin lo.1, XR.fin hi.2⟩ : Point (XR ℝ)) = pt (lo.1, hi.2) from rfl,
          show (⟨XR.fin hi.1, XR.fin hi.2⟩ : Point (XR ℝ)) = pt hi from rfl, show (⟨XR.fin hi.1, XR.fin lo.2⟩ : Point (XR ℝ)) = pt (hi.1, lo.2) from rfl, e1, e2, e3, e4] at h
        simp only [closeRing] at h
        split_ifs at h
        · cases h; exact Or.inr rfl
        · cases h; exact Or.inl rfl

/-! ### where it fails -/

theorem hull_three (a b c : ℝ × ℝ) (h1 : a.2 < b.2) (h2 : a.2 < c.2) (ht : 0 < turn a b c) (hc : ¬ Close a c) :
    ConvexHull (F := XR ℝ) goSort12 [pt a, pt b, pt c] = .ok ([pt a, pt b, pt c], some [pt a, pt b, pt c, pt a]) := by
  have hY : ∀ {p : ℝ × ℝ}, a.2 < p.2 → (lt (pt p).Y (pt a).Y || (eq (pt p).Y (pt a).Y && gt (pt p).X (pt a).X)) = false := by
    intro p hp
    unfold pt
    simp only [XR.fin_lt, XR.fin_eq, hp.not_gt, hp.ne', decide_false, Bool.false_or, Bool.false_and]
  have hlow : FindLowestPoint [pt a, pt b, pt c] = [pt a, pt b, pt c] := by
    unfold FindLowestPoint
    have : lowestIdx [pt a, pt b, pt c] = 0 := by
      unfold lowestIdx
      simp only [List.length_cons, List.length_nil, List.range', List.foldl_cons, List.foldl_nil, List.getD_cons_zero, List.getD_cons_succ,
        Nat.reduceAdd, Nat.reduceSub]
      have e1 := hY h1
      have e2 := hY h2
      have f : ∀ {q : Bool} (_ : q = false) (m n : Nat), (if q = true then m else n) = n := by rintro q rfl m n; rfl
      rw [f e1]
      exact f e2 2 0
    rw [this, swapAt_self]
  have l1 : hullLess (pt a) (pt b) (pt a) = false := headLeast_fin a [b] (pt b) (by simp)
  have l2 : hullLess (pt a) (pt c) (pt b) = false := by
    rw [Bool.eq_false_iff]
    intro h
    rw [hullLess_fin] at h
    have : turn a c b = -turn a b c := by unfold turn; ring
    rcases h with h | h
    · linarith
    · have := h.1; linarith
  have hsort : goSort12 [pt a, pt b, pt c] = [pt a, pt b, pt c] := by
    unfold goSort12
    have hs : shellPass [pt a, pt b, pt c] = [pt a, pt b, pt c] := rfl
    rw [hs]
    unfold insertionSort
    simp only [List.length_cons, List.length_nil, List.range', List.foldl_cons, List.foldl_nil, Nat.reduceAdd, Nat.reduceSub]
    have e1 : insInner 1 [pt a, pt b, pt c] = [pt a, pt b, pt c] := by
      unfold insInner
      rw [if_neg]
      show ¬ hullLess (pt a) (pt b) (pt a) = true
      rw [l1]; simp
    rw [e1]
    unfold insInner
    rw [if_neg]
    show ¬ hullLess (pt a) (pt c) (pt b) = true
    rw [l2]; simp
  unfold ConvexHull
  rw [if_neg (by simp)]
  simp only [hlow, hsort]
  have hscan : hullScan (2 * [pt a, pt b, pt c].length) [pt b, pt a] [pt c] = .ok [pt c, pt b, pt a] := by
    show hullScan (5 + 1) [pt b, pt a] [pt c] = _
    unfold hullScan
    rw [if_pos ((isLeft_fin a b c).2 ht.le)]
    rfl
  rw [hscan, bind_ok', if_neg (by simp)]
  have hcl : closeRing [pt c, pt b, pt a].reverse = some [pt a, pt b, pt c, pt a] := by
    show closeRing [pt a, pt b, pt c] = _
    show (if (pt a).Equal (pt c) = true then _ else _) = _
    rw [if_neg (by rw [equal_pt]; exact hc)]
    rfl
  rw [hcl]; rfl

theorem trunc4_int (n : ℤ) : trunc4 (XR.fin ((n : ℝ) / 10000)) = .fin ((n : ℝ) / 10000) := by
  have e : (lit 10000 : XR ℝ) = .fin 10000 := by rw [XR.fin_lit]; norm_num
  unfold trunc4
  rw [e, XR.fin_mul, show (n : ℝ) / 10000 * 10000 = n by ring]
  show XR.fin (XR.truncR n) / XR.fin 10000 = _
  have : XR.truncR (n : ℝ) = n := by
    unfold XR.truncR
    simp
  rw [this, XR.fin_div _ _ (by norm_num)]

theorem rotatePoint_int (p c : ℝ × ℝ) (θ : ℝ) (n m : ℤ) (h1 : (cw c θ p).1 = n / 10000) (h2 : (cw c θ p).2 = m / 10000) :
    rotatePoint (F := XR ℝ) (pt p) (pt c) (.fin θ) = pt ((n : ℝ) / 10000, (m : ℝ) / 10000) := by
  unfold rotatePoint
  rw [rotateExact_fin]
  show (⟨trunc4 (XR.fin _), trunc4 (XR.fin _)⟩ : Point (XR ℝ)) = _
  rw [h1, h2, trunc4_int, trunc4_int]; rfl

/-- turning a triangle, given the turned corners -/
theorem rotate_tri (a b c a' b' c' : ℝ × ℝ) (ctr : Point (XR ℝ)) (θ : XR ℝ) (ha : rotatePoint (pt a) ctr θ = pt a') (hb : rotatePoint (pt b) ctr θ = pt b')
    (hc : rotatePoint (pt c) ctr θ = pt c') : RotateCW (.polygon [[pt a, pt b, pt c, pt a]]) ctr θ = .ok (.polygon [[pt a', pt b', pt c', pt a']]) := by
  unfold RotateCW GetExteriorRing
  simp only [List.map_cons, List.map_nil, ha, hb, hc, closeRing]
  rw [if_pos]
  simp only [List.getLast_cons_cons, List.getLast_singleton]
  rw [equal_pt]
  exact ⟨by simp, by simp⟩

theorem Complex_arg_trig {x y r : ℝ} (hr : 0 < r) (h : x * x + y * y = r ^ 2) : cos (Complex.arg ⟨x, y⟩) = x / r ∧ sin (Complex.arg ⟨x, y⟩) = y / r := by
  have h1 := polar_re x y
  have h2 := polar_im x y
  rw [h, sqrt_sq hr.le] at h1 h2
  constructor
  · rw [eq_div_iff hr.ne', mul_comm]; exact h1
  · rw [eq_div_iff hr.ne', mul_comm]; exact h2

theorem fin_lt_max {x : ℝ} (h : x < 1000) : lt (XR.fin x) (maxFloat64 : XR ℝ) = true := by
  unfold maxFloat64
  rw [XR.fin_lit, XR.fin_lt, decide_eq_true_eq]
  refine h.trans ?_
  have : (1000 : ℕ) < (2 ^ 53 - 1) * 2 ^ 971 := lt_of_lt_of_le (by norm_num) (Nat.le_mul_of_pos_right _ (Nat.two_pow_pos 971))
  exact_mod_cast this

/-- **C77 is false (least area).** `Mbr` of the triangle (0,0), (12,9), (12,24) is the rectangle (0,0), (-7.2,9.6), (12,24), (19.2,14.4) with area 288: the loop
leaves out the side from the last vertex to the first.  The rectangle on that side has area 180 (next theorem). -/
theorem C77_minimal_false : Mbr (F := XR ℝ) goSort12 (.multiPoint [pt (0, 0), pt (12, 9), pt (12, 24)]) =
    .ok (some [[pt (0, 0), pt (-7.2, 9.6), pt (12, 24), pt (19.2, 14.4), pt (0, 0)]]) := by
  have hull := hull_three (0, 0) (12, 9) (12, 24) (by norm_num) (by norm_num) (by norm_num [turn]) (by unfold Close; norm_num)
  unfold Mbr mbrCoords
  simp only
  rw [hull, bind_ok']
  simp only
  have hc : polyCentroid [[pt ((0, 0) : ℝ × ℝ), pt (12, 9), pt (12, 24), pt (0, 0)]] = pt (8, 11) := by
    have e : cycSum cross [((0, 0) : ℝ × ℝ), (12, 9), (12, 24)] = 180 := by simp [cycSum, cross]; norm_num
    have := polyCentroid_corners [((0, 0) : ℝ × ℝ), (12, 9), (12, 24)] (pt (0, 0)) [] (by rw [e]; norm_num)
    rw [e] at this
    refine this.trans ?_
    congr 1
    unfold momX momY
    simp [cycSum, cross]; norm_num
  rw [hc]
  have hnn : ∀ x : ℝ, isNaN (XR.fin x) = false := fun _ => rfl
  rw [if_neg (by simp [pt, hnn])]
  -- the first side
  obtain ⟨c1, s1⟩ := Complex_arg_trig (x := 12) (y := 9) (r := 15) (by norm_num) (by norm_num)
  obtain ⟨c2, s2⟩ := Complex_arg_trig (x := 0) (y := 15) (r := 15) (by norm_num) (by norm_num)
  set θ1 := Complex.arg ⟨12, 9⟩ with hθ1
  set θ2 := Complex.arg ⟨0, 15⟩ with hθ2
  have r1 := rotate_tri (0, 0) (12, 9) (12, 24) (-5, 7) (10, 7) (19, 19) (pt (8, 11)) (.fin θ1)
    (by rw [rotatePoint_int _ _ _ (-50000) 70000] <;> norm_num [cw, c1, s1])
    (by rw [rotatePoint_int _ _ _ 100000 70000] <;> norm_num [cw, c1, s1])
    (by rw [rotatePoint_int _ _ _ 190000 190000] <;> norm_num [cw, c1, s1])
  have r2 := rotate_tri (0, 0) (12, 9) (12, 24) (-3, 19) (6, 7) (21, 7) (pt (8, 11)) (.fin θ2)
    (by rw [rotatePoint_int _ _ _ (-30000) 190000] <;> norm_num [cw, c2, s2])
    (by rw [rotatePoint_int _ _ _ 60000 70000] <;> norm_num [cw, c2, s2])
    (by rw [rotatePoint_int _ _ _ 210000 70000] <;> norm_num [cw, c2, s2])
  have hINF : (INF : XR ℝ) = .fin (2 ^ 31) := by unfold INF; rw [XR.fin_lit]; norm_num
  have b1 : BoundingBox (.polygon [[pt ((-5, 7) : ℝ × ℝ), pt (10, 7), pt (19, 19), pt (-5, 7)]]) = ⟨.fin (-5), .fin 7, .fin 19, .fin 19⟩ := by
    unfold BoundingBox calBox GetExteriorRing
    simp only [List.foldl_cons, List.foldl_nil, calBoxStep, hINF, pt, gt]
    norm_num [XR.fin_lt, XR.fin_neg]
  have b2 : BoundingBox (.polygon [[pt ((-3, 19) : ℝ × ℝ), pt (6, 7), pt (21, 7), pt (-3, 19)]]) = ⟨.fin (-3), .fin 7, .fin 21, .fin 19⟩ := by
    unfold BoundingBox calBox GetExteriorRing
    simp only [List.foldl_cons, List.foldl_nil, calBoxStep, hINF, pt, gt]
    norm_num [XR.fin_lt, XR.fin_neg]
  have a1 := (C23_area_false (-5 : ℝ) 7 19 19 (by norm_num) (by norm_num)).1
  have a2 := (C23_area_false (-3 : ℝ) 7 21 19 (by norm_num) (by norm_num)).1
  simp only [edges, List.foldlM_cons, List.foldlM_nil]
  have st1 : mbrStep [pt ((0, 0) : ℝ × ℝ), pt (12, 9), pt (12, 24), pt (0, 0)] (pt (8, 11)) ((maxFloat64 : XR ℝ), (lit 0 : XR ℝ), Geometry.nil) (pt (0, 0), pt (12, 9)) =
      .ok (.fin 144, .fin θ1, BoxToGeo ⟨.fin (-5), .fin 7, .fin 19, .fin 19⟩) := by
    unfold mbrStep
    have : GoMath.atan2 ((pt (12, 9)).Y - (pt ((0, 0) : ℝ × ℝ)).Y) ((pt (12, 9)).X - (pt ((0, 0) : ℝ × ℝ)).X) = (.fin θ1 : XR ℝ) := by
      simp only [pt, XR.fin_sub, atan2_fin]; rw [hθ1]; norm_num
    simp only [this]
    rw [r1, bind_ok']
    simp only [b1, a1]
    rw [if_pos (fin_lt_max (by norm_num))]
    norm_num
    rfl
  have st2 : mbrStep [pt ((0, 0) : ℝ × ℝ), pt (12, 9), pt (12, 24), pt (0, 0)] (pt (8, 11)) (.fin 144, .fin θ1, BoxToGeo ⟨.fin (-5), .fin 7, .fin 19, .fin 19⟩) (pt (12, 9), pt (12, 24)) =
      .ok (.fin 144, .fin θ1, BoxToGeo ⟨.fin (-5), .fin 7, .fin 19, .fin 19⟩) := by
    unfold mbrStep
    have : GoMath.atan2 ((pt (12, 24)).Y - (pt ((12, 9) : ℝ × ℝ)).Y) ((pt (12, 24)).X - (pt ((12, 9) : ℝ × ℝ)).X) = (.fin θ2 : XR ℝ) := by
      simp only [pt, XR.fin_sub, atan2_fin]; rw [hθ2]; norm_num
    simp only [this]
    rw [r2, bind_ok']
    simp only [b2, a2]
    rw [if_neg (by rw [XR.fin_lt]; norm_num)]
    rfl
  rw [st1, bind_ok', st2, bind_ok']
  simp only [pure, Except.pure]
  rw [bind_ok']
  have hbox : BoxToGeo (⟨.fin (-5), .fin 7, .fin 19, .fin 19⟩ : Box (XR ℝ)) = .polygon [[pt (-5, 7), pt (-5, 19), pt (19, 19), pt (19, 7)]] := by
    unfold BoxToGeo Point.Equal COORDPRESION
    simp only [XR.fin_sub, XR.fin_abs, XR.fin_dec, XR.fin_lt]
    norm_num [pt]
  have hneg : (-(XR.fin θ1) : XR ℝ) = .fin (-θ1) := rfl
  have q1 : rotatePoint (F := XR ℝ) (pt (-5, 7)) (pt (8, 11)) (.fin (-θ1)) = pt (0, 0) := by
    rw [rotatePoint_int _ _ _ 0 0] <;> norm_num [cw, c1, s1]
  have q2 : rotatePoint (F := XR ℝ) (pt (-5, 19)) (pt (8, 11)) (.fin (-θ1)) = pt (-7.2, 9.6) := by
    rw [rotatePoint_int _ _ _ (-72000) 96000] <;> norm_num [cw, c1, s1]
  have q3 : rotatePoint (F := XR ℝ) (pt (19, 19)) (pt (8, 11)) (.fin (-θ1)) = pt (12, 24) := by
    rw [rotatePoint_int _ _ _ 120000 240000] <;> norm_num [cw, c1, s1]
  have q4 : rotatePoint (F := XR ℝ) (pt (19, 7)) (pt (8, 11)) (.fin (-θ1)) = pt (19.2, 14.4) := by
    rw [rotatePoint_int _ _ _ 192000 144000] <;> norm_num [cw, c1, s1]
  rw [hbox]
  unfold RotateCCW RotateCW GetExteriorRing
  rw [hneg]
  simp only [List.map_cons, List.map_nil, q1, q2, q3, q4, closeRing]
  rw [if_neg]
  · rfl
  · simp only [List.getLast_cons_cons, List.getLast_singleton]
    rw [equal_pt]
    unfold Close; norm_num

/-- all three points of the triangle of `C77_minimal_false` are in the rectangle with the corners (0,0), (12,24), (18,21), (6,-3), which has area 180, and
the rectangle `Mbr` returned has area 288 -/
theorem C77_smaller_false :
    (∀ p ∈ [((0, 0) : ℝ × ℝ), (12, 9), (12, 24)], ∃ s t : ℝ, 0 ≤ s ∧ s ≤ 1 ∧ 0 ≤ t ∧ t ≤ 1 ∧ p = (s * 12 + t * 6, s * 24 + t * -3)) ∧
    (12 * 6 + 24 * -3 : ℝ) = 0 ∧ |(12 * -3 - 24 * 6 : ℝ)| = 180 ∧
    polyArea (F := XR ℝ) [[pt (0, 0), pt (-7.2, 9.6), pt (12, 24), pt (19.2, 14.4), pt (0, 0)]] = .fin 288 := by
  refine ⟨?_, by norm_num, by norm_num, ?_⟩
  · intro p hp
    simp only [List.mem_cons, List.not_mem_nil, or_false] at hp
    rcases hp with rfl | rfl | rfl
    · exact ⟨0, 0, by norm_num⟩
    · exact ⟨1 / 2, 1, by norm_num⟩
    · exact ⟨1, 0, by norm_num⟩
  · have := relativeArea_corners [((0, 0) : ℝ × ℝ), (-7.2, 9.6), (12, 24), (19.2, 14.4)] (pt (0, 0)) []
    simp only [List.map_cons, List.map_nil, List.cons_append, List.nil_append] at this
    unfold polyArea
    rw [this, XR.fin_abs]
    norm_num [cycSum, cross]

theorem trunc4_small {x : ℝ} (h : |x| < 1 / 10000) : trunc4 (XR.fin x) = .fin 0 := by
  have e : (lit 10000 : XR ℝ) = .fin 10000 := by rw [XR.fin_lit]; norm_num
  unfold trunc4
  rw [e, XR.fin_mul]
  show XR.fin (XR.truncR (x * 10000)) / XR.fin 10000 = _
  rw [abs_lt] at h
  have : XR.truncR (x * 10000) = 0 := by
    unfold XR.truncR
    split_ifs with h0
    · have : ⌈x * 10000⌉ = 0 := by rw [Int.ceil_eq_iff]; constructor <;> norm_num <;> linarith
      rw [this]; norm_num
    · have : ⌊x * 10000⌋ = 0 := by rw [Int.floor_eq_iff]; constructor <;> norm_num <;> linarith
      rw [this]; norm_num
  rw [this, XR.fin_div _ _ (by norm_num)]; norm_num

theorem rotatePoint_small (p c : ℝ × ℝ) (θ : ℝ) (hp1 : |p.1| ≤ 1 / 100000) (hp2 : |p.2| ≤ 1 / 100000) (hc1 : |c.1| ≤ 1 / 100000) (hc2 : |c.2| ≤ 1 / 100000) :
    rotatePoint (F := XR ℝ) (pt p) (pt c) (.fin θ) = pt (0, 0) := by
  have hs := abs_sin_le_one θ
  have hc := abs_cos_le_one θ
  have m1 : |p.1 - c.1| ≤ 2 / 100000 := by have := abs_sub p.1 c.1; linarith
  have m2 : |p.2 - c.2| ≤ 2 / 100000 := by have := abs_sub p.2 c.2; linarith
  have b : ∀ u w : ℝ, |u| ≤ 2 / 100000 → |w| ≤ 1 → |u * w| ≤ 2 / 100000 := by
    intro u w hu hw; rw [abs_mul]; nlinarith [abs_nonneg u, abs_nonneg w]
  unfold rotatePoint
  rw [rotateExact_fin]
  show (⟨trunc4 (XR.fin _), trunc4 (XR.fin _)⟩ : Point (XR ℝ)) = _
  have x1 := abs_le.1 (b _ _ m1 hc)
  have x2 := abs_le.1 (b _ _ m2 hs)
  have x3 := abs_le.1 (b _ _ m2 hc)
  have x4 := abs_le.1 (b _ _ m1 hs)
  rw [abs_le] at hc1 hc2
  rw [trunc4_small, trunc4_small]
  · rfl
  · unfold cw; simp only; rw [abs_lt]; constructor <;> linarith
  · unfold cw; simp only; rw [abs_lt]; constructor <;> linarith

/-- **C77 is false (no result).** For a triangle smaller than the truncation `Mbr` panics: the rotated box collapses to a point and the assertion
that the result is a polygon fails. -/
theorem C77_tiny_panics_false : Mbr (F := XR ℝ) goSort12 (.multiPoint [pt (0, 0), pt (1 / 100000, 1 / 200000), pt (0, 1 / 100000)]) = .error .typeAssert := by
  have hull := hull_three (0, 0) (1 / 100000, 1 / 200000) (0, 1 / 100000) (by norm_num) (by norm_num) (by norm_num [turn]) (by unfold Close; norm_num)
  unfold Mbr mbrCoords
  simp only
  rw [hull, bind_ok']
  simp only
  obtain ⟨ctr, hc, hc1, hc2⟩ : ∃ ctr, polyCentroid [[pt ((0, 0) : ℝ × ℝ), pt (1 / 100000, 1 / 200000), pt (0, 1 / 100000), pt (0, 0)]] = pt ctr ∧
      |ctr.1| ≤ 1 / 100000 ∧ |ctr.2| ≤ 1 / 100000 := by
    have e : cycSum cross [((0, 0) : ℝ × ℝ), (1 / 100000, 1 / 200000), (0, 1 / 100000)] = 1 / 10000000000 := by simp [cycSum, cross]; norm_num
    have := polyCentroid_corners [((0, 0) : ℝ × ℝ), (1 / 100000, 1 / 200000), (0, 1 / 100000)] (pt (0, 0)) [] (by rw [e]; norm_num)
    rw [e] at this
    refine ⟨_, this, ?_, ?_⟩
    · unfold momX; norm_num [cycSum, cross, abs_le]
    · unfold momY; norm_num [cycSum, cross, abs_le]
  rw [hc]
  have hnn : ∀ x : ℝ, isNaN (XR.fin x) = false := fun _ => rfl
  rw [if_neg (by simp [pt, hnn])]
  have rot : ∀ θ : ℝ, RotateCW (.polygon [[pt (0, 0), pt (1 / 100000, 1 / 200000), pt (0, 1 / 100000), pt (0, 0)]]) (pt ctr) (.fin θ) =
      .ok (.polygon [[pt (0, 0), pt (0, 0), pt (0, 0), pt (0, 0)]]) := fun θ =>
    rotate_tri (0, 0) (1 / 100000, 1 / 200000) (0, 1 / 100000) (0, 0) (0, 0) (0, 0) (pt ctr) (.fin θ)
      (rotatePoint_small _ _ _ (by norm_num) (by norm_num) hc1 hc2)
      (rotatePoint_small _ _ _ (by norm_num [abs_le]) (by norm_num [abs_le]) hc1 hc2)
      (rotatePoint_small _ _ _ (by norm_num) (by norm_num [abs_le]) hc1 hc2)
  have hINF : (INF : XR ℝ) = .fin (2 ^ 31) := by unfold INF; rw [XR.fin_lit]; norm_num
  have bb : BoundingBox (.polygon [[pt ((0, 0) : ℝ × ℝ), pt (0, 0), pt (0, 0), pt (0, 0)]]) = ⟨.fin 0, .fin 0, .fin 0, .fin 0⟩ := by
    unfold BoundingBox calBox GetExteriorRing
    simp only [List.foldl_cons, List.foldl_nil, calBoxStep, hINF, pt, gt]
    norm_num [XR.fin_lt, XR.fin_neg]
  have bg : BoxToGeo (⟨.fin 0, .fin 0, .fin 0, .fin 0⟩ : Box (XR ℝ)) = .point (pt (0, 0)) := by
    unfold BoxToGeo Point.Equal COORDPRESION
    simp only [XR.fin_sub, XR.fin_abs, XR.fin_dec, XR.fin_lt]
    norm_num [pt]
  have ga : GetArea (Geometry.point (pt ((0, 0) : ℝ × ℝ))) = .fin 0 := by unfold GetArea; rw [XR.fin_lit]; simp
  have step : ∀ (m : XR ℝ) (θ : XR ℝ) (g : Geometry (XR ℝ)) (a b : ℝ × ℝ),
      ∃ θ' : ℝ, mbrStep [pt (0, 0), pt (1 / 100000, 1 / 200000), pt (0, 1 / 100000), pt (0, 0)] (pt ctr) (m, θ, g) (pt a, pt b) =
        .ok (if lt (.fin 0) m then (.fin 0, .fin θ', .point (pt (0, 0))) else (m, θ, g)) := by
    intro m θ g a b
    refine ⟨Complex.arg ⟨b.1 - a.1, b.2 - a.2⟩, ?_⟩
    unfold mbrStep
    have : GoMath.atan2 ((pt b).Y - (pt a).Y) ((pt b).X - (pt a).X) = (.fin (Complex.arg ⟨b.1 - a.1, b.2 - a.2⟩) : XR ℝ) := by
      simp only [pt, XR.fin_sub, atan2_fin]
    simp only [this]
    rw [rot, bind_ok']
    simp only [bb, bg, ga]
    rfl
  simp only [edges, List.foldlM_cons, List.foldlM_nil]
  obtain ⟨t1, e1⟩ := step maxFloat64 (lit 0) .nil (0, 0) (1 / 100000, 1 / 200000)
  rw [if_pos (fin_lt_max (by norm_num))] at e1
  obtain ⟨t2, e2⟩ := step (.fin 0) (.fin t1) (.point (pt (0, 0))) (1 / 100000, 1 / 200000) (0, 1 / 100000)
  rw [if_neg (by rw [XR.fin_lt]; simp)] at e2
  rw [e1, bind_ok', e2, bind_ok']
  simp only [pure, Except.pure]
  rw [bind_ok']
  rfl

/-- the hypotheses of `C77_covers_partial` are met by the triangle of `C77_minimal_false` -/
example : ∃ rs, Mbr (F := XR ℝ) goSort12 (.multiPoint ([((0, 0) : ℝ × ℝ), (12, 9), (12, 24)].map pt)) = .ok (some rs) ∧ [((0, 0) : ℝ × ℝ), (12, 9), (12, 24)].Nodup :=
  ⟨_, C77_minimal_false, by norm_num⟩

end GoGeo
