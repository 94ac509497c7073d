import Verif.Geo.HullLemmas
import Verif.Go.Val
import Verif.Spec.Float

/-!
# The convex hull in a rounding arithmetic follows the exact one

`vp p`: the exact values of the coordinates of `p`.  If the three predicates of the algorithm answer alike for points and for their values on the points
of the input, the whole run does.
-/

set_option linter.unusedSectionVars false

namespace GoGeo
open GoFloat FloatVal Spec

section
variable {F K : Type} [GoFloat F] [Field K] [LinearOrder K] [IsStrictOrderedRing K] [FloatVal F K]
include K

/-- the values of the coordinates -/
def vp (p : Point F) : Point (XR K) := ⟨val p.X, val p.Y⟩

theorem vp_at {p : Point F} {x : K × K} (h : At p x) : vp p = pt x := by
  unfold vp pt
  rw [h.1, h.2]

/-- the predicates answer alike on `S` -/
structure HullSim (S : Point F → Prop) : Prop where
  less : ∀ a b c, S a → S b → S c → hullLess (vp a) (vp b) (vp c) = hullLess a b c
  left : ∀ a b c, S a → S b → S c → isLeft (vp a) (vp b) (vp c) = isLeft a b c
  equal : ∀ a b, S a → S b → (vp a).Equal (vp b) = a.Equal b

theorem vp_default : vp (default : Point F) = (default : Point (XR K)) := by
  show (⟨val (lit 0 : F), val (lit 0 : F)⟩ : Point (XR K)) = ⟨lit 0, lit 0⟩
  rw [val_lit0, XR.fin_lit, Nat.cast_zero]

theorem getD_vp (p : List (Point F)) (i : Nat) : (p.map vp).getD i default = vp (p.getD i default) := by
  rw [← vp_default (F := F), List.getD_eq_getElem?_getD, List.getD_eq_getElem?_getD, List.getElem?_map]
  cases p[i]? <;> rfl

theorem lowestIdx_vp (p : List (Point F)) : lowestIdx (p.map vp) = lowestIdx p := by
  unfold lowestIdx
  rw [List.length_map]
  congr 1
  funext m i
  simp only [getD_vp]
  have h1 : ∀ a b : Point F, lt (vp a).Y (vp b).Y = lt a.Y b.Y := fun a b => (val_lt a.Y b.Y).symm
  have h2 : ∀ a b : Point F, eq (vp a).Y (vp b).Y = eq a.Y b.Y := fun a b => (val_eq a.Y b.Y).symm
  have h3 : ∀ a b : Point F, gt (vp a).X (vp b).X = gt a.X b.X := fun a b => (val_lt b.X a.X).symm
  rw [h1, h2, h3]

theorem swapAt_vp (p : List (Point F)) (i j : Nat) : swapAt (p.map vp) i j = (swapAt p i j).map vp := by
  unfold swapAt
  rw [getD_vp, getD_vp, List.map_set, List.map_set]

theorem FindLowestPoint_vp (p : List (Point F)) : FindLowestPoint (p.map vp) = (FindLowestPoint p).map vp := by
  unfold FindLowestPoint
  rw [lowestIdx_vp, swapAt_vp]

theorem hullScan_vp {S : Point F → Prop} (h : HullSim S) : ∀ (fuel : Nat) (stack rest : List (Point F)), (∀ x ∈ stack, S x) → (∀ x ∈ rest, S x) →
    hullScan fuel (stack.map vp) (rest.map vp) = (hullScan fuel stack rest).map (List.map vp) ∧ ∀ r, hullScan fuel stack rest = .ok r → ∀ x ∈ r, S x := by
  intro fuel
  induction fuel with
  | zero =>
    intro stack rest hs hr
    cases rest with
    | nil => exact ⟨by simp [hullScan, Except.map], by intro r e; simp [hullScan] at e; subst e; exact hs⟩
    | cons p rest => exact ⟨by simp [hullScan, Except.map], by intro r e; simp [hullScan] at e⟩
  | succ fuel ih =>
    intro stack rest hs hr
    cases rest with
    | nil => exact ⟨by simp [hullScan, Except.map], by intro r e; simp [hullScan] at e; subst e; exact hs⟩
    | cons p rest =>
      rcases stack with _ | ⟨p2, _ | ⟨p1, stack⟩⟩
      · exact ⟨by simp [hullScan, Except.map], by intro r e; simp [hullScan] at e⟩
      · exact ⟨by simp [hullScan, Except.map], by intro r e; simp [hullScan] at e⟩
      · have e := h.left p1 p2 p (hs p1 (by simp)) (hs p2 (by simp)) (hr p (by simp))
        simp only [List.map_cons, hullScan, e]
        cases hl : isLeft p1 p2 p
        · simp only [Bool.false_eq_true, if_false]
          exact ih (p1 :: stack) (p :: rest) (fun x hx => hs x (by simp at hx ⊢; tauto)) hr
        · simp only [if_true]
          exact ih (p :: p2 :: p1 :: stack) rest (fun x hx => by
            rcases List.mem_cons.1 hx with rfl | hx
            · exact hr _ (by simp)
            · exact hs x hx) (fun x hx => hr x (by simp [hx]))

theorem closeRing_vp {S : Point F → Prop} (h : HullSim S) (l : List (Point F)) (hl : ∀ x ∈ l, S x) : closeRing (l.map vp) = (closeRing l).map (List.map vp) := by
  rcases l with _ | ⟨a, _ | ⟨b, l⟩⟩
  · rfl
  · rfl
  · have e := h.equal a ((b :: l).getLast (by simp)) (hl a (by simp)) (hl _ (by
      have := List.getLast_mem (l := b :: l) (by simp)
      exact List.mem_cons_of_mem _ this))
    have e2 : ∀ hne, (vp b :: l.map vp).getLast hne = vp ((b :: l).getLast (by simp)) := by
      intro hne
      have := List.getLast_map (f := vp (F := F) (K := K)) (l := b :: l) (by simp)
      simpa using this
    simp only [List.map_cons, closeRing, e2, e]
    split_ifs <;> simp

/-- the sort of values that does what `sortPts` does to the points `l` -/
noncomputable def sortVp (sortPts : List (Point F) → List (Point F)) (l : List (Point F)) (l' : List (Point (XR K))) : List (Point (XR K)) :=
  open Classical in if l' = l.map vp then (sortPts l).map vp else insertionSort l'

theorem ConvexHull_vp {S : Point F → Prop} (h : HullSim S) (sortPts : List (Point F) → List (Point F)) (ps : List (Point F))
    (hS : ∀ x ∈ sortPts (FindLowestPoint ps), S x) :
    ConvexHull (sortVp sortPts (FindLowestPoint ps)) (ps.map vp) = (ConvexHull sortPts ps).map fun r => (r.1.map vp, r.2.map (List.map vp)) := by
  unfold ConvexHull
  rw [List.length_map]
  split_ifs with h3
  · rfl
  · rw [FindLowestPoint_vp]
    have : sortVp sortPts (FindLowestPoint ps) ((FindLowestPoint ps).map (vp (K := K))) = (sortPts (FindLowestPoint ps)).map vp := by
      unfold sortVp
      rw [if_pos rfl]
    rw [this]
    generalize sortPts (FindLowestPoint ps) = q at hS
    rcases q with _ | ⟨a, _ | ⟨b, q⟩⟩
    · rfl
    · rfl
    · obtain ⟨k1, k2⟩ := hullScan_vp h (2 * (a :: b :: q).length) [b, a] q (fun x hx => hS x (by simp at hx ⊢; tauto)) (fun x hx => hS x (by simp [hx]))
      simp only [List.map_cons, List.map_nil] at k1
      simp only [List.map_cons, List.length_cons, List.length_map] at k1 k2 ⊢
      rw [k1]
      cases hr : hullScan (2 * (q.length + 1 + 1)) [b, a] q with
      | error e => rfl
      | ok st =>
        have k2 := k2 st hr
        simp only [Except.map, bind, Except.bind, List.length_map]
        split_ifs with hst
        · simp [pure, Except.pure]
        · rw [← List.map_reverse, closeRing_vp h _ (fun x hx => k2 x (List.mem_reverse.1 hx))]
          cases closeRing st.reverse <;> simp [pure, Except.pure]

/-- the sort of values meets the contract if `sortPts` does -/
theorem sortVp_hullSort {S : Point F → Prop} (h : HullSim S) (sortPts : List (Point F) → List (Point F)) (hs : HullSort sortPts) (o : Point F) (l : List (Point F))
    (hS : ∀ x ∈ o :: l, S x) (h1 : HeadLeast (vp o) (l.map vp)) (h2 : WeakOrder (hullLess (vp o)) ((o :: l).map vp)) :
    (∀ x ∈ sortPts (o :: l), S x) ∧ HullSort (sortVp sortPts (o :: l)) := by
  have key : (sortPts (o :: l)).Perm (o :: l) ∧ (sortPts (o :: l)).Pairwise fun a b => hullLess o b a = false := by
    apply hs o l
    · intro x hx
      rw [← h.less o x o (hS o (by simp)) (hS x (by simp [hx])) (hS o (by simp))]
      exact h1 _ (List.mem_map_of_mem hx)
    · have tr : ∀ a ∈ o :: l, ∀ b ∈ o :: l, hullLess o a b = hullLess (vp o) (vp a) (vp b) := fun a ha b hb =>
        (h.less o a b (hS o (by simp)) (hS a ha) (hS b hb)).symm
      refine ⟨?_, ?_, ?_⟩
      · intro a ha
        rw [tr a ha a ha]
        exact h2.irrefl _ (List.mem_map_of_mem ha)
      · intro a ha b hb c hc
        rw [tr a ha b hb, tr b hb c hc, tr a ha c hc]
        exact h2.trans _ (List.mem_map_of_mem ha) _ (List.mem_map_of_mem hb) _ (List.mem_map_of_mem hc)
      · intro a ha b hb c hc
        rw [tr a ha b hb, tr b hb c hc, tr a ha c hc]
        exact h2.ntrans _ (List.mem_map_of_mem ha) _ (List.mem_map_of_mem hb) _ (List.mem_map_of_mem hc)
  refine ⟨fun x hx => hS x (key.1.mem_iff.1 hx), ?_⟩
  intro o' l' g1 g2
  unfold sortVp
  split_ifs with he
  · rw [he]
    have ho : o' = vp o := by simp at he; exact he.1
    refine ⟨key.1.map vp, ?_⟩
    rw [List.pairwise_map]
    refine key.2.imp_of_mem ?_
    intro a b ha hb hab
    rw [ho, h.less o b a (hS o (by simp)) (hS b (key.1.mem_iff.1 hb)) (hS a (key.1.mem_iff.1 ha))]
    exact hab
  · exact insertionSort_sorts o' l' g1 g2

end
end GoGeo
