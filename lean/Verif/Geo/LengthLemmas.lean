import Verif.Geo.LineLemmas

set_option linter.unusedSectionVars false

namespace GoGeo
open GoFloat Spec

namespace XR
variable {K : Type} [Field K] [LinearOrder K]

theorem add_comm' (a b : XR K) : add a b = add b a := by
  cases a <;> cases b <;> simp [add, _root_.add_comm]

theorem add_assoc' (a b c : XR K) : add (add a b) c = add a (add b c) := by
  cases a <;> cases b <;> cases c <;> simp [add, _root_.add_assoc]

theorem zero_add' (a : XR K) : add (fin 0) a = a := by cases a <;> simp [add]
theorem add_zero' (a : XR K) : add a (fin 0) = a := by cases a <;> simp [add]

theorem sub_sq_comm (a b : XR K) : mul (sub a b) (sub a b) = mul (sub b a) (sub b a) := by
  cases a <;> cases b <;> simp [sub, add, neg, mul]
  ring

end XR

section
variable {F : Type} [GoSqrt F]

theorem lengthLoop_split (d : F) (l₁ : List (Point F)) (a : Point F) (l₂ : List (Point F)) :
    lengthLoop d (l₁ ++ a :: l₂) = lengthLoop (lengthLoop d (l₁ ++ [a])) (a :: l₂) := by
  induction l₁ generalizing d with
  | nil => rfl
  | cons p l₁ ih =>
    cases l₁ with
    | nil => rfl
    | cons q l₁ => exact ih _

theorem lengthLoop_snoc (d : F) (l : List (Point F)) (a b : Point F) :
    lengthLoop d (l ++ [a, b]) = lengthLoop d (l ++ [a]) + EuclideanDis a b := by
  rw [lengthLoop_split]; rfl

end

theorem xr_sqrt_def (x : XR ℝ) : GoSqrt.sqrt x = XR.sqrt x := rfl

theorem dis_comm_xr (p q : Point (XR ℝ)) : EuclideanDis p q = EuclideanDis q p := by
  unfold EuclideanDis
  congr 1
  show XR.add (XR.mul (XR.sub _ _) (XR.sub _ _)) (XR.mul (XR.sub _ _) (XR.sub _ _)) =
    XR.add (XR.mul (XR.sub _ _) (XR.sub _ _)) (XR.mul (XR.sub _ _) (XR.sub _ _))
  rw [XR.sub_sq_comm p.X q.X, XR.sub_sq_comm p.Y q.Y]

theorem lengthLoop_acc (d : XR ℝ) (l : List (Point (XR ℝ))) : lengthLoop d l = XR.add d (LineLength l) := by
  have key : ∀ (l : List (Point (XR ℝ))) (d e : XR ℝ), lengthLoop (XR.add d e) l = XR.add d (lengthLoop e l) := by
    intro l
    induction l with
    | nil => intro d e; rfl
    | cons p l ih =>
      cases l with
      | nil => intro d e; rfl
      | cons q l =>
        intro d e
        show lengthLoop (XR.add (XR.add d e) _) _ = XR.add d (lengthLoop (XR.add e _) _)
        rw [XR.add_assoc']
        exact ih _ _
  have h0 : (lit 0 : XR ℝ) = .fin 0 := by show XR.fin (_ : ℝ) = _; simp
  unfold LineLength
  rw [h0, ← key, XR.add_zero']

theorem length_cons_cons (p q : Point (XR ℝ)) (l : List (Point (XR ℝ))) :
    LineLength (p :: q :: l) = XR.add (EuclideanDis p q) (LineLength (q :: l)) := by
  have h0 : (lit 0 : XR ℝ) = .fin 0 := by show XR.fin (_ : ℝ) = _; simp
  show lengthLoop (XR.add (lit 0) _) _ = _
  rw [h0, XR.zero_add', lengthLoop_acc]

theorem length_reverse_xr (l : List (Point (XR ℝ))) : LineLength l.reverse = LineLength l := by
  induction l with
  | nil => rfl
  | cons p l ih =>
    cases l with
    | nil => rfl
    | cons q l =>
      rw [length_cons_cons, ← ih, List.reverse_cons, List.reverse_cons, List.append_assoc]
      show lengthLoop _ (l.reverse ++ [q, p]) = _
      rw [lengthLoop_snoc]
      show XR.add (LineLength _) _ = _
      rw [XR.add_comm', dis_comm_xr]

end GoGeo
