import Mathlib.Data.List.Perm.Basic

/-!
# `sort.Sort` and `sort.Search`

A theorem about code that sorts is stated for every function meeting the documented contract `SortOk`
of `sort.Sort`.  The algorithm of Go 1.15 is in `Verif.Go.QuickSort` and `Verif.Go.QuickSortOk` proves that it
meets the contract.
-/

namespace GoGeo

/-- `sort.Sort` on a slice of elements with `Less` = `less` -/
abbrev GoSort := (α : Type) → (α → α → Bool) → List α → List α

/-- `less` is a strict weak order on the elements of `l` -/
structure WeakOrder {α : Type} (less : α → α → Bool) (l : List α) : Prop where
  irrefl : ∀ a ∈ l, less a a = false
  trans : ∀ a ∈ l, ∀ b ∈ l, ∀ c ∈ l, less a b = true → less b c = true → less a c = true
  ntrans : ∀ a ∈ l, ∀ b ∈ l, ∀ c ∈ l, less a b = false → less b c = false → less a c = false

/-- the contract of `sort.Sort`: a permutation, and a sorted one when `Less` is a strict weak order
(no stability is promised) -/
structure SortOk (srt : GoSort) : Prop where
  perm : ∀ (α : Type) (less : α → α → Bool) (l : List α), (srt α less l).Perm l
  sorted : ∀ (α : Type) (less : α → α → Bool) (l : List α), WeakOrder less l →
    (srt α less l).Pairwise fun a b => less b a = false

/-- a sort meeting the contract -/
def insertSorted {α : Type} (less : α → α → Bool) (a : α) : List α → List α
  | [] => [a]
  | b :: l => if less b a then b :: insertSorted less a l else a :: b :: l

/-- insertion sort -/
def insSort : GoSort := fun _ less l => l.foldr (insertSorted less) []

theorem insertSorted_perm {α : Type} (less : α → α → Bool) (a : α) (l : List α) :
    (insertSorted less a l).Perm (a :: l) := by
  induction l with
  | nil => exact List.Perm.refl _
  | cons b l ih =>
    rw [insertSorted]
    split
    · exact (ih.cons b).trans (List.Perm.swap a b l)
    · exact List.Perm.refl _

theorem insSort_perm {α : Type} (less : α → α → Bool) (l : List α) : (insSort α less l).Perm l := by
  induction l with
  | nil => exact List.Perm.refl _
  | cons a l ih => exact (insertSorted_perm less a _).trans (ih.cons a)

theorem insSort_ok : SortOk insSort where
  perm _ less l := insSort_perm less l
  sorted α less l w := by
    have key : ∀ m : List α, (∀ x ∈ m, x ∈ l) → (insSort α less m).Pairwise fun a b => less b a = false := by
      intro m
      induction m with
      | nil => intro _; exact List.Pairwise.nil
      | cons a m ih =>
        intro hm
        have hs := ih fun x hx => hm x (by simp [hx])
        have ha : a ∈ l := hm a (by simp)
        have hsub : ∀ x ∈ insSort α less m, x ∈ l := fun x hx =>
          hm x (by simp [(insSort_perm less m).mem_iff.1 hx])
        show (insertSorted less a (insSort α less m)).Pairwise _
        generalize insSort α less m = r at hs hsub
        induction r with
        | nil => simp [insertSorted]
        | cons b r ihr =>
          rw [List.pairwise_cons] at hs
          rw [insertSorted]
          split
          · rename_i hba
            rw [List.pairwise_cons]
            refine ⟨?_, ihr hs.2 fun x hx => hsub x (by simp [hx])⟩
            intro x hx
            rcases List.mem_cons.1 ((insertSorted_perm less a r).mem_iff.1 hx) with rfl | hx
            · cases hab : less x b
              · rfl
              · have := w.trans _ ha _ (hsub b (by simp)) _ ha hab hba
                rw [w.irrefl _ ha] at this; cases this
            · exact hs.1 x hx
          · rename_i hba
            rw [Bool.not_eq_true] at hba
            rw [List.pairwise_cons]
            refine ⟨?_, List.pairwise_cons.2 hs⟩
            intro x hx
            rcases List.mem_cons.1 hx with rfl | hx
            · exact hba
            · exact w.ntrans _ (hsub x (by simp [hx])) _ (hsub b (by simp)) _ ha (hs.1 x hx) hba
    exact key l fun x hx => hx

end GoGeo
