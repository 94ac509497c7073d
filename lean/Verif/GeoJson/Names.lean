import Verif.GeoJson.Trip

/-! # Which field a member name stands for -/

set_option linter.unusedSectionVars false

namespace GoGeo.GeoJson
open GoFloat Json
variable {F : Type} [GoFloat F]

theorem equalFold_iff : ∀ (as bs : List Char), equalFold as bs = true ↔
    List.Forall₂ (fun a b => b = a ∨ b = a.toUpper ∨ (a = 's' ∧ b = 'ſ') ∨ (a = 'k' ∧ b = '\u212A')) as bs
  | [], [] => by simp [equalFold]
  | [], _ :: _ => by simp [equalFold]
  | _ :: _, [] => by simp [equalFold]
  | a :: as, b :: bs => by
    rw [equalFold, Bool.and_eq_true, List.forall₂_cons, equalFold_iff as bs]
    simp [foldChar, or_assoc]

/-- the small letters -/
def letters : List Char := "abcdefghijklmnopqrstuvwxyz".toList

theorem fold_inj {a a' b : Char} (ha : a ∈ letters) (ha' : a' ∈ letters) (h : foldChar a b = true) (h' : foldChar a' b = true) : a = a' := by
  have key : ∀ a ∈ letters, ∀ a' ∈ letters, ∀ b ∈ [a, a.toUpper, 'ſ', '\u212A'], foldChar a b = true → foldChar a' b = true → a = a' := by decide +kernel
  refine key a ha a' ha' b ?_ h h'
  simp only [foldChar, Bool.or_eq_true, Bool.and_eq_true, beq_iff_eq] at h
  simp only [List.mem_cons, List.not_mem_nil, or_false]
  tauto

theorem equalFold_inj : ∀ {as as' bs : List Char}, (∀ a ∈ as, a ∈ letters) → (∀ a ∈ as', a ∈ letters) →
    equalFold as bs = true → equalFold as' bs = true → as = as'
  | [], [], _, _, _, _, _ => rfl
  | [], _ :: _, [], _, _, _, h => by simp [equalFold] at h
  | [], _ :: _, _ :: _, _, _, h, _ => by simp [equalFold] at h
  | _ :: _, [], [], _, _, h, _ => by simp [equalFold] at h
  | _ :: _, [], _ :: _, _, _, _, h => by simp [equalFold] at h
  | _ :: _, _ :: _, [], _, _, h, _ => by simp [equalFold] at h
  | a :: as, a' :: as', b :: bs, h1, h2, h, h' => by
    rw [equalFold, Bool.and_eq_true] at h h'
    rw [fold_inj (h1 a (by simp)) (h2 a' (by simp)) h.1 h'.1,
      equalFold_inj (fun x hx => h1 x (by simp [hx])) (fun x hx => h2 x (by simp [hx])) h.2 h'.2]

theorem equalFold_refl (as : List Char) : equalFold as as = true := by
  induction as with
  | nil => rfl
  | cons a as ih => rw [equalFold, ih]; simp [foldChar]

theorem fieldOf_variant {names : List String} (hl : ∀ n ∈ names, ∀ a ∈ n.toList, a ∈ letters) {n k : String} (hn : n ∈ names)
    (h : CaseVariant n k) : fieldOf names k = some n := by
  have h := (equalFold_iff _ _).2 h
  rw [fieldOf]
  split_ifs with hk
  · rw [List.contains_iff_mem] at hk
    have := equalFold_inj (hl n hn) (hl k hk) h (equalFold_refl _)
    rw [String.toList_inj.1 this]
  · cases hf : names.find? fun n => equalFold n.toList k.toList with
    | none => exact absurd h (List.find?_eq_none.1 hf n hn)
    | some n' =>
      have h' := List.find?_some hf
      rw [String.toList_inj.1 (equalFold_inj (hl n hn) (hl n' (List.mem_of_find?_eq_some hf)) h h')]

theorem fieldOf_foreign {names : List String} {k : String} (h : ∀ n ∈ names, ¬ CaseVariant n k) : fieldOf names k = none := by
  rw [fieldOf, if_neg, List.find?_eq_none]
  · intro n hn hh
    exact h n hn ((equalFold_iff _ _).1 hh)
  · rw [List.contains_iff_mem]
    exact fun hk => h k hk ((equalFold_iff _ _).1 (equalFold_refl _))

theorem letters_geometry : ∀ n ∈ geometryNames, ∀ a ∈ n.toList, a ∈ letters := by decide +kernel
theorem letters_feature : ∀ n ∈ featureNames, ∀ a ∈ n.toList, a ∈ letters := by decide +kernel
theorem letters_collection : ∀ n ∈ collectionNames, ∀ a ∈ n.toList, a ∈ letters := by decide +kernel

theorem members_swap {σ : Type} {f : σ → String → Json F → Except String σ} {k n : String} {j : Json F} (h : ∀ s, f s k j = f s n j) (s : σ)
    (a b : List (String × Json F)) : members f s (a ++ (k, j) :: b) = members f s (a ++ (n, j) :: b) := by
  rw [members_append, members_append]
  refine congrArg _ (funext fun s' => ?_)
  rw [members, members, h]

theorem members_drop {σ : Type} {f : σ → String → Json F → Except String σ} {k : String} {j : Json F} (h : ∀ s, f s k j = .ok s) (s : σ)
    (a b : List (String × Json F)) : members f s (a ++ (k, j) :: b) = members f s (a ++ b) := by
  rw [members_append, members_append]
  refine congrArg _ (funext fun s' => ?_)
  rw [members, bindE_ok (h s')]

theorem obj_member (o : Obj F) (k : String) (j : Json F) : o.member k j = match fieldOf geometryNames k with | some n => o.set n j | none => .ok o := rfl
theorem feature_member (f : Feature F) (k : String) (j : Json F) : f.member k j = match fieldOf featureNames k with | some n => f.set n j | none => .ok f := rfl
theorem collection_member (c : FeatureCollection F) (k : String) (j : Json F) :
    c.member k j = match fieldOf collectionNames k with | some n => c.set n j | none => .ok c := rfl

theorem variant_self (n : String) : CaseVariant n n := (equalFold_iff _ _).1 (equalFold_refl _)

end GoGeo.GeoJson
