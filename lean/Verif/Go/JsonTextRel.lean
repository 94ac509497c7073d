import Verif.Go.JsonTextPrint

/-! # Texts of documents which agree but for the numbers -/

namespace GoGeo.JsonText
open Json Rfc8259

section
variable {A B : Type} (R : A → B → Prop)

mutual
/-- the same document up to `R` on numbers -/
def JRel : Json A → Json B → Prop
  | .null, .null => True
  | .bool a, .bool b => a = b
  | .num x, .num y => R x y
  | .str a, .str b => a = b
  | .arr l, .arr l' => JRelList l l'
  | .obj m, .obj m' => JRelMembers m m'
  | _, _ => False
def JRelList : List (Json A) → List (Json B) → Prop
  | [], [] => True
  | j :: l, j' :: l' => JRel j j' ∧ JRelList l l'
  | _, _ => False
def JRelMembers : List (String × Json A) → List (String × Json B) → Prop
  | [], [] => True
  | (k, j) :: l, (k', j') :: l' => k = k' ∧ JRel j j' ∧ JRelMembers l l'
  | _, _ => False
end
end

section
variable {A B : Type} {R : A → B → Prop} {N : A → List Char → Prop} {M : B → List Char → Prop} {P : A → Prop}
variable (H : ∀ q t, Number t → N q t → P q → ∃ x, M x t ∧ R q x)
include H

mutual
theorem text_rel : ∀ (j : Json A) (t : List Char), Text N j t → Nums P j → ∃ j', Text M j' t ∧ JRel R j j'
  | .null, t, h, _ => ⟨.null, by simpa only [Text] using h, by simp only [JRel]⟩
  | .bool b, t, h, _ => ⟨.bool b, by simpa only [Text] using h, by simp only [JRel]⟩
  | .num q, t, h, hp => by
    simp only [Text] at h
    simp only [Nums] at hp
    obtain ⟨x, h1, h2⟩ := H q t h.1 h.2 hp
    exact ⟨.num x, by simp only [Text]; exact ⟨h.1, h1⟩, by simpa only [JRel] using h2⟩
  | .str s, t, h, _ => ⟨.str s, by simpa only [Text] using h, by simp only [JRel]⟩
  | .arr l, t, h, hp => by
    simp only [Text] at h
    simp only [Nums] at hp
    obtain ⟨b, h1, h2⟩ := h
    obtain ⟨l', h3, h4⟩ := elems_rel l b h1 hp
    exact ⟨.arr l', by simp only [Text]; exact ⟨b, h3, h2⟩, by simpa only [JRel] using h4⟩
  | .obj m, t, h, hp => by
    simp only [Text] at h
    simp only [Nums] at hp
    obtain ⟨b, h1, h2⟩ := h
    obtain ⟨l', h3, h4⟩ := members_rel m b h1 hp
    exact ⟨.obj l', by simp only [Text]; exact ⟨b, h3, h2⟩, by simpa only [JRel] using h4⟩
theorem elems_rel : ∀ (l : List (Json A)) (b : List Char), Elems N l b → NumsList P l → ∃ l', Elems M l' b ∧ JRelList R l l'
  | [], b, h, _ => ⟨[], by simpa only [Elems] using h, by simp only [JRelList]⟩
  | j :: l, b, h, hp => by
    simp only [Elems] at h
    simp only [NumsList] at hp
    obtain ⟨w, t, w', r, h1, h2, h3, h4, h5⟩ := h
    obtain ⟨j', h6, h7⟩ := text_rel j t h2 hp.1
    obtain ⟨l', h8, h9⟩ := moreElems_rel l r h4 hp.2
    exact ⟨j' :: l', by simp only [Elems]; exact ⟨w, t, w', r, h1, h6, h3, h8, h5⟩, by simp only [JRelList]; exact ⟨h7, h9⟩⟩
theorem moreElems_rel : ∀ (l : List (Json A)) (b : List Char), MoreElems N l b → NumsList P l → ∃ l', MoreElems M l' b ∧ JRelList R l l'
  | [], b, h, _ => ⟨[], by simpa only [MoreElems] using h, by simp only [JRelList]⟩
  | j :: l, b, h, hp => by
    simp only [MoreElems] at h
    simp only [NumsList] at hp
    obtain ⟨w, t, w', r, h1, h2, h3, h4, h5⟩ := h
    obtain ⟨j', h6, h7⟩ := text_rel j t h2 hp.1
    obtain ⟨l', h8, h9⟩ := moreElems_rel l r h4 hp.2
    exact ⟨j' :: l', by simp only [MoreElems]; exact ⟨w, t, w', r, h1, h6, h3, h8, h5⟩, by simp only [JRelList]; exact ⟨h7, h9⟩⟩
theorem members_rel : ∀ (l : List (String × Json A)) (b : List Char), Members N l b → NumsMembers P l → ∃ l', Members M l' b ∧ JRelMembers R l l'
  | [], b, h, _ => ⟨[], by simpa only [Members] using h, by simp only [JRelMembers]⟩
  | (k, j) :: l, b, h, hp => by
    simp only [Members] at h
    simp only [NumsMembers] at hp
    obtain ⟨w0, tk, w1, w, t, w', r, a0, ak, a1, h1, h2, h3, h4, h5⟩ := h
    obtain ⟨j', h6, h7⟩ := text_rel j t h2 hp.1
    obtain ⟨l', h8, h9⟩ := moreMembers_rel l r h4 hp.2
    exact ⟨(k, j') :: l', by simp only [Members]; exact ⟨w0, tk, w1, w, t, w', r, a0, ak, a1, h1, h6, h3, h8, h5⟩,
      by simp only [JRelMembers]; exact ⟨trivial, h7, h9⟩⟩
theorem moreMembers_rel : ∀ (l : List (String × Json A)) (b : List Char), MoreMembers N l b → NumsMembers P l →
    ∃ l', MoreMembers M l' b ∧ JRelMembers R l l'
  | [], b, h, _ => ⟨[], by simpa only [MoreMembers] using h, by simp only [JRelMembers]⟩
  | (k, j) :: l, b, h, hp => by
    simp only [MoreMembers] at h
    simp only [NumsMembers] at hp
    obtain ⟨w0, tk, w1, w, t, w', r, a0, ak, a1, h1, h2, h3, h4, h5⟩ := h
    obtain ⟨j', h6, h7⟩ := text_rel j t h2 hp.1
    obtain ⟨l', h8, h9⟩ := moreMembers_rel l r h4 hp.2
    exact ⟨(k, j') :: l', by simp only [MoreMembers]; exact ⟨w0, tk, w1, w, t, w', r, a0, ak, a1, h1, h6, h3, h8, h5⟩,
      by simp only [JRelMembers]; exact ⟨trivial, h7, h9⟩⟩
end

theorem doc_rel {j : Json A} {s : List Char} (h : Doc N j s) (hp : Nums P j) : ∃ j', Doc M j' s ∧ JRel R j j' := by
  obtain ⟨w, t, w', h1, h2, h3, h4⟩ := h
  obtain ⟨j', h5, h6⟩ := text_rel H j t h2 hp
  exact ⟨j', ⟨w, t, w', h1, h5, h3, h4⟩, h6⟩
end

section
variable {A B : Type} {R : A → B → Prop}

mutual
theorem nums_true : ∀ j : Json A, Nums (fun _ => True) j
  | .null => by simp only [Nums]
  | .bool _ => by simp only [Nums]
  | .num _ => by simp only [Nums]
  | .str _ => by simp only [Nums]
  | .arr l => by simp only [Nums]; exact numsList_true l
  | .obj m => by simp only [Nums]; exact numsMembers_true m
theorem numsList_true : ∀ l : List (Json A), NumsList (fun _ => True) l
  | [] => by simp only [NumsList]
  | j :: l => by simp only [NumsList]; exact ⟨nums_true j, numsList_true l⟩
theorem numsMembers_true : ∀ l : List (String × Json A), NumsMembers (fun _ => True) l
  | [] => by simp only [NumsMembers]
  | (_, j) :: l => by simp only [NumsMembers]; exact ⟨nums_true j, numsMembers_true l⟩
end

mutual
theorem JRel.nesting : ∀ {j : Json A} {j' : Json B}, JRel R j j' → nesting j' = nesting j
  | .null, .null, _ => rfl
  | .bool _, .bool _, _ => rfl
  | .num _, .num _, _ => rfl
  | .str _, .str _, _ => rfl
  | .arr l, .arr l', h => by
    simp only [JRel] at h
    simp only [Rfc8259.nesting, JRelList.nesting h]
  | .obj l, .obj l', h => by
    simp only [JRel] at h
    simp only [Rfc8259.nesting, JRelMembers.nesting h]
  | .null, .bool _, h | .null, .num _, h | .null, .str _, h | .null, .arr _, h | .null, .obj _, h => by simp only [JRel] at h
  | .bool _, .null, h | .bool _, .num _, h | .bool _, .str _, h | .bool _, .arr _, h | .bool _, .obj _, h => by simp only [JRel] at h
  | .num _, .null, h | .num _, .bool _, h | .num _, .str _, h | .num _, .arr _, h | .num _, .obj _, h => by simp only [JRel] at h
  | .str _, .null, h | .str _, .bool _, h | .str _, .num _, h | .str _, .arr _, h | .str _, .obj _, h => by simp only [JRel] at h
  | .arr _, .null, h | .arr _, .bool _, h | .arr _, .num _, h | .arr _, .str _, h | .arr _, .obj _, h => by simp only [JRel] at h
  | .obj _, .null, h | .obj _, .bool _, h | .obj _, .num _, h | .obj _, .str _, h | .obj _, .arr _, h => by simp only [JRel] at h
theorem JRelList.nesting : ∀ {l : List (Json A)} {l' : List (Json B)}, JRelList R l l' → nestingList l' = nestingList l
  | [], [], _ => rfl
  | j :: l, j' :: l', h => by
    simp only [JRelList] at h
    simp only [nestingList, JRel.nesting h.1, JRelList.nesting h.2]
  | [], _ :: _, h => by simp only [JRelList] at h
  | _ :: _, [], h => by simp only [JRelList] at h
theorem JRelMembers.nesting : ∀ {l : List (String × Json A)} {l' : List (String × Json B)}, JRelMembers R l l' → nestingMembers l' = nestingMembers l
  | [], [], _ => rfl
  | (k, j) :: l, (k', j') :: l', h => by
    simp only [JRelMembers] at h
    simp only [nestingMembers, JRel.nesting h.2.1, JRelMembers.nesting h.2.2]
  | [], _ :: _, h => by simp only [JRelMembers] at h
  | _ :: _, [], h => by simp only [JRelMembers] at h
end
end

section
variable {A B C : Type} {R : A → C → Prop} {S : B → C → Prop} {P : A → Prop}
variable (H : ∀ a b c, R a c → S b c → P a)
include H

mutual
/-- numbers of two documents with the same text -/
theorem JRel.nums : ∀ {j : Json A} {j' : Json B} {k : Json C}, JRel R j k → JRel S j' k → Nums P j
  | .null, _, _, _, _ => by simp only [Nums]
  | .bool _, _, _, _, _ => by simp only [Nums]
  | .str _, _, _, _, _ => by simp only [Nums]
  | .num a, .num b, .num c, h, h' => by
    simp only [JRel] at h h'
    simp only [Nums]
    exact H a b c h h'
  | .arr l, .arr l', .arr m, h, h' => by
    simp only [JRel] at h h'
    simp only [Nums]
    exact JRelList.nums h h'
  | .obj l, .obj l', .obj m, h, h' => by
    simp only [JRel] at h h'
    simp only [Nums]
    exact JRelMembers.nums h h'
  | .num a, j', .null, h, _ | .num a, j', .bool _, h, _ | .num a, j', .str _, h, _ | .num a, j', .arr _, h, _ | .num a, j', .obj _, h, _ => by simp only [JRel] at h
  | .arr a, j', .null, h, _ | .arr a, j', .bool _, h, _ | .arr a, j', .str _, h, _ | .arr a, j', .num _, h, _ | .arr a, j', .obj _, h, _ => by simp only [JRel] at h
  | .obj a, j', .null, h, _ | .obj a, j', .bool _, h, _ | .obj a, j', .str _, h, _ | .obj a, j', .num _, h, _ | .obj a, j', .arr _, h, _ => by simp only [JRel] at h
  | .num a, .null, .num _, _, h | .num a, .bool _, .num _, _, h | .num a, .str _, .num _, _, h | .num a, .arr _, .num _, _, h | .num a, .obj _, .num _, _, h => by simp only [JRel] at h
  | .arr a, .null, .arr _, _, h | .arr a, .bool _, .arr _, _, h | .arr a, .str _, .arr _, _, h | .arr a, .num _, .arr _, _, h | .arr a, .obj _, .arr _, _, h => by simp only [JRel] at h
  | .obj a, .null, .obj _, _, h | .obj a, .bool _, .obj _, _, h | .obj a, .str _, .obj _, _, h | .obj a, .num _, .obj _, _, h | .obj a, .arr _, .obj _, _, h => by simp only [JRel] at h
theorem JRelList.nums : ∀ {l : List (Json A)} {l' : List (Json B)} {m : List (Json C)}, JRelList R l m → JRelList S l' m → NumsList P l
  | [], _, _, _, _ => by simp only [NumsList]
  | j :: l, j' :: l', k :: m, h, h' => by
    simp only [JRelList] at h h'
    simp only [NumsList]
    exact ⟨JRel.nums h.1 h'.1, JRelList.nums h.2 h'.2⟩
  | _ :: _, [], _ :: _, _, h => by simp only [JRelList] at h
  | _ :: _, _, [], h, _ => by simp only [JRelList] at h
theorem JRelMembers.nums : ∀ {l : List (String × Json A)} {l' : List (String × Json B)} {m : List (String × Json C)}, JRelMembers R l m → JRelMembers S l' m →
    NumsMembers P l
  | [], _, _, _, _ => by simp only [NumsMembers]
  | (_, j) :: l, (_, j') :: l', (_, k) :: m, h, h' => by
    simp only [JRelMembers] at h h'
    simp only [NumsMembers]
    exact ⟨JRel.nums h.2.1 h'.2.1, JRelMembers.nums h.2.2 h'.2.2⟩
  | _ :: _, [], _ :: _, _, h => by simp only [JRelMembers] at h
  | _ :: _, _, [], h, _ => by simp only [JRelMembers] at h
end
end

section
variable {A : Type}
mutual
theorem JRel.eq : ∀ {j j' : Json A}, JRel Eq j j' → j = j'
  | .null, .null, _ => rfl
  | .bool _, .bool _, h => by simp only [JRel] at h; rw [h]
  | .num _, .num _, h => by simp only [JRel] at h; rw [h]
  | .str _, .str _, h => by simp only [JRel] at h; rw [h]
  | .arr l, .arr l', h => by simp only [JRel] at h; rw [JRelList.eq h]
  | .obj l, .obj l', h => by simp only [JRel] at h; rw [JRelMembers.eq h]
  | .null, .bool _, h | .null, .num _, h | .null, .str _, h | .null, .arr _, h | .null, .obj _, h => by simp only [JRel] at h
  | .bool _, .null, h | .bool _, .num _, h | .bool _, .str _, h | .bool _, .arr _, h | .bool _, .obj _, h => by simp only [JRel] at h
  | .num _, .null, h | .num _, .bool _, h | .num _, .str _, h | .num _, .arr _, h | .num _, .obj _, h => by simp only [JRel] at h
  | .str _, .null, h | .str _, .bool _, h | .str _, .num _, h | .str _, .arr _, h | .str _, .obj _, h => by simp only [JRel] at h
  | .arr _, .null, h | .arr _, .bool _, h | .arr _, .num _, h | .arr _, .str _, h | .arr _, .obj _, h => by simp only [JRel] at h
  | .obj _, .null, h | .obj _, .bool _, h | .obj _, .num _, h | .obj _, .str _, h | .obj _, .arr _, h => by simp only [JRel] at h
theorem JRelList.eq : ∀ {l l' : List (Json A)}, JRelList Eq l l' → l = l'
  | [], [], _ => rfl
  | j :: l, j' :: l', h => by
    simp only [JRelList] at h
    rw [JRel.eq h.1, JRelList.eq h.2]
  | [], _ :: _, h => by simp only [JRelList] at h
  | _ :: _, [], h => by simp only [JRelList] at h
theorem JRelMembers.eq : ∀ {l l' : List (String × Json A)}, JRelMembers Eq l l' → l = l'
  | [], [], _ => rfl
  | (k, j) :: l, (k', j') :: l', h => by
    simp only [JRelMembers] at h
    rw [h.1, JRel.eq h.2.1, JRelMembers.eq h.2.2]
  | [], _ :: _, h => by simp only [JRelMembers] at h
  | _ :: _, [], h => by simp only [JRelMembers] at h
end
end

section
variable {A B : Type} {R : A → B → Prop}

theorem JRel.obj {m : List (String × Json A)} {t : Json B} (h : JRel R (.obj m) t) : ∃ m', t = .obj m' ∧ JRelMembers R m m' := by
  cases t with
  | obj m' => exact ⟨m', rfl, by simpa only [JRel] using h⟩
  | _ => simp only [JRel] at h

theorem JRel.arr {m : List (Json A)} {t : Json B} (h : JRel R (.arr m) t) : ∃ m', t = .arr m' ∧ JRelList R m m' := by
  cases t with
  | arr m' => exact ⟨m', rfl, by simpa only [JRel] using h⟩
  | _ => simp only [JRel] at h

theorem JRelMembers.mem : ∀ {m : List (String × Json A)} {m' : List (String × Json B)} {k : String} {x : Json A}, JRelMembers R m m' → (k, x) ∈ m →
    ∃ y, (k, y) ∈ m' ∧ JRel R x y
  | [], _, _, _, _, h => by cases h
  | _ :: _, [], _, _, h, _ => by simp only [JRelMembers] at h
  | (a, b) :: m, (a', b') :: m', k, x, h, hm => by
    simp only [JRelMembers] at h
    rcases List.mem_cons.1 hm with hm | hm
    · cases hm
      exact ⟨b', by rw [h.1]; exact List.mem_cons_self, h.2.1⟩
    · obtain ⟨y, h1, h2⟩ := JRelMembers.mem h.2.2 hm
      exact ⟨y, List.mem_cons_of_mem _ h1, h2⟩

theorem JRelList.mem : ∀ {m : List (Json A)} {m' : List (Json B)} {x : Json A}, JRelList R m m' → x ∈ m → ∃ y, y ∈ m' ∧ JRel R x y
  | [], _, _, _, h => by cases h
  | _ :: _, [], _, h, _ => by simp only [JRelList] at h
  | b :: m, b' :: m', x, h, hm => by
    simp only [JRelList] at h
    rcases List.mem_cons.1 hm with rfl | hm
    · exact ⟨b', List.mem_cons_self, h.1⟩
    · obtain ⟨y, h1, h2⟩ := JRelList.mem h.2 hm
      exact ⟨y, List.mem_cons_of_mem _ h1, h2⟩
end

/-- two readings of one text -/
theorem doc_two {A B : Type} {N : A → List Char → Prop} {M : B → List Char → Prop} {P : A → Prop} (H : ∀ a b t, N a t → M b t → P a)
    {j : Json A} {j' : Json B} {s : List Char} (h : Doc N j s) (h' : Doc M j' s) : Nums P j := by
  obtain ⟨k, h1, h2⟩ := doc_rel (M := Reads some) (R := fun a t => N a t) (P := fun _ => True) (fun q t _ h _ => ⟨t, rfl, h⟩) h (nums_true j)
  obtain ⟨k', h1', h2'⟩ := doc_rel (M := Reads some) (R := fun a t => M a t) (P := fun _ => True) (fun q t _ h _ => ⟨t, rfl, h⟩) h' (nums_true j')
  have := doc_unique some h1 h1'
  subst this
  exact JRel.nums H h2 h2'

end GoGeo.JsonText
