import Verif.Rtree.Near
import Verif.Rtree.Ops
import Mathlib.Data.List.TakeWhile

/-!
# Nearest neighbours: the list of best candidates
-/

set_option linter.unusedSectionVars false

namespace GoGeo
open GoFloat Spec
variable {F : Type} [GoFloat F]

/-! ## the distance -/

section
variable [FloatArith F]

theorem lit_num (n : Nat) : IsNum (lit n : F) := FloatOrd.dec_not_nan _ _

theorem zero_le_zero : Le (lit 0 : F) (lit 0) := Le.refl (lit_num 0)

/-- the contribution of one dimension -/
def axisDist (x a b : F) : F :=
  if lt x a then (x - a) * (x - a) else if gt x b then (x - b) * (x - b) else lit 0

theorem axisDist_nonneg (x a b : F) : Le (lit 0) (axisDist x a b) := by
  unfold axisDist
  split
  · rename_i h
    exact FloatArith.sq_nonneg _ (FloatOrd.le_left _ _ (FloatArith.sub_lt _ _ h))
  · split
    · rename_i h
      exact FloatArith.sq_nonneg _ (FloatOrd.le_right _ _ (FloatArith.sub_gt _ _ h))
    · exact zero_le_zero

theorem axisDist_mono {x a b a' b' : F} (ha : Le a a') (hb : Le b' b) (hp : Le a' b') :
    Le (axisDist x a b) (axisDist x a' b') := by
  by_cases h1 : lt x a = true
  · have h1' : lt x a' = true := lt_of_lt_of_le' h1 ha
    have e1 : axisDist x a b = (x - a) * (x - a) := by simp [axisDist, h1]
    have e2 : axisDist x a' b' = (x - a') * (x - a') := by simp [axisDist, h1']
    rw [e1, e2]
    have n1 := FloatArith.sub_lt _ _ h1
    have n2 := FloatArith.sub_lt _ _ h1'
    exact FloatArith.sq_anti _ _ n1
      (FloatArith.sub_anti _ _ _ ha (FloatOrd.le_left _ _ n1) (FloatOrd.le_left _ _ n2))
  · rw [Bool.not_eq_true] at h1
    by_cases h2 : gt x b = true
    · have h2' : gt x b' = true := lt_of_le_of_lt' hb h2
      have h3 : lt x a' = false := by
        cases h4 : lt x a'
        · rfl
        · have h5 := lt_of_lt_of_le' h4 hp
          have := lt_of_lt_of_le' h5 (le_of_lt' h2')
          rw [lt_irrefl'] at this; cases this
      have e1 : axisDist x a b = (x - b) * (x - b) := by simp [axisDist, h1, h2]
      have e2 : axisDist x a' b' = (x - b') * (x - b') := by simp [axisDist, h3, h2']
      rw [e1, e2]
      have n1 := FloatArith.sub_gt _ _ h2
      have n2 := FloatArith.sub_gt _ _ h2'
      exact FloatArith.sq_mono _ _ n1
        (FloatArith.sub_anti _ _ _ hb (FloatOrd.le_right _ _ n2) (FloatOrd.le_right _ _ n1))
    · have e1 : axisDist x a b = lit 0 := by
        unfold axisDist
        rw [Bool.not_eq_true] at h2
        simp [h1, h2]
      rw [e1]; exact axisDist_nonneg _ _ _

theorem minDist_eq (p : Point F) (r : Box F) :
    minDist p r = (lit 0 + axisDist p.X r.MinX r.MaxX) + axisDist p.Y r.MinY r.MaxY := by
  unfold minDist axisDist
  dsimp only
  split <;> split <;> first | rfl | (split <;> first | rfl | (split <;> rfl))

theorem zero_add_nonneg {a : F} (h : Le (lit 0) a) : Le (lit 0 + lit 0) (lit 0 + a) :=
  FloatArith.add_mono _ _ _ _ zero_le_zero zero_le_zero zero_le_zero h

end

section
variable {K : Type} [Field K] [LinearOrder K] [IsStrictOrderedRing K] [FloatVal F K]
open FloatVal

include K in
theorem zero_le_zero_add {a : F} (h : Le (lit 0) a) : Le (lit 0) (lit 0 + a) := by
  unfold Le at *
  rw [val_le] at *
  rw [val_add, val_lit0] at *
  have : XR.le (.fin 0) (XR.add (.fin 0) (val a)) = true := by
    cases hv : val a <;> simp_all [XR.le, XR.add]
  exact zero_le_rnd this

include K in
theorem minDist_nonneg (p : Point F) (r : Box F) : Le (lit 0) (minDist p r) := by
  rw [minDist_eq]
  have h1 := axisDist_nonneg p.X r.MinX r.MaxX
  have h2 := axisDist_nonneg p.Y r.MinY r.MaxY
  have h3 := zero_le_zero_add (K := K) h1
  have h4 : Le (lit 0 + lit 0) (lit 0 + axisDist p.X r.MinX r.MaxX + axisDist p.Y r.MinY r.MaxY) :=
    FloatArith.add_mono _ _ _ _ zero_le_zero zero_le_zero h3 h2
  exact (zero_le_zero_add (K := K) zero_le_zero).trans h4

include K in
theorem minDist_num (p : Point F) (r : Box F) : IsNum (minDist p r) := (minDist_nonneg (K := K) p r).right

include K in
/-- a larger box is not farther away -/
theorem minDist_mono (p : Point F) {a b : Box F} (h : Inside a b) (ha : ProperBox a) :
    Le (minDist p b) (minDist p a) := by
  rw [minDist_eq, minDist_eq]
  have h1 := axisDist_mono (x := p.X) h.minX h.maxX ha.x
  have h2 := axisDist_mono (x := p.Y) h.minY h.maxY ha.y
  have n1 := axisDist_nonneg p.X b.MinX b.MaxX
  have n2 := axisDist_nonneg p.Y b.MinY b.MaxY
  exact FloatArith.add_mono _ _ _ _ (zero_le_zero_add (K := K) n1) n2
    (FloatArith.add_mono _ _ _ _ zero_le_zero n1 zero_le_zero h1) h2

end

/-! ## inserting into the list of candidates -/

/-- the candidates with their distances, `(d, o)` inserted after all those not farther -/
def insKey (d : F) (o : Spatial F) (L : List (F × Spatial F)) : List (F × Spatial F) :=
  L.takeWhile (fun x => le x.1 d) ++ (d, o) :: L.dropWhile (fun x => le x.1 d)

theorem goSearch_spec {f : Nat → Bool} {g : Nat → Go Bool} {n : Nat} (hg : ∀ i, i < n → g i = .ok (f i))
    (mono : ∀ i j, i ≤ j → j < n → f j = false → f i = false) :
    ∀ (fuel i j : Nat), j - i < fuel → i ≤ j → j ≤ n → (∀ h, h < i → f h = false) →
      ∃ r, goSearch g fuel i j = .ok r ∧ r ≤ n ∧ ∀ h, h < r → f h = false := by
  intro fuel
  induction fuel with
  | zero => intro i j hf; omega
  | succ fuel ih =>
    intro i j hf hij hjn hlow
    rw [goSearch]
    split
    · rename_i hlt
      simp only
      rw [hg ((i + j) / 2) (by omega)]
      simp only [bind, Except.bind]
      cases hfh : f ((i + j) / 2) with
      | false =>
        simp only [Bool.not_false, if_true]
        exact ih _ _ (by omega) (by omega) hjn fun h hh => mono h ((i + j) / 2) (by omega) (by omega) hfh
      | true =>
        simp only [Bool.not_true, Bool.false_eq_true, if_false]
        exact ih _ _ (by omega) (by omega) (by omega) hlow
    · exact ⟨i, rfl, by omega, hlow⟩

theorem goGet_lt {α : Type} {l : List α} {i : Nat} (h : i < l.length) : goGet l i = .ok l[i] := by
  unfold goGet; rw [List.getElem?_eq_getElem h]

theorem takeWhile_length_eq {α : Type} {q : α → Bool} {l : List α} {r : Nat} (hr : r ≤ l.length)
    (h1 : ∀ i (h : i < l.length), i < r → q l[i] = true) (h2 : ∀ h : r < l.length, q l[r] = false) :
    l.takeWhile q = l.take r ∧ l.dropWhile q = l.drop r := by
  induction l generalizing r with
  | nil => simp
  | cons a l ih =>
    cases r with
    | zero =>
      have := h2 (by simp)
      simp only [List.getElem_cons_zero] at this
      simp [List.takeWhile_cons, List.dropWhile_cons, this]
    | succ r =>
      have h0 := h1 0 (by simp) (by omega)
      simp only [List.getElem_cons_zero] at h0
      have := ih (r := r) (by simpa using hr) (fun i h hi => by have := h1 (i + 1) (by simpa using h) (by omega); rwa [List.getElem_cons_succ] at this)
        (fun h => by have := h2 (by simpa using h); rwa [List.getElem_cons_succ] at this)
      simp [List.takeWhile_cons, List.dropWhile_cons, h0, this.1, this.2]

theorem skipNotFarther_spec {dists : List F} {dist : F} {n : Nat} (hn : dists.length = n) :
    ∀ (fuel i : Nat), n - i < fuel → i ≤ n → (∀ h (hh : h < dists.length), h < i → le dists[h] dist = true) →
      ∃ r, skipNotFarther dists dist n fuel i = .ok r ∧ r ≤ n ∧
        (∀ h (hh : h < dists.length), h < r → le dists[h] dist = true) ∧
        ∀ hh : r < dists.length, le dists[r] dist = false := by
  intro fuel
  induction fuel with
  | zero => intro i hf; omega
  | succ fuel ih =>
    intro i hf hin hlow
    rw [skipNotFarther]
    split
    · rename_i hlt
      rw [goGet_lt (by omega : i < dists.length)]
      simp only [bind, Except.bind, ge]
      by_cases hle : le dists[i] dist = true
      · rw [if_pos hle]
        refine ih (i + 1) (by omega) (by omega) ?_
        intro h hh hi
        rcases Nat.lt_succ_iff_lt_or_eq.1 hi with h1 | h1
        · exact hlow h hh h1
        · subst h1; exact hle
      · rw [if_neg hle]
        exact ⟨i, rfl, by omega, hlow, fun _ => by rwa [Bool.not_eq_true] at hle⟩
    · exact ⟨i, rfl, by omega, hlow, fun hh => by omega⟩

theorem perm_map_inv {α β : Type} {f : α → β} {M : List β} : ∀ {l : List α}, M.Perm (l.map f) →
    ∃ l' : List α, l'.Perm l ∧ M = l'.map f := by
  induction M with
  | nil =>
    intro l h
    have : l = [] := by simpa using h.length_eq.symm
    subst this
    exact ⟨[], List.Perm.refl _, rfl⟩
  | cons a M ih =>
    intro l h
    have ha : a ∈ l.map f := h.mem_iff.1 (by simp)
    obtain ⟨b, hb, rfl⟩ := List.mem_map.1 ha
    obtain ⟨s, t, rfl⟩ := List.append_of_mem hb
    have h2 : M.Perm ((s ++ t).map f) := by
      rw [List.map_append, List.map_cons] at h
      rw [List.map_append]
      exact (List.perm_cons _).1 (h.trans List.perm_middle)
    obtain ⟨l', h3, rfl⟩ := ih h2
    exact ⟨b :: l', (h3.cons b).trans List.perm_middle.symm, rfl⟩

theorem shiftIn_take {α β : Type} (f : α → β) (L : List α) (r : Nat) (x : α) (hr : r < L.length) :
    shiftIn (L.map f) r (f x) = .ok ((L.take r ++ x :: (L.take (L.length - 1)).drop r).map f) := by
  unfold shiftIn
  rw [if_pos (by simpa using hr)]
  simp [List.map_drop, List.map_take]

theorem shiftIn_append {α : Type} (l : List α) (r : Nat) (x z : α) (hr : r ≤ l.length) :
    shiftIn (l ++ [z]) r x = .ok (l.take r ++ x :: l.drop r) := by
  unfold shiftIn
  rw [if_pos (by simp; omega)]
  rw [List.take_append_of_le_length hr]
  simp

section
variable [FloatOrd F]

theorem insertNearest_spec {k : Nat} {L : List (F × Spatial F)} (hk : 1 ≤ k) (hL : L.length ≤ k)
    (hs : L.Pairwise fun a b => le a.1 b.1 = true) {d : F} (hd : IsNum d) (hn : ∀ x ∈ L, IsNum x.1) (o : Spatial F) :
    insertNearest (k : Int) (L.map (·.1)) (L.map (·.2)) d o =
      .ok (((insKey d o L).take k).map (·.1), ((insKey d o L).take k).map (·.2)) := by
  have hlen : (L.map (·.1)).length = L.length := by simp
  obtain ⟨i0, e0, i0n, low0⟩ := goSearch_spec (n := L.length)
    (f := fun i => match (L.map (·.1))[i]? with | some a => ge a d | none => true)
    (g := fun i => do .ok (ge (← goGet (L.map (·.1)) i) d))
    (by intro i hi
        have hi' : i < (L.map (·.1)).length := by rw [hlen]; exact hi
        rw [goGet_lt hi']
        show _ = Except.ok (match (L.map (·.1))[i]? with | some a => ge a d | none => true)
        rw [List.getElem?_eq_getElem hi']; rfl)
    (by intro i j hij hj hf
        have hj' : j < (L.map (·.1)).length := by rw [hlen]; exact hj
        have hi' : i < (L.map (·.1)).length := by omega
        rw [List.getElem?_eq_getElem hj'] at hf
        rw [List.getElem?_eq_getElem hi']
        simp only [ge, List.getElem_map] at hf ⊢
        cases hh : le d (L[i]'(by omega)).1 with
        | false => rfl
        | true =>
          rcases Nat.lt_or_eq_of_le hij with hlt | heq
          · have := List.pairwise_iff_getElem.1 hs i j (by omega) hj hlt
            rw [le_trans' hh this] at hf; cases hf
          · subst heq; rw [hh] at hf; cases hf)
    (L.length + 1) 0 L.length (by omega) (by omega) (by omega) (by intro h hh; omega)
  obtain ⟨r, e1, rn, low1, hi1⟩ := skipNotFarther_spec (dists := L.map (·.1)) (dist := d) (n := L.length) hlen
    (L.length + 1) i0 (by omega) i0n (by
      intro h hh hi
      have := low0 h hi
      rw [List.getElem?_eq_getElem hh] at this
      simp only [ge] at this
      have hnum : IsNum (L.map (·.1))[h] := by
        rw [List.getElem_map]; exact hn _ (List.getElem_mem _)
      rcases FloatOrd.le_total _ _ hd hnum with h1 | h1
      · rw [h1] at this; cases this
      · exact h1)
  have hr := takeWhile_length_eq (q := fun x : F × Spatial F => le x.1 d) (l := L) (r := r) rn
    (fun i h hi => by have := low1 i (by rw [hlen]; exact h) hi; simpa using this)
    (fun h => by have := hi1 (by rw [hlen]; exact h); simpa using this)
  have hins : insKey d o L = L.take r ++ (d, o) :: L.drop r := by
    unfold insKey; rw [hr.1, hr.2]
  unfold insertNearest searchFloat64s
  rw [hlen]
  simp only [List.length_map] at *
  simp only [bind, Except.bind] at e0 e1 ⊢
  rw [e0]
  simp only
  rw [e1]
  simp only
  split
  · rename_i hkr
    have hkr : k ≤ r := by exact_mod_cast hkr
    have : k = L.length := by omega
    have : (insKey d o L).take k = L := by
      rw [hins, List.take_append_of_le_length (by simp; omega)]
      have hrl : r = L.length := by omega
      rw [hrl, List.take_length, this, List.take_length]
    rw [this]
  · rename_i hkr
    have hkr : r < k := by
      by_contra hc
      exact hkr (by exact_mod_cast Nat.le_of_not_lt hc)
    by_cases hlk : (L.length : Int) < k
    · rw [if_pos hlk]
      simp only
      have hlk : L.length < k := by exact_mod_cast hlk
      rw [shiftIn_append _ _ _ _ (by simpa using rn)]
      simp only
      rw [shiftIn_append _ _ _ _ (by simpa using rn)]
      simp only
      have : (insKey d o L).take k = insKey d o L := by
        rw [List.take_of_length_le]
        rw [hins]; simp; omega
      rw [this, hins]
      simp [List.map_take, List.map_drop]
    · rw [if_neg hlk]
      simp only
      have hlk : L.length = k := by
        have : ¬ L.length < k := fun h => hlk (by exact_mod_cast h)
        omega
      have s1 := shiftIn_take (fun x : F × Spatial F => x.1) L r (d, o) (by omega)
      have s2 := shiftIn_take (fun x : F × Spatial F => x.2) L r (d, o) (by omega)
      simp only at s1 s2
      rw [s1]
      simp only
      rw [s2]
      have : (insKey d o L).take k = L.take r ++ (d, o) :: (L.take (L.length - 1)).drop r := by
        rw [hins, List.take_append, List.length_take, Nat.min_eq_left (by omega), List.take_of_length_le (by simp; omega)]
        congr 1
        obtain ⟨m, hm⟩ : ∃ m, k - r = m + 1 := ⟨k - r - 1, by omega⟩
        rw [hm, List.take_succ_cons, List.drop_take]
        congr 2
        omega
      rw [this]

end

/-! ## the best candidates among the objects seen -/

/-- `L` are `k` of the objects `S`, with their distances; if `c` holds, the best ones -/
structure Best (c : Prop) (k : Nat) (p : Point F) (S : List (Spatial F)) (L : List (F × Spatial F)) : Prop where
  rest : ∃ R : List (F × Spatial F),
    (S.map fun o => (minDist p (BoundingBox o.Geom), o)).Perm (L ++ R) ∧
    (R ≠ [] → L.length = k) ∧ (c → ∀ x ∈ L, ∀ y ∈ R, Le x.1 y.1)
  sorted : L.Pairwise fun a b => le a.1 b.1 = true
  len : L.length ≤ k

section
variable {K : Type} [Field K] [LinearOrder K] [IsStrictOrderedRing K] [V : FloatVal F K]
include K V

theorem Best.num {c : Prop} {k : Nat} {p : Point F} {S : List (Spatial F)} {L : List (F × Spatial F)} (hb : Best c k p S L) :
    ∀ x ∈ L, IsNum x.1 := by
  obtain ⟨R, hp, -⟩ := hb.rest
  intro x hx
  have : x ∈ L ++ R := by simp [hx]
  obtain ⟨o, -, rfl⟩ := List.mem_map.1 (hp.mem_iff.2 this)
  exact minDist_num (K := K) p _

theorem insKey_perm (d : F) (o : Spatial F) (L : List (F × Spatial F)) : (insKey d o L).Perm ((d, o) :: L) := by
  unfold insKey
  refine List.perm_middle.trans ?_
  rw [List.takeWhile_append_dropWhile]

theorem insKey_sorted {d : F} (hd : IsNum d) (o : Spatial F) {L : List (F × Spatial F)} (hn : ∀ x ∈ L, IsNum x.1)
    (hs : L.Pairwise fun a b => le a.1 b.1 = true) : (insKey d o L).Pairwise fun a b => le a.1 b.1 = true := by
  induction L with
  | nil => simp [insKey]
  | cons a L ih =>
    rw [List.pairwise_cons] at hs
    by_cases ha : le a.1 d = true
    · have : insKey d o (a :: L) = a :: insKey d o L := by simp [insKey, ha]
      rw [this, List.pairwise_cons]
      refine ⟨?_, ih (fun x hx => hn x (by simp [hx])) hs.2⟩
      intro x hx
      rcases List.mem_cons.1 ((insKey_perm (K := K) d o L).mem_iff.1 hx) with rfl | hx
      · exact ha
      · exact hs.1 x hx
    · rw [Bool.not_eq_true] at ha
      have : insKey d o (a :: L) = (d, o) :: a :: L := by simp [insKey, ha]
      have hda : le d a.1 = true := by
        rcases FloatOrd.le_total _ _ hd (hn a (by simp)) with h | h
        · exact h
        · rw [h] at ha; cases ha
      rw [this, List.pairwise_cons]
      refine ⟨?_, List.pairwise_cons.2 hs⟩
      intro x hx
      rcases List.mem_cons.1 hx with rfl | hx
      · exact hda
      · exact le_trans' hda (hs.1 x hx)

theorem Best.add {c : Prop} {k : Nat} {p : Point F} {S : List (Spatial F)} {L : List (F × Spatial F)} (hk : 1 ≤ k)
    (hb : Best c k p S L) (o : Spatial F) :
    Best c k p (S ++ [o]) ((insKey (minDist p (BoundingBox o.Geom)) o L).take k) := by
  obtain ⟨R, hp, hR, hle⟩ := hb.rest
  set d := minDist p (BoundingBox o.Geom) with hd
  have hnd : IsNum d := minDist_num (K := K) p _
  have hsort := insKey_sorted (K := K) hnd o (hb.num (K := K)) hb.sorted
  have hlen : (insKey d o L).length = L.length + 1 := (insKey_perm (K := K) d o L).length_eq
  refine ⟨⟨(insKey d o L).drop k ++ R, ?_, ?_, ?_⟩, hsort.sublist (List.take_sublist _ _), ?_⟩
  · rw [← List.append_assoc, List.take_append_drop, List.map_append]
    refine (List.perm_append_comm.trans ?_).trans ((insKey_perm (K := K) d o L).symm.append_right R)
    simp only [List.map_cons, List.map_nil, List.cons_append, List.nil_append, ← hd]
    exact hp.cons _
  · intro hne
    rw [List.length_take, hlen]
    by_cases hRn : R = []
    · have : (insKey d o L).drop k ≠ [] := by rw [hRn, List.append_nil] at hne; exact hne
      rw [Ne, List.drop_eq_nil_iff, hlen] at this
      omega
    · have := hR hRn; omega
  · intro hc x hx y hy
    rcases List.mem_append.1 hy with hy | hy
    · have := hsort
      rw [← List.take_append_drop k (insKey d o L), List.pairwise_append] at this
      exact this.2.2 x hx y hy
    · -- elements of R are not closer than any of the old candidates, of which there are k
      have hRn : R ≠ [] := List.ne_nil_of_mem hy
      have hLk := hR hRn
      by_cases hxL : x ∈ L
      · exact hle hc x hxL y hy
      · -- x = (d, o) and the last candidate was dropped
        have hxm := List.mem_of_mem_take hx
        have hxd : x = (d, o) := by
          rcases List.mem_cons.1 ((insKey_perm (K := K) d o L).mem_iff.1 hxm) with h | h
          · exact h
          · exact absurd h hxL
        obtain ⟨z, hz⟩ : ∃ z, z ∈ (insKey d o L).drop k := by
          apply List.exists_mem_of_ne_nil
          rw [Ne, List.drop_eq_nil_iff, hlen]; omega
        have h1 : le x.1 z.1 = true := by
          have := hsort
          rw [← List.take_append_drop k (insKey d o L), List.pairwise_append] at this
          exact this.2.2 x hx z hz
        have hzm := List.mem_of_mem_drop hz
        rcases List.mem_cons.1 ((insKey_perm (K := K) d o L).mem_iff.1 hzm) with h | h
        · -- z would be (d, o) as well: then it is not closer than the last element
          -- some old candidate is not closer than d
          have : ∃ w ∈ L, le d w.1 = true := by
            by_contra hno
            have hall : ∀ w ∈ L, le w.1 d = true := by
              intro w hw
              rcases FloatOrd.le_total _ _ hnd (hb.num (K := K) w hw) with h' | h'
              · exact absurd ⟨w, hw, h'⟩ hno
              · exact h'
            have e : insKey d o L = L ++ [(d, o)] := by
              unfold insKey
              rw [List.takeWhile_eq_self_iff.2 (by simpa using hall), List.dropWhile_eq_nil_iff.2 (by simpa using hall)]
            rw [e, List.take_append_of_le_length (by omega), ← hLk, List.take_length] at hx
            exact hxL hx
          obtain ⟨w, hw, hdw⟩ := this
          rw [hxd]
          exact le_trans' hdw (hle hc w hw y hy)
        · exact le_trans' h1 (hle hc z h y hy)
  · rw [List.length_take]; omega

/-- objects not closer than every candidate of a full list may be skipped -/
theorem Best.skip {c : Prop} {k : Nat} {p : Point F} {S : List (Spatial F)} {L : List (F × Spatial F)}
    (hb : Best c k p S L) (hL : L.length = k) (T : List (Spatial F))
    (hT : c → ∀ o ∈ T, ∀ x ∈ L, Le x.1 (minDist p (BoundingBox o.Geom))) : Best c k p (S ++ T) L := by
  obtain ⟨R, hp, hR, hle⟩ := hb.rest
  refine ⟨⟨R ++ T.map fun o => (minDist p (BoundingBox o.Geom), o), ?_, fun _ => hL, ?_⟩, hb.sorted, hb.len⟩
  · rw [List.map_append, ← List.append_assoc]; exact hp.append_right _
  · intro hc x hx y hy
    rcases List.mem_append.1 hy with hy | hy
    · exact hle hc x hx y hy
    · obtain ⟨o, ho, rfl⟩ := List.mem_map.1 hy
      exact hT hc o ho x hx

theorem Best.perm {c : Prop} {k : Nat} {p : Point F} {S S' : List (Spatial F)} {L : List (F × Spatial F)}
    (hb : Best c k p S L) (h : S.Perm S') : Best c k p S' L := by
  obtain ⟨R, hp, hR, hle⟩ := hb.rest
  exact ⟨⟨R, (h.symm.map _).trans hp, hR, hle⟩, hb.sorted, hb.len⟩

omit V in
theorem Best.nil {c : Prop} {k : Nat} {p : Point F} : Best c k p ([] : List (Spatial F)) [] :=
  ⟨⟨[], by simp, by simp, by simp⟩, List.Pairwise.nil, by simp⟩

/-! ## the recursion -/

theorem nearestLeaf_spec {c : Prop} {k : Nat} (hk : 1 ≤ k) (p : Point F) (es : List (Entry F)) :
    (∀ e ∈ es, e.bb = BoundingBox e.obj.Geom) →
    ∀ (S : List (Spatial F)) (L : List (F × Spatial F)), Best c k p S L →
    ∃ L', nearestLeaf (k : Int) p es (L.map (·.1)) (L.map (·.2)) = .ok (L'.map (·.2), L'.map (·.1)) ∧
      Best c k p (S ++ es.map (·.obj)) L' := by
  induction es with
  | nil => intro _ S L hb; exact ⟨L, rfl, by simpa using hb⟩
  | cons e es ih =>
    intro he S L hb
    rw [nearestLeaf, insertNearest_spec hk hb.len hb.sorted (minDist_num (K := K) p _) (hb.num (K := K))]
    simp only [bind, Except.bind]
    rw [he e (by simp)]
    obtain ⟨L', h1, h2⟩ := ih (fun e' he' => he e' (by simp [he'])) _ _ (hb.add (K := K) hk e.obj)
    exact ⟨L', h1, by simpa [List.append_assoc] using h2⟩

theorem dist_weak (l : List (F × Entry F)) (hl : ∀ x ∈ l, IsNum x.1) :
    WeakOrder (fun a b : F × Entry F => lt a.1 b.1) l where
  irrefl a _ := lt_irrefl' _
  trans a _ b _ c _ h h' := lt_of_lt_of_le' h (le_of_lt' h')
  ntrans a ha b hb c hc h h' := by
    have h1 := (lt_false_iff (hl a ha) (hl b hb)).1 h
    have h2 := (lt_false_iff (hl b hb) (hl c hc)).1 h'
    exact (lt_false_iff (hl a ha) (hl c hc)).2 (le_trans' h2 h1)

theorem nearestNode_spec {c : Prop} {srt : GoSort} (hsrt : SortOk srt) {h : Heap F} {k : Nat} (hk : 1 ≤ k) (p : Point F)
    {lo hi : Nat} (fuel : Nat) :
    ∀ {j : Nat} (x : Item F (j + 1)) (avail : Int), x.ids.length ≤ fuel → x.Rep h → x.Good → x.Fill lo hi →
      x.es.length ≤ hi → (hi : Int) * (j + 1) ≤ avail → (c → ∀ o ∈ x.objs, ProperGeom o.Geom) →
    ∀ (S : List (Spatial F)) (L : List (F × Spatial F)), Best c k p S L →
    ∃ L', nearestNode srt h (k : Int) p fuel avail (some x.id) (L.map (·.1)) (L.map (·.2)) =
        .ok (L'.map (·.2), L'.map (·.1)) ∧ Best c k p (S ++ x.objs) L' := by
  induction fuel with
  | zero => intro j x avail hf; rw [ids_eq] at hf; simp at hf
  | succ fuel ih =>
    intro j x avail hf hx gx fx hlen hav hpr S L hb
    obtain ⟨⟨par, hv⟩, hch⟩ := id hx
    rw [nearestNode, Heap.deref_some hv]
    simp only [bind, Except.bind]
    cases j with
    | zero =>
      simp only [beq_self_eq_true, if_true]
      obtain ⟨L', h1, h2⟩ := nearestLeaf_spec (K := K) hk p (x.es.map Item.entry) (by
        intro e he
        obtain ⟨q, hq, rfl⟩ := List.mem_map.1 he
        exact (gx q hq).1) S L hb
      refine ⟨L', h1, ?_⟩
      have : (x.es.map Item.entry).map (·.obj) = x.objs := by
        rw [objs_eq]; unfold objsL
        rw [List.map_map, ← List.flatMap_singleton' (List.map _ x.es), List.flatMap_map]
        rfl
      rw [← this]; exact h2
    | succ j =>
      have hb0 : ((j + 1 == 0)) = false := by simp
      rw [hb0]
      simp only [Bool.false_eq_true, if_false, List.length_map]
      have hnn : (0 : Int) ≤ (hi : Int) * (j + 1) := Int.mul_nonneg (by omega) (by omega)
      have hav' : (hi : Int) * (j + 1) + hi ≤ avail := by
        have : (hi : Int) * (((j + 1 : ℕ) : Int) + 1) = (hi : Int) * (j + 1) + hi := by push_cast; ring
        rw [this] at hav; exact hav
      rw [if_neg (by have : (x.es.length : Int) ≤ hi := by exact_mod_cast hlen
                     omega)]
      -- the sorted branches
      set keyed := (x.es.map Item.entry).map fun e => (minDist p e.bb, e) with hkeyed
      have hknum : ∀ y ∈ keyed, IsNum y.1 := by
        intro y hy
        rw [hkeyed] at hy
        obtain ⟨e, -, rfl⟩ := List.mem_map.1 hy
        exact minDist_num (K := K) p _
      have hperm := hsrt.perm _ (fun a b : F × Entry F => lt a.1 b.1) keyed
      have hsorted := hsrt.sorted _ (fun a b : F × Entry F => lt a.1 b.1) keyed (dist_weak (K := K) keyed hknum)
      -- as ghost entries
      obtain ⟨ps, hps, hbr⟩ : ∃ ps : List (Box F × Item F (j + 1)), ps.Perm x.es ∧
          srt _ (fun a b : F × Entry F => lt a.1 b.1) keyed = ps.map fun q => (minDist p q.1, Item.entry q) := by
        have hk2 : keyed = x.es.map fun q => (minDist p q.1, Item.entry q) := by
          rw [hkeyed, List.map_map]; rfl
        rw [hk2] at hperm ⊢
        obtain ⟨ps, h1, h2⟩ := perm_map_inv hperm
        exact ⟨ps, h1, h2⟩
      rw [hbr] at hsorted ⊢
      have hmem : ∀ q ∈ ps, q ∈ x.es := fun q hq => hps.mem_iff.1 hq
      have hobj : ∀ q ∈ ps, ∀ o ∈ q.2.objs, o ∈ x.objs := fun q hq o ho => by
        rw [Item.objs_succ, List.mem_flatMap]; exact ⟨q, hmem q hq, ho⟩
      -- descending into branches
      have loop : ∀ (l : List (Box F × Item F (j + 1))), (∀ q ∈ l, q ∈ x.es) →
          ∀ (S : List (Spatial F)) (L : List (F × Spatial F)), Best c k p S L →
          ∃ L', nearestBranches (nearestNode srt h (k : Int) p fuel (avail - x.es.length))
            (l.map fun q => (minDist p q.1, Item.entry q)) (L.map (·.1)) (L.map (·.2)) =
              .ok (L'.map (·.2), L'.map (·.1)) ∧ Best c k p (S ++ objsL l) L' := by
        intro l
        induction l with
        | nil => intro _ S L hb; exact ⟨L, rfl, by simpa [objsL] using hb⟩
        | cons q l ihl =>
          intro hl S L hb
          have hq := hl q (by simp)
          rw [List.map_cons, nearestBranches]
          obtain ⟨L1, h1, h2⟩ := ih q.2 (avail - x.es.length) (by have := ids_lt_of_mem hq; omega) (hch q hq).1
            (gx q hq).2 (fx q hq).2 (fx q hq).1.2 (by
              have : (x.es.length : Int) ≤ hi := by exact_mod_cast hlen
              omega) (fun hc o ho => hpr hc o (by rw [Item.objs_succ, List.mem_flatMap]; exact ⟨q, hq, ho⟩)) S L hb
          simp only [Item.entry_child, Item.child_succ]
          rw [h1]
          simp only [bind, Except.bind]
          obtain ⟨L2, h3, h4⟩ := ihl (fun q' hq' => hl q' (by simp [hq'])) _ L1 h2
          exact ⟨L2, h3, by rw [objsL_cons, ← List.append_assoc]; exact h4⟩
      have hfin : ∀ (S' : List (Spatial F)) (L' : List (F × Spatial F)), Best c k p (S ++ objsL ps) L' →
          Best c k p (S ++ x.objs) L' := by
        intro _ L' hb'
        refine hb'.perm (K := K) (List.Perm.append_left _ ?_)
        rw [objs_eq]; exact hps.flatMap_right _
      by_cases hfull : (k : Int) ≤ (L.map (·.1)).length
      · have hLk : L.length = k := by
          have h1 := hb.len
          have h2 : k ≤ L.length := by simpa using hfull
          omega
        obtain ⟨L0, z, hLz⟩ : ∃ L0 z, L = L0 ++ [z] := by
          have : L ≠ [] := by intro h0; rw [h0] at hLk; simp at hLk; omega
          exact ⟨L.dropLast, L.getLast this, (List.dropLast_append_getLast this).symm⟩
        have hgl : (L.map (·.1)).getLast? = some z.1 := by rw [hLz]; simp
        have hfull' : (k : Int) ≤ L.length := by simpa using hfull
        rw [if_pos hfull', hgl]
        simp only
        obtain ⟨kept, cut, hpk, hkept, hcut⟩ : ∃ kept cut : List (Box F × Item F (j + 1)), ps = kept ++ cut ∧
            pruneEntriesMinDist z.1 (ps.map fun q => (minDist p q.1, Item.entry q)) =
              kept.map (fun q => (minDist p q.1, Item.entry q)) ∧
            ∀ q ∈ cut, Le z.1 (minDist p q.1) := by
          refine ⟨ps.takeWhile (fun q => !(gt (minDist p q.1) z.1)), ps.dropWhile (fun q => !(gt (minDist p q.1) z.1)),
            (List.takeWhile_append_dropWhile ..).symm, ?_, ?_⟩
          · unfold pruneEntriesMinDist
            rw [List.takeWhile_map]; rfl
          · intro q hq
            cases hd : ps.dropWhile (fun q => !(gt (minDist p q.1) z.1)) with
            | nil => rw [hd] at hq; cases hq
            | cons c cs =>
              have hc : (!(gt (minDist p c.1) z.1)) = false := by
                have := List.head?_dropWhile_not (fun q : Box F × Item F (j + 1) => !(gt (minDist p q.1) z.1)) ps
                rw [hd] at this
                simpa using this
              have hzc : le z.1 (minDist p c.1) = true := by
                simp only [Bool.not_eq_false'] at hc
                exact le_of_lt' hc
              have hsub : (c :: cs).Sublist ps := hd ▸ List.dropWhile_sublist _
              have hs2 := hsorted.sublist (hsub.map fun q => (minDist p q.1, Item.entry q))
              rw [List.map_cons, List.pairwise_cons] at hs2
              rw [hd] at hq
              rcases List.mem_cons.1 hq with rfl | hq
              · exact hzc
              · have := hs2.1 _ (List.mem_map.2 ⟨q, hq, rfl⟩)
                exact le_trans' hzc ((lt_false_iff (minDist_num (K := K) p _) (minDist_num (K := K) p _)).1 this)
        rw [hkept]
        obtain ⟨L', h1, h2⟩ := loop kept (fun q hq => hmem q (by rw [hpk]; simp [hq])) (S ++ objsL cut) L (by
          refine hb.skip (K := K) hLk _ ?_
          intro hc o ho y hy
          unfold objsL at ho
          obtain ⟨q, hq, ho⟩ := List.mem_flatMap.1 ho
          have hqx : q ∈ x.es := hmem q (by rw [hpk]; simp [hq])
          have h1 : Le y.1 z.1 := by
            rw [hLz] at hy
            rcases List.mem_append.1 hy with hy | hy
            · have := hb.sorted
              rw [hLz, List.pairwise_append] at this
              exact this.2.2 y hy z (by simp)
            · rw [List.mem_singleton.1 hy]
              exact Le.refl (hb.num (K := K) z (by rw [hLz]; simp))
          refine h1.trans ((hcut q hq).trans ?_)
          rw [(gx q hqx).1]
          exact minDist_mono (K := K) p ((Item.box_spec q.2 (gx q hqx).2).2 o ho)
            (hpr hc o (by rw [Item.objs_succ, List.mem_flatMap]; exact ⟨q, hqx, ho⟩)))
        refine ⟨L', h1, hfin S L' (h2.perm (K := K) ?_)⟩
        rw [hpk]
        simp only [objsL, List.flatMap_append]
        rw [List.append_assoc]
        exact List.Perm.append_left _ List.perm_append_comm
      · have hfull' : ¬ (k : Int) ≤ L.length := by simpa using hfull
        rw [if_neg hfull']
        simp only
        obtain ⟨L', h1, h2⟩ := loop ps hmem S L hb
        exact ⟨L', h1, hfin S L' h2⟩

end

end GoGeo
