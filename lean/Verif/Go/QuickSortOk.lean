import Verif.Go.QuickSort
import Verif.Go.Sort
import Mathlib.Logic.Equiv.Basic
import Mathlib.Data.List.GetD
import Mathlib.Data.List.Permutation
import Mathlib.Tactic.Ring

/-!
# Go 1.15's `sort.Sort` meets the contract `SortOk`

`Sort115.sort` (insertion sort with a gap-6 pass, quicksort with Tukey's ninther and three-way partition, heapsort when the recursion is too
deep) returns a permutation of its argument, sorted when `Less` is a strict weak order.
-/

namespace GoGeo.Sort115
variable {α : Type} [Inhabited α]

/-- the element at a position -/
def g (p : List α) (i : Nat) : α := p.getD i default

/-- `p'` is `p` with the elements of the positions `a ≤ i < b` permuted -/
def Mv (a b : Nat) (p p' : List α) : Prop :=
  p'.length = p.length ∧ ∃ σ : Equiv.Perm Nat, (∀ k, k < a ∨ b ≤ k → σ k = k) ∧ ∀ k, g p' k = g p (σ k)

theorem Mv.refl (a b : Nat) (p : List α) : Mv a b p p := ⟨rfl, Equiv.refl _, fun _ _ => rfl, fun _ => rfl⟩

theorem Mv.trans {a b : Nat} {p q r : List α} (h : Mv a b p q) (h' : Mv a b q r) : Mv a b p r := by
  obtain ⟨l1, s, s1, s2⟩ := h
  obtain ⟨l2, t, t1, t2⟩ := h'
  refine ⟨l2.trans l1, t.trans s, fun k hk => ?_, fun k => ?_⟩
  · show s (t k) = k
    rw [t1 k hk, s1 k hk]
  · rw [t2, s2]; rfl

theorem Mv.mono {a b a' b' : Nat} {p q : List α} (h : Mv a b p q) (ha : a' ≤ a) (hb : b ≤ b') : Mv a' b' p q := by
  obtain ⟨l, s, s1, s2⟩ := h
  exact ⟨l, s, fun k hk => s1 k (by omega), s2⟩

/-- outside the range nothing moves -/
theorem Mv.out {a b : Nat} {p q : List α} (h : Mv a b p q) {k : Nat} (hk : k < a ∨ b ≤ k) : g q k = g p k := by
  obtain ⟨_, s, s1, s2⟩ := h
  rw [s2, s1 k hk]

/-- what holds of all elements of the range still does -/
theorem Mv.all {a b : Nat} {p q : List α} (h : Mv a b p q) (P : α → Prop) (hp : ∀ k, a ≤ k → k < b → P (g p k)) :
    ∀ k, a ≤ k → k < b → P (g q k) := by
  obtain ⟨_, s, s1, s2⟩ := h
  intro k h1 h2
  rw [s2]
  by_cases hk : s k < a ∨ b ≤ s k
  · have : s (s k) = s k := s1 _ hk
    have : s k = k := s.injective this
    omega
  · exact hp _ (by omega) (by omega)

theorem g_swap {p : List α} {i j : Nat} (hi : i < p.length) (hj : j < p.length) (k : Nat) :
    g (swap p i j) k = g p (Equiv.swap i j k) := by
  unfold g swap
  rw [Equiv.swap_apply_def]
  simp only [List.getD_eq_getElem?_getD, List.getElem?_set, List.length_set]
  by_cases hk : k = j
  · subst hk
    by_cases hki : k = i
    · subst hki; simp [hi]
    · simp [hki, hj]
  · by_cases hki : k = i
    · subst hki
      rw [if_neg (fun h => hk h.symm)]
      simp [hi]
    · rw [if_neg (fun h => hk h.symm), if_neg (fun h => hki h.symm)]
      simp [hk, hki]

theorem length_swap (p : List α) (i j : Nat) : (swap p i j).length = p.length := by simp [swap]

theorem Mv.swap {a b : Nat} {p : List α} {i j : Nat} (hb : b ≤ p.length) (hi : a ≤ i ∧ i < b) (hj : a ≤ j ∧ j < b) :
    Mv a b p (swap p i j) := by
  refine ⟨length_swap p i j, Equiv.swap i j, fun k hk => ?_, g_swap (by omega) (by omega)⟩
  exact Equiv.swap_apply_of_ne_of_ne (by omega) (by omega)

/-- a rearrangement of all positions is a permutation of the list -/
theorem Mv.perm {p q : List α} (h : Mv 0 p.length p q) : q.Perm p := by
  obtain ⟨l, s, s1, s2⟩ := h
  have hs : ∀ k, k < p.length → s k < p.length := by
    intro k hk
    by_contra hc
    have : s (s k) = s k := s1 _ (by omega)
    have : s k = k := s.injective this
    omega
  have e1 : q = (List.range p.length).map fun k => g p (s k) := by
    apply List.ext_getElem?
    intro k
    by_cases hk : k < p.length
    · have := s2 k
      unfold g at this
      rw [List.getD_eq_getElem _ _ (by omega)] at this
      rw [List.getElem?_eq_getElem (by omega), List.getElem?_map, List.getElem?_range hk, this]; rfl
    · rw [List.getElem?_eq_none (by omega), List.getElem?_eq_none (by simp; omega)]
  have e2 : p = (List.range p.length).map fun k => g p k := by
    apply List.ext_getElem?
    intro k
    by_cases hk : k < p.length
    · rw [List.getElem?_map, List.getElem?_range hk, List.getElem?_eq_getElem hk]
      simp [g, hk]
    · rw [List.getElem?_eq_none (by omega), List.getElem?_eq_none (by simp; omega)]
  have e3 : q = ((List.range p.length).map s).map fun k => g p k := by rw [e1, List.map_map]; rfl
  rw [e3]
  conv_rhs => rw [e2]
  apply List.Perm.map
  rw [List.perm_ext_iff_of_nodup (List.nodup_range.map s.injective) List.nodup_range]
  intro k
  rw [List.mem_map, List.mem_range]
  constructor
  · rintro ⟨x, hx, rfl⟩
    exact hs x (List.mem_range.1 hx)
  · intro hk
    refine ⟨s.symm k, ?_, by simp⟩
    rw [List.mem_range]
    by_contra hc
    have := s1 (s.symm k) (by omega)
    rw [Equiv.apply_symm_apply] at this
    omega

theorem g_swap' {p : List α} {i j : Nat} (hi : i < p.length) (hj : j < p.length) (k : Nat) :
    g (swap p i j) k = if k = i then g p j else if k = j then g p i else g p k := by
  rw [g_swap hi hj, Equiv.swap_apply_def]
  split
  · rfl
  · split <;> rfl

theorem up_spec (cond : Nat → Bool) (j n i : Nat) (hn : j ≤ i + n) :
    i ≤ up cond j n i ∧ (up cond j n i ≤ j ∨ up cond j n i = i) ∧ (∀ k, i ≤ k → k < up cond j n i → cond k = true) ∧
      (up cond j n i < j → cond (up cond j n i) = false) := by
  induction n generalizing i with
  | zero => rw [up]; exact ⟨le_refl _, Or.inr rfl, fun k h1 h2 => by omega, fun h => by omega⟩
  | succ n ih =>
    rw [up]
    split
    · rename_i h
      rw [Bool.and_eq_true, decide_eq_true_eq] at h
      obtain ⟨h1, h2, h3, h4⟩ := ih (i + 1) (by omega)
      refine ⟨by omega, by omega, fun k hk1 hk2 => ?_, h4⟩
      by_cases hk : k = i
      · rw [hk]; exact h.2
      · exact h3 k (by omega) hk2
    · rename_i h
      refine ⟨le_refl _, Or.inr rfl, fun k h1 h2 => by omega, fun hl => ?_⟩
      simpa [hl] using h

theorem down_spec (cond : Nat → Bool) (i n j : Nat) (hn : j ≤ i + n) :
    down cond i n j ≤ j ∧ (i ≤ down cond i n j ∨ down cond i n j = j) ∧ (∀ k, down cond i n j ≤ k → k < j → cond k = true) ∧
      (i < down cond i n j → cond (down cond i n j - 1) = false) := by
  induction n generalizing j with
  | zero => rw [down]; exact ⟨le_refl _, Or.inr rfl, fun k h1 h2 => by omega, fun h => by omega⟩
  | succ n ih =>
    rw [down]
    split
    · rename_i h
      rw [Bool.and_eq_true, decide_eq_true_eq] at h
      obtain ⟨h1, h2, h3, h4⟩ := ih (j - 1) (by omega)
      refine ⟨by omega, by omega, fun k hk1 hk2 => ?_, h4⟩
      by_cases hk : k = j - 1
      · rw [hk]; exact h.2
      · exact h3 k hk1 (by omega)
    · rename_i h
      refine ⟨le_refl _, Or.inr rfl, fun k h1 h2 => by omega, fun hl => ?_⟩
      simpa [hl] using h

section
variable (lt : α → α → Bool)

/-- `Less(i, j)` compares the elements at `i` and `j` -/
abbrev L : List α → Nat → Nat → Bool := fun p i j => lt (g p i) (g p j)

theorem partLoop_spec (pivot : Nat) (n : Nat) (p : List α) (b c : Nat) (hn : c ≤ b + n) (hbc : b ≤ c) (hc : c ≤ p.length) (hp : pivot < b) :
    Mv b c p (partLoop (L lt) pivot n p b c).1 ∧ b ≤ (partLoop (L lt) pivot n p b c).2.1 ∧
      (partLoop (L lt) pivot n p b c).2.1 = (partLoop (L lt) pivot n p b c).2.2 ∧ (partLoop (L lt) pivot n p b c).2.2 ≤ c ∧
      (∀ k, b ≤ k → k < (partLoop (L lt) pivot n p b c).2.1 → lt (g p pivot) (g (partLoop (L lt) pivot n p b c).1 k) = false) ∧
      (∀ k, (partLoop (L lt) pivot n p b c).2.2 ≤ k → k < c → lt (g p pivot) (g (partLoop (L lt) pivot n p b c).1 k) = true) := by
  induction n generalizing p b c with
  | zero =>
    simp only [partLoop]
    exact ⟨Mv.refl _ _ _, le_refl _, by omega, le_refl _, fun k h1 h2 => by omega, fun k h1 h2 => by omega⟩
  | succ n ih =>
    rw [partLoop]
    obtain ⟨u1, u2, u3, u4⟩ := up_spec (fun b => !L lt p pivot b) c p.length b (by omega)
    generalize up (fun b => !L lt p pivot b) c p.length b = b1 at *
    obtain ⟨d1, d2, d3, d4⟩ := down_spec (fun c => L lt p pivot c) b1 p.length c (by omega)
    generalize down (fun c => L lt p pivot c) b1 p.length c = c1 at *
    have u3' : ∀ k, b ≤ k → k < b1 → lt (g p pivot) (g p k) = false := fun k h1 h2 => by simpa [L] using u3 k h1 h2
    have d3' : ∀ k, c1 ≤ k → k < c → lt (g p pivot) (g p k) = true := fun k h1 h2 => by simpa [L] using d3 k h1 h2
    by_cases hb : b1 ≥ c1
    · simp only [if_pos hb]
      exact ⟨Mv.refl _ _ _, u1, by omega, d1, u3', d3'⟩
    · simp only [if_neg hb]
      have e1 : lt (g p pivot) (g p b1) = true := by simpa [L] using u4 (by omega)
      have e2 : lt (g p pivot) (g p (c1 - 1)) = false := by simpa [L] using d4 (by omega)
      have hne : b1 ≠ c1 - 1 := by intro h; rw [h, e2] at e1; cases e1
      have gs := g_swap' (p := p) (i := b1) (j := c1 - 1) (by omega) (by omega)
      have hpv : g (swap p b1 (c1 - 1)) pivot = g p pivot := by rw [gs, if_neg (by omega), if_neg (by omega)]
      obtain ⟨m1, m2, m3, m4, m5, m6⟩ := ih (swap p b1 (c1 - 1)) (b1 + 1) (c1 - 1) (by omega) (by omega) (by rw [length_swap]; omega) (by omega)
      rw [hpv] at m5 m6
      generalize partLoop (L lt) pivot n (swap p b1 (c1 - 1)) (b1 + 1) (c1 - 1) = r at *
      refine ⟨(Mv.swap (by omega) (by omega) (by omega)).trans (m1.mono (by omega) (by omega)), by omega, m3, by omega, fun k h1 h2 => ?_,
        fun k h1 h2 => ?_⟩
      · by_cases hk : b1 + 1 ≤ k
        · exact m5 k hk h2
        · rw [m1.out (by omega), gs]
          by_cases hkb : k = b1
          · rw [if_pos hkb]; exact e2
          · rw [if_neg hkb, if_neg (by omega)]; exact u3' k h1 (by omega)
      · by_cases hk : k < c1 - 1
        · exact m6 k h1 hk
        · rw [m1.out (by omega), gs]
          by_cases hkb : k = c1 - 1
          · rw [if_neg (by omega), if_pos hkb]; exact e1
          · rw [if_neg (by omega), if_neg hkb]; exact d3' k (by omega) h2

theorem protLoop_spec (pivot : Nat) (n : Nat) (p : List α) (a b : Nat) (hn : b ≤ a + n) (hab : a ≤ b) (hb : b ≤ p.length) (hp : pivot < a) :
    Mv a b p (protLoop (L lt) pivot n p a b).1 ∧ a ≤ (protLoop (L lt) pivot n p a b).2 ∧ (protLoop (L lt) pivot n p a b).2 ≤ b ∧
      (∀ k, a ≤ k → k < (protLoop (L lt) pivot n p a b).2 → lt (g (protLoop (L lt) pivot n p a b).1 k) (g p pivot) = true) ∧
      (∀ k, (protLoop (L lt) pivot n p a b).2 ≤ k → k < b → lt (g (protLoop (L lt) pivot n p a b).1 k) (g p pivot) = false) := by
  induction n generalizing p a b with
  | zero =>
    simp only [protLoop]
    exact ⟨Mv.refl _ _ _, hab, le_refl _, fun k h1 h2 => by omega, fun k h1 h2 => by omega⟩
  | succ n ih =>
    rw [protLoop]
    obtain ⟨d1, d2, d3, d4⟩ := down_spec (fun b => !L lt p b pivot) a p.length b (by omega)
    generalize down (fun b => !L lt p b pivot) a p.length b = b1 at *
    obtain ⟨u1, u2, u3, u4⟩ := up_spec (fun a => L lt p a pivot) b1 p.length a (by omega)
    generalize up (fun a => L lt p a pivot) b1 p.length a = a1 at *
    have u3' : ∀ k, a ≤ k → k < a1 → lt (g p k) (g p pivot) = true := fun k h1 h2 => by simpa [L] using u3 k h1 h2
    have d3' : ∀ k, b1 ≤ k → k < b → lt (g p k) (g p pivot) = false := fun k h1 h2 => by simpa [L] using d3 k h1 h2
    by_cases hb : a1 ≥ b1
    · simp only [if_pos hb]
      exact ⟨Mv.refl _ _ _, by omega, d1, fun k h1 h2 => u3' k h1 (by omega), d3'⟩
    · simp only [if_neg hb]
      have e1 : lt (g p a1) (g p pivot) = false := by simpa [L] using u4 (by omega)
      have e2 : lt (g p (b1 - 1)) (g p pivot) = true := by simpa [L] using d4 (by omega)
      have hne : a1 ≠ b1 - 1 := by intro h; rw [h, e2] at e1; cases e1
      have gs := g_swap' (p := p) (i := a1) (j := b1 - 1) (by omega) (by omega)
      have hpv : g (swap p a1 (b1 - 1)) pivot = g p pivot := by rw [gs, if_neg (by omega), if_neg (by omega)]
      obtain ⟨m1, m2, m3, m5, m6⟩ := ih (swap p a1 (b1 - 1)) (a1 + 1) (b1 - 1) (by omega) (by omega) (by rw [length_swap]; omega) (by omega)
      rw [hpv] at m5 m6
      generalize protLoop (L lt) pivot n (swap p a1 (b1 - 1)) (a1 + 1) (b1 - 1) = r at *
      refine ⟨(Mv.swap (by omega) (by omega) (by omega)).trans (m1.mono (by omega) (by omega)), by omega, by omega, fun k h1 h2 => ?_,
        fun k h1 h2 => ?_⟩
      · by_cases hk : a1 + 1 ≤ k
        · exact m5 k hk h2
        · rw [m1.out (by omega), gs]
          by_cases hkb : k = a1
          · rw [if_pos hkb]; exact e2
          · rw [if_neg hkb, if_neg (by omega)]; exact u3' k h1 (by omega)
      · by_cases hk : k < b1 - 1
        · exact m6 k h1 hk
        · rw [m1.out (by omega), gs]
          by_cases hkb : k = b1 - 1
          · rw [if_neg (by omega), if_pos hkb]; exact e1
          · rw [if_neg (by omega), if_neg hkb]; exact d3' k (by omega) h2

theorem mot_mv {a b : Nat} {p : List α} (m1 m0 m2 : Nat) (hb : b ≤ p.length) (h1 : a ≤ m1 ∧ m1 < b) (h0 : a ≤ m0 ∧ m0 < b)
    (h2 : a ≤ m2 ∧ m2 < b) : Mv a b p (medianOfThree (L lt) p m1 m0 m2) := by
  unfold medianOfThree
  have key : ∀ (q : List α) (i j : Nat) (c : Bool), b ≤ q.length → a ≤ i ∧ i < b → a ≤ j ∧ j < b → Mv a b q (if c then swap q i j else q) := by
    intro q i j c hq hi hj
    cases c
    · exact Mv.refl _ _ _
    · exact Mv.swap hq hi hj
  have k1 := key p m1 m0 (L lt p m1 m0) hb h1 h0
  simp only
  generalize (if L lt p m1 m0 = true then swap p m1 m0 else p) = q at *
  have hq : b ≤ q.length := by rw [k1.1]; exact hb
  split
  · have k2 := Mv.swap hq h2 h1
    exact (k1.trans k2).trans (key _ m1 m0 _ (by rw [k2.1]; exact hq) h1 h0)
  · exact k1

variable (f : α → Nat)

/-- on the elements of `p`, `lt` is the order of the numbers `f` -/
def Good (p : List α) : Prop := ∀ i j, lt (g p i) (g p j) = decide (f (g p i) < f (g p j))

theorem Good.mv {lt : α → α → Bool} {f : α → Nat} {a b : Nat} {p q : List α} (h : Good lt f p) (m : Mv a b p q) : Good lt f q := by
  obtain ⟨_, s, _, s2⟩ := m
  intro i j
  rw [s2, s2]; exact h _ _

theorem Good.pos {lt : α → α → Bool} {f : α → Nat} {p : List α} (h : Good lt f p) {i j : Nat} (hl : L lt p i j = true) :
    f (g p i) < f (g p j) := by
  have e := h i j
  have hl : lt (g p i) (g p j) = true := hl
  rw [hl] at e
  exact of_decide_eq_true e.symm

theorem Good.neg {lt : α → α → Bool} {f : α → Nat} {p : List α} (h : Good lt f p) {i j : Nat} (hl : ¬ L lt p i j = true) :
    f (g p j) ≤ f (g p i) := by
  have e := h i j
  have hl : lt (g p i) (g p j) = false := by simpa using hl
  rw [hl] at e
  have := of_decide_eq_false e.symm
  omega

/-- `medianOfThree` orders the three -/
theorem mot_order {p : List α} (hg : Good lt f p) (m1 m0 m2 : Nat) (h1 : m1 < p.length) (h0 : m0 < p.length) (h2 : m2 < p.length)
    (h01 : m0 ≠ m1) (h12 : m1 ≠ m2) (h02 : m0 ≠ m2) :
    f (g (medianOfThree (L lt) p m1 m0 m2) m0) ≤ f (g (medianOfThree (L lt) p m1 m0 m2) m1) ∧
      f (g (medianOfThree (L lt) p m1 m0 m2) m1) ≤ f (g (medianOfThree (L lt) p m1 m0 m2) m2) := by
  unfold medianOfThree
  simp only
  have k1 : ∃ q : List α, (if L lt p m1 m0 = true then swap p m1 m0 else p) = q ∧ q.length = p.length ∧ Good lt f q ∧ f (g q m0) ≤ f (g q m1) := by
    refine ⟨_, rfl, ?_⟩
    split
    · rename_i h
      refine ⟨length_swap _ _ _, hg.mv (Mv.swap (a := 0) (le_refl _) ⟨by omega, h1⟩ ⟨by omega, h0⟩), ?_⟩
      rw [g_swap' h1 h0, g_swap' h1 h0, if_neg h01, if_pos rfl, if_pos rfl]
      have := hg.pos h
      omega
    · rename_i h
      refine ⟨rfl, hg, ?_⟩
      have := hg.neg h
      omega
  obtain ⟨q, hq, hl, hgq, ho⟩ := k1
  rw [hq]
  split
  · rename_i h
    have hlt := hgq.pos h
    have hgs := hgq.mv (Mv.swap (a := 0) (p := q) (i := m2) (j := m1) (le_refl _) ⟨by omega, by omega⟩ ⟨by omega, by omega⟩)
    have gs := g_swap' (p := q) (i := m2) (j := m1) (by omega) (by omega)
    have g0 : g (swap q m2 m1) m0 = g q m0 := by rw [gs, if_neg h02, if_neg h01]
    have g1 : g (swap q m2 m1) m1 = g q m2 := by rw [gs, if_neg h12, if_pos rfl]
    have g2 : g (swap q m2 m1) m2 = g q m1 := by rw [gs, if_pos rfl]
    have hls := length_swap q m2 m1
    generalize swap q m2 m1 = r at *
    split
    · rename_i h'
      have hlt' := hgs.pos h'
      have gs' := g_swap' (p := r) (i := m1) (j := m0) (by omega) (by omega)
      rw [gs', gs', gs', if_neg h01, if_pos rfl, if_pos rfl, if_neg (Ne.symm h12), if_neg (Ne.symm h02)]
      rw [g1, g0] at hlt'
      rw [g1, g0, g2]
      omega
    · rename_i h'
      have hlt' := hgs.neg h'
      rw [g1, g0] at *
      rw [g2]
      omega
  · rename_i h
    have hlt := hgq.neg h
    omega

/-- the choice of the pivot in `doPivot` -/
def medians (less : List α → Nat → Nat → Bool) (p : List α) (lo hi : Nat) : List α :=
  let m := (lo + hi) / 2
  let p := if hi - lo > 40 then
      let s := (hi - lo) / 8
      let p := medianOfThree less p lo (lo + s) (lo + 2 * s)
      let p := medianOfThree less p m (m - s) (m + s)
      medianOfThree less p (hi - 1) (hi - 1 - s) (hi - 1 - 2 * s)
    else p
  medianOfThree less p lo m (hi - 1)

/-- the test for duplicates in `doPivot` -/
def dups (less : List α → Nat → Nat → Bool) (p : List α) (lo hi b c : Nat) : List α × Nat × Nat × Bool :=
  let pivot := lo
  let m := (lo + hi) / 2
  let protect := decide (hi - c < 5)
  if !protect && decide (hi - c < (hi - lo) / 4) then
      let r1 := if !less p pivot (hi - 1) then (swap p c (hi - 1), c + 1, 1) else (p, c, 0)
      let p := r1.1
      let c := r1.2.1
      let d := r1.2.2
      let r2 := if !less p (b - 1) pivot then (b - 1, d + 1) else (b, d)
      let b := r2.1
      let d := r2.2
      let r3 := if !less p m pivot then (swap p m (b - 1), b - 1, d + 1) else (p, b, d)
      (r3.1, r3.2.1, c, decide (r3.2.2 > 1))
    else (p, b, c, protect)

/-- the rest of `doPivot` -/
def finish (less : List α → Nat → Nat → Bool) (r : List α × Nat × Nat × Bool) (pivot a : Nat) : List α × Nat × Nat :=
  let p := r.1
  let b := r.2.1
  let c := r.2.2.1
  let r := if r.2.2.2 then protLoop less pivot p.length p a b else (p, b)
  (swap r.1 pivot (r.2 - 1), r.2 - 1, c)

theorem doPivot_eq (less : List α → Nat → Nat → Bool) (p : List α) (lo hi : Nat) :
    doPivot less p lo hi =
      (let q := medians less p lo hi
       let a := up (fun a => less q a lo) (hi - 1) q.length (lo + 1)
       let r := partLoop less lo q.length q a (hi - 1)
       finish less (dups less r.1 lo hi r.2.1 r.2.2) lo a) := rfl

theorem medians_spec {p : List α} {lo hi : Nat} (h12 : 12 < hi - lo) (hhi : hi ≤ p.length) :
    Mv lo hi p (medians (L lt) p lo hi) ∧
      (Good lt f p → f (g (medians (L lt) p lo hi) ((lo + hi) / 2)) ≤ f (g (medians (L lt) p lo hi) lo) ∧
        f (g (medians (L lt) p lo hi) lo) ≤ f (g (medians (L lt) p lo hi) (hi - 1))) := by
  unfold medians
  simp only
  have k : ∃ q, (if hi - lo > 40 then
      medianOfThree (L lt) (medianOfThree (L lt) (medianOfThree (L lt) p lo (lo + (hi - lo) / 8) (lo + 2 * ((hi - lo) / 8))) ((lo + hi) / 2)
        ((lo + hi) / 2 - (hi - lo) / 8) ((lo + hi) / 2 + (hi - lo) / 8)) (hi - 1) (hi - 1 - (hi - lo) / 8) (hi - 1 - 2 * ((hi - lo) / 8))
      else p) = q ∧ Mv lo hi p q := by
    refine ⟨_, rfl, ?_⟩
    split
    · have a1 := mot_mv (a := lo) (b := hi) lt (p := p) lo (lo + (hi - lo) / 8) (lo + 2 * ((hi - lo) / 8)) hhi (by omega) (by omega) (by omega)
      generalize medianOfThree (L lt) p lo (lo + (hi - lo) / 8) (lo + 2 * ((hi - lo) / 8)) = p1 at *
      have a2 := mot_mv (a := lo) (b := hi) lt (p := p1) ((lo + hi) / 2) ((lo + hi) / 2 - (hi - lo) / 8) ((lo + hi) / 2 + (hi - lo) / 8)
        (by rw [a1.1]; exact hhi) (by omega) (by omega) (by omega)
      generalize medianOfThree (L lt) p1 _ _ _ = p2 at *
      have a3 := mot_mv (a := lo) (b := hi) lt (p := p2) (hi - 1) (hi - 1 - (hi - lo) / 8) (hi - 1 - 2 * ((hi - lo) / 8))
        (by rw [a2.1, a1.1]; exact hhi) (by omega) (by omega) (by omega)
      exact (a1.trans a2).trans a3
    · exact Mv.refl _ _ _
  obtain ⟨q, hq, mv⟩ := k
  rw [hq]
  have hl := mv.1
  refine ⟨mv.trans (mot_mv lt _ _ _ (by omega) (by omega) (by omega) (by omega)), fun hg => ?_⟩
  exact mot_order lt f (hg.mv mv) _ _ _ (by omega) (by omega) (by omega) (by omega) (by omega) (by omega)

/-- what `doPivot` knows after partitioning -/
structure Parted (p : List α) (lo hi a b c : Nat) : Prop where
  bounds : lo + 1 ≤ a ∧ a ≤ b ∧ b ≤ c ∧ c < hi
  small : ∀ k, lo < k → k < a → f (g p k) < f (g p lo)
  le : ∀ k, lo < k → k < b → f (g p k) ≤ f (g p lo)
  mid : ∀ k, b ≤ k → k < c → f (g p k) = f (g p lo)
  ge : ∀ k, c ≤ k → k < hi → f (g p lo) ≤ f (g p k)

/-- the first test: the last element -/
theorem dup1 {p : List α} {lo hi a b c : Nat} (hhi : hi ≤ p.length) (hc : c < hi - 1) (hlo : lo < c) (hbc : b ≤ c) :
    ∃ q c' d', (if !L lt p lo (hi - 1) then (swap p c (hi - 1), c + 1, 1) else (p, c, 0)) = (q, c', d') ∧ Mv c hi p q ∧ c ≤ c' ∧ c' < hi ∧
      (Good lt f p → Parted f p lo hi a b c → Parted f q lo hi a b c') := by
  by_cases h : L lt p lo (hi - 1) = true
  · exact ⟨p, c, 0, by rw [h]; rfl, Mv.refl _ _ _, le_refl _, by omega, fun _ hp => hp⟩
  · have h' : L lt p lo (hi - 1) = false := by simpa using h
    refine ⟨swap p c (hi - 1), c + 1, 1, by rw [h']; rfl, Mv.swap hhi (by omega) (by omega), by omega, by omega, fun hg hp => ?_⟩
    have gs := g_swap' (p := p) (i := c) (j := hi - 1) (by omega) (by omega)
    have e0 : g (swap p c (hi - 1)) lo = g p lo := by rw [gs, if_neg (by omega), if_neg (by omega)]
    have hle := hg.neg h
    have hb := hp.bounds
    refine ⟨by omega, fun k h1 h2 => ?_, fun k h1 h2 => ?_, fun k h1 h2 => ?_, fun k h1 h2 => ?_⟩
    · rw [e0, gs, if_neg (by omega), if_neg (by omega)]; exact hp.small k h1 h2
    · rw [e0, gs, if_neg (by omega), if_neg (by omega)]; exact hp.le k h1 h2
    · rw [e0, gs]
      by_cases hk : k = c
      · rw [if_pos hk]
        have := hp.ge (hi - 1) (by omega) (by omega)
        omega
      · rw [if_neg hk, if_neg (by omega)]; exact hp.mid k h1 (by omega)
    · rw [e0, gs, if_neg (by omega)]
      by_cases hk : k = hi - 1
      · rw [if_pos hk]; exact hp.ge c (le_refl _) (by omega)
      · rw [if_neg hk]; exact hp.ge k (by omega) h2

/-- the second test: the element before `b` -/
theorem dup2 {p : List α} {lo hi a b c d : Nat} (hb : lo + 1 < b)
    (hs : ∀ k, lo < k → k < a → lt (g p k) (g p lo) = true) (hab : a ≤ b) :
    ∃ b' d', (if !L lt p (b - 1) lo then (b - 1, d + 1) else (b, d)) = (b', d') ∧ b' ≤ b ∧ b ≤ b' + 1 ∧ a ≤ b' ∧
      (Good lt f p → Parted f p lo hi a b c → Parted f p lo hi a b' c) := by
  by_cases h : L lt p (b - 1) lo = true
  · exact ⟨b, d, by rw [h]; rfl, by omega, by omega, hab, fun _ hp => hp⟩
  · have h' : L lt p (b - 1) lo = false := by simpa using h
    have ha : a ≤ b - 1 := by
      by_contra hc
      exact h (hs (b - 1) (by omega) (by omega))
    refine ⟨b - 1, d + 1, by rw [h']; rfl, by omega, by omega, ha, fun hg hp => ?_⟩
    have hle := hg.neg h
    have hb := hp.bounds
    refine ⟨by omega, hp.small, fun k h1 h2 => hp.le k h1 (by omega), fun k h1 h2 => ?_, hp.ge⟩
    by_cases hk : k = b - 1
    · have := hp.le k (by omega) (by omega)
      rw [hk] at *
      omega
    · exact hp.mid k (by omega) h2

/-- the third test: the element in the middle -/
theorem dup3 {p : List α} {lo hi a b c d m : Nat} (hbp : b ≤ p.length) (hb : lo + 1 < b) (hm : lo < m ∧ m < b)
    (hs : ∀ k, lo < k → k < a → lt (g p k) (g p lo) = true) (hab : a ≤ b) :
    ∃ q b' d', (if !L lt p m lo then (swap p m (b - 1), b - 1, d + 1) else (p, b, d)) = (q, b', d') ∧ Mv (lo + 1) b p q ∧ b' ≤ b ∧ b ≤ b' + 1 ∧ a ≤ b' ∧
      (Good lt f p → Parted f p lo hi a b c → Parted f q lo hi a b' c) := by
  by_cases h : L lt p m lo = true
  · exact ⟨p, b, d, by rw [h]; rfl, Mv.refl _ _ _, by omega, by omega, hab, fun _ hp => hp⟩
  · have h' : L lt p m lo = false := by simpa using h
    have ha : a ≤ m := by
      by_contra hc
      exact h (hs m (by omega) (by omega))
    refine ⟨swap p m (b - 1), b - 1, d + 1, by rw [h']; rfl, Mv.swap hbp (by omega) (by omega), by omega, by omega, by omega, fun hg hp => ?_⟩
    have hle := hg.neg h
    have hb := hp.bounds
    have gs := g_swap' (p := p) (i := m) (j := b - 1) (by omega) (by omega)
    have e0 : g (swap p m (b - 1)) lo = g p lo := by rw [gs, if_neg (by omega), if_neg (by omega)]
    refine ⟨by omega, fun k h1 h2 => ?_, fun k h1 h2 => ?_, fun k h1 h2 => ?_, fun k h1 h2 => ?_⟩
    · rw [e0, gs, if_neg (by omega), if_neg (by omega)]; exact hp.small k h1 h2
    · rw [e0, gs]
      by_cases hk : k = m
      · rw [if_pos hk]; exact hp.le (b - 1) (by omega) (by omega)
      · rw [if_neg hk, if_neg (by omega)]; exact hp.le k h1 (by omega)
    · rw [e0, gs]
      have := hp.le m (by omega) (by omega)
      by_cases hkm : k = m
      · rw [if_pos hkm]
        have : m = b - 1 := by omega
        rw [← this]; omega
      · rw [if_neg hkm]
        by_cases hk : k = b - 1
        · rw [if_pos hk]; omega
        · rw [if_neg hk]; exact hp.mid k (by omega) h2
    · rw [e0, gs, if_neg (by omega), if_neg (by omega)]; exact hp.ge k h1 h2

/-- the duplicates test only moves elements equal to the pivot -/
theorem dups_spec {p : List α} {lo hi a b : Nat} (h12 : 12 < hi - lo) (hhi : hi ≤ p.length) (hb : lo + 1 ≤ a ∧ a ≤ b ∧ b < hi)
    (hs : ∀ k, lo < k → k < a → lt (g p k) (g p lo) = true) :
    ∃ q b' c' pr, dups (L lt) p lo hi b b = (q, b', c', pr) ∧ Mv lo hi p q ∧ a ≤ b' ∧ b' ≤ c' ∧ c' < hi ∧ 
      (Good lt f p → Parted f p lo hi a b b → Parted f q lo hi a b' c') := by
  unfold dups
  simp only
  by_cases h : (!decide (hi - b < 5) && decide (hi - b < (hi - lo) / 4)) = true
  · rw [if_pos h]
    simp only [Bool.and_eq_true, Bool.not_eq_true', decide_eq_false_iff_not, decide_eq_true_eq] at h
    obtain ⟨q, c', d, e1, m1, c1, c2, p1⟩ := dup1 lt f (lo := lo) (a := a) (b := b) (c := b) hhi (by omega) (by omega) (le_refl _)
    rw [e1]
    simp only
    have hs1 : ∀ k, lo < k → k < a → lt (g q k) (g q lo) = true := by
      intro k h1 h2
      rw [m1.out (by omega), m1.out (by omega)]; exact hs k h1 h2
    obtain ⟨b', d', e2, b1, b2, b3, p2⟩ := dup2 lt f (hi := hi) (c := c') (d := d) (p := q) (b := b) (lo := lo) (a := a) (by omega) hs1 (by omega)
    rw [e2]
    simp only
    obtain ⟨q', b'', d'', e3, m3, b4, b5, b6, p3⟩ := dup3 lt f (hi := hi) (c := c') (d := d') (p := q) (b := b') (lo := lo) (a := a) (m := (lo + hi) / 2)
      (by rw [m1.1]; omega) (by omega) (by omega) hs1 (by omega)
    rw [e3]
    refine ⟨_, _, _, _, rfl, (m1.mono (by omega) (le_refl _)).trans (m3.mono (by omega) (by omega)), b6, (b4.trans b1).trans c1, c2, fun hg hp => ?_⟩
    exact p3 (hg.mv m1) (p2 (hg.mv m1) (p1 hg hp))
  · rw [if_neg h]
    exact ⟨_, _, _, _, rfl, Mv.refl _ _ _, hb.2.1, le_refl _, hb.2.2, fun _ hp => hp⟩

theorem finish_spec {p : List α} {lo hi a b c : Nat} (pr : Bool) (hhi : hi ≤ p.length) (hb : lo + 1 ≤ a ∧ a ≤ b ∧ b ≤ c ∧ c < hi) :
    ∃ q mlo, finish (L lt) (p, b, c, pr) lo a = (q, mlo, c) ∧ Mv lo hi p q ∧ lo ≤ mlo ∧ mlo < c ∧
      (Good lt f p → Parted f p lo hi a b c →
        ∃ x, (∀ k, lo ≤ k → k < mlo → f (g q k) ≤ x) ∧ (∀ k, mlo ≤ k → k < c → f (g q k) = x) ∧ (∀ k, c ≤ k → k < hi → x ≤ f (g q k))) := by
  have k1 : ∃ q b', (if pr then protLoop (L lt) lo p.length p a b else (p, b)) = (q, b') ∧ Mv a b p q ∧ a ≤ b' ∧ b' ≤ b ∧
      (Good lt f p → Parted f p lo hi a b c → Parted f q lo hi a b' c) := by
    cases pr
    · exact ⟨p, b, rfl, Mv.refl _ _ _, hb.2.1, le_refl _, fun _ hp => hp⟩
    · obtain ⟨m1, m2, m3, m4, m5⟩ := protLoop_spec lt lo p.length p a b (by omega) (by omega) (by omega) (by omega)
      refine ⟨_, _, rfl, m1, m2, m3, fun hg hp => ?_⟩
      generalize protLoop (L lt) lo p.length p a b = r at *
      have e0 : g r.1 lo = g p lo := m1.out (by omega)
      have hg' := hg.mv m1
      rw [← e0] at m4 m5
      refine ⟨by omega, fun k h1 h2 => ?_, fun k h1 h2 => ?_, fun k h1 h2 => ?_, fun k h1 h2 => ?_⟩
      · rw [e0, m1.out (by omega)]; exact hp.small k h1 h2
      · by_cases hk : k < a
        · rw [e0, m1.out (by omega)]; exact hp.le k h1 (by omega)
        · exact (hg'.pos (m4 k (by omega) h2)).le
      · by_cases hk : k < b
        · have e1 := hg'.neg (i := k) (j := lo) (by rw [show L lt r.1 k lo = false from m5 k h1 hk]; simp)
          have e2 := m1.all (fun x => f x ≤ f (g p lo)) (fun j h1 h2 => hp.le j (by omega) h2) k (by omega) hk
          rw [← e0] at e2
          omega
        · rw [e0, m1.out (by omega)]; exact hp.mid k (by omega) h2
      · rw [e0, m1.out (by omega)]; exact hp.ge k h1 h2
  obtain ⟨q, b', e, m, h1, h2, hp⟩ := k1
  unfold finish
  simp only
  rw [e]
  have hl := m.1
  refine ⟨_, _, rfl, (m.mono (by omega) (by omega)).trans (Mv.swap (by omega) (by omega) (by omega)), by omega, by omega, fun hg hpp => ?_⟩
  have hq := hp hg hpp
  have gs := g_swap' (p := q) (i := lo) (j := b' - 1) (by omega) (by omega)
  refine ⟨f (g q lo), fun k h1 h2 => ?_, fun k h1 h2 => ?_, fun k h1 h2 => ?_⟩
  · simp only at h2 ⊢
    rw [gs]
    by_cases hk : k = lo
    · rw [if_pos hk]; exact hq.le _ (by omega) (by omega)
    · rw [if_neg hk, if_neg (by omega)]; exact hq.le _ (by omega) (by omega)
  · simp only at h1 ⊢
    rw [gs]
    by_cases hk : k = lo
    · rw [if_pos hk]
      have : b' - 1 = lo := by omega
      rw [this]
    · rw [if_neg hk]
      by_cases hkb : k = b' - 1
      · rw [if_pos hkb]
      · rw [if_neg hkb]; exact hq.mid _ (by omega) (by omega)
  · simp only
    rw [gs, if_neg (by omega), if_neg (by omega)]; exact hq.ge k h1 h2

/-- `doPivot`: elements at most the pivot, equal to it, at least it -/
theorem doPivot_spec {p : List α} {lo hi : Nat} (h12 : 12 < hi - lo) (hhi : hi ≤ p.length) :
    ∃ q mlo mhi, doPivot (L lt) p lo hi = (q, mlo, mhi) ∧ Mv lo hi p q ∧ lo ≤ mlo ∧ mlo < mhi ∧ mhi < hi ∧
      (Good lt f p →
        ∃ x, (∀ k, lo ≤ k → k < mlo → f (g q k) ≤ x) ∧ (∀ k, mlo ≤ k → k < mhi → f (g q k) = x) ∧ (∀ k, mhi ≤ k → k < hi → x ≤ f (g q k))) := by
  rw [doPivot_eq]
  simp only
  obtain ⟨m1, o1⟩ := medians_spec lt f h12 hhi
  generalize medians (L lt) p lo hi = q at *
  have hl := m1.1
  obtain ⟨u1, u2, u3, u4⟩ := up_spec (fun a => L lt q a lo) (hi - 1) q.length (lo + 1) (by omega)
  generalize up (fun a => L lt q a lo) (hi - 1) q.length (lo + 1) = a at *
  obtain ⟨v1, v2, v3, v4, v5, v6⟩ := partLoop_spec lt lo q.length q a (hi - 1) (by omega) (by omega) (by omega) (by omega)
  generalize partLoop (L lt) lo q.length q a (hi - 1) = r at *
  obtain ⟨q1, b1, c1⟩ := r
  simp only at v1 v2 v3 v4 v5 v6 ⊢
  subst v3
  have e0 : g q1 lo = g q lo := v1.out (by omega)
  have hs : ∀ k, lo < k → k < a → lt (g q1 k) (g q1 lo) = true := by
    intro k h1 h2
    rw [v1.out (by omega), e0]; exact u3 k h1 h2
  have hl1 := v1.1
  obtain ⟨q2, b2, c2, pr, e2, m2, x1, x2, x3, x4⟩ := dups_spec lt f (p := q1) (lo := lo) (hi := hi) (a := a) (b := b1) h12 (by omega) (by omega) hs
  rw [e2]
  have hl2 := m2.1
  obtain ⟨q3, mlo, e3, m3, y1, y2, y3⟩ := finish_spec lt f (p := q2) (lo := lo) (hi := hi) (a := a) (b := b2) (c := c2) pr (by omega) (by omega)
  rw [e3]
  have mq : Mv lo hi p q1 := m1.trans (v1.mono (by omega) (by omega))
  refine ⟨_, _, _, rfl, (mq.trans m2).trans m3, y1, y2, x3, fun hg => ?_⟩
  have hgq := hg.mv m1
  have hg1 := hg.mv mq
  refine y3 (hg1.mv m2) (x4 hg1 ⟨by omega, fun k h1 h2 => hg1.pos (hs k h1 h2), fun k h1 h2 => ?_, fun k h1 h2 => by omega, fun k h1 h2 => ?_⟩)
  · by_cases hk : k < a
    · exact (hg1.pos (hs k h1 hk)).le
    · rw [← e0] at v5
      exact hg1.neg (by rw [show L lt q1 lo k = false from v5 k (by omega) h2]; simp)
  · by_cases hk : k < hi - 1
    · rw [← e0] at v6
      exact (hg1.pos (v6 k h1 hk)).le
    · have : k = hi - 1 := by omega
      rw [this, e0, v1.out (by omega)]
      exact (o1 hg).2

/-- the positions `a ≤ i < b` are in order -/
def Srt (p : List α) (a b : Nat) : Prop := ∀ i j, a ≤ i → i < j → j < b → f (g p i) ≤ f (g p j)

theorem insLoop_mv (a : Nat) (j : Nat) (p : List α) (ha : a ≤ j) (hj : j < p.length) : Mv a (j + 1) p (insLoop (L lt) a j p) := by
  induction j generalizing p with
  | zero => exact Mv.refl _ _ _
  | succ j ih =>
    rw [insLoop]
    split
    · rename_i h
      rw [Bool.and_eq_true, decide_eq_true_eq] at h
      have m := Mv.swap (a := a) (b := j + 2) (p := p) (i := j + 1) (j := j) (by omega) (by omega) (by omega)
      exact m.trans ((ih _ (by omega) (by rw [m.1]; omega)).mono (le_refl _) (by omega))
    · exact Mv.refl _ _ _

theorem insLoop_srt (a e : Nat) (j : Nat) (p : List α) (ha : a ≤ j) (hj : j < e) (he : e ≤ p.length) (hg : Good lt f p)
    (h : ∀ x y, a ≤ x → x < y → y < e → y ≠ j → f (g p x) ≤ f (g p y)) : Srt f (insLoop (L lt) a j p) a e := by
  induction j generalizing p with
  | zero =>
    intro x y h1 h2 h3
    exact h x y h1 h2 h3 (by omega)
  | succ j ih =>
    rw [insLoop]
    split
    · rename_i hc
      rw [Bool.and_eq_true, decide_eq_true_eq] at hc
      have m := Mv.swap (a := 0) (b := e) (p := p) (i := j + 1) (j := j) (by omega) (by omega) (by omega)
      have gs := g_swap' (p := p) (i := j + 1) (j := j) (by omega) (by omega)
      have hlt := hg.pos hc.2
      refine ih _ (by omega) (by omega) (by rw [m.1]; exact he) (hg.mv m) ?_
      intro x y h1 h2 h3 h4
      rw [gs, gs]
      by_cases hy : y = j + 1
      · rw [if_pos hy]
        by_cases hx : x = j
        · rw [if_neg (by omega), if_pos hx]; omega
        · rw [if_neg (by omega), if_neg hx]; exact h x j h1 (by omega) (by omega) (by omega)
      · rw [if_neg hy, if_neg h4]
        by_cases hx : x = j + 1
        · rw [if_pos hx]; exact h j y (by omega) (by omega) h3 hy
        · rw [if_neg hx]
          by_cases hxj : x = j
          · rw [if_pos hxj]; exact h (j + 1) y (by omega) (by omega) h3 hy
          · rw [if_neg hxj]; exact h x y h1 h2 h3 hy
    · rename_i hc
      intro x y h1 h2 h3
      by_cases hy : y = j + 1
      · have hc' : ¬ L lt p (j + 1) j = true := by
          intro hl
          exact hc (by rw [hl, Bool.and_true]; exact decide_eq_true (by omega))
        have := hg.neg hc'
        rw [hy]
        by_cases hx : x = j
        · rw [hx]; exact this
        · exact (h x j h1 (by omega) (by omega) (by omega)).trans this
      · exact h x y h1 h2 h3 hy

theorem insertion_aux (a : Nat) (n i : Nat) (p : List α) (ha : a ≤ i) (hb : i + n ≤ p.length) :
    Mv a (i + n) p ((List.range' i n).foldl (fun p i => insLoop (L lt) a i p) p) ∧
      (Good lt f p → Srt f p a i → Srt f ((List.range' i n).foldl (fun p i => insLoop (L lt) a i p) p) a (i + n)) := by
  induction n generalizing i p with
  | zero => exact ⟨Mv.refl _ _ _, fun _ h => h⟩
  | succ n ih =>
    rw [List.range'_succ, List.foldl_cons]
    have m := insLoop_mv lt a i p ha (by omega)
    obtain ⟨h1, h2⟩ := ih (i + 1) (insLoop (L lt) a i p) (by omega) (by rw [m.1]; omega)
    rw [show i + 1 + n = i + (n + 1) by omega] at h1 h2
    refine ⟨(m.mono (le_refl _) (by omega)).trans h1, fun hg hs => h2 (hg.mv m) ?_⟩
    exact insLoop_srt lt f a (i + 1) i p ha (by omega) (by omega) hg fun x y x1 x2 x3 x4 => hs x y x1 x2 (by omega)

theorem insertion_spec {a b : Nat} {p : List α} (hab : a + 1 < b) (hb : b ≤ p.length) :
    Mv a b p (insertion (L lt) p a b) ∧ (Good lt f p → Srt f (insertion (L lt) p a b) a b) := by
  obtain ⟨h1, h2⟩ := insertion_aux lt f a (b - a - 1) (a + 1) p (by omega) (by omega)
  rw [show a + 1 + (b - a - 1) = b by omega] at h1 h2
  exact ⟨h1, fun hg => h2 hg fun x y _ _ _ => by omega⟩

theorem shell_mv {a b : Nat} {p : List α} (hb : b ≤ p.length) : Mv a b p (shell (L lt) p a b) := by
  unfold shell
  have key : ∀ (n i : Nat) (p : List α), a + 6 ≤ i → i + n ≤ b ∨ n = 0 → b ≤ p.length →
      Mv a b p ((List.range' i n).foldl (fun p i => if L lt p i (i - 6) then swap p i (i - 6) else p) p) := by
    intro n
    induction n with
    | zero => intro i p _ _ _; exact Mv.refl _ _ _
    | succ n ih =>
      intro i p h1 h2 h3
      rw [List.range'_succ, List.foldl_cons]
      have m : Mv a b p (if L lt p i (i - 6) then swap p i (i - 6) else p) := by
        split
        · exact Mv.swap h3 (by omega) (by omega)
        · exact Mv.refl _ _ _
      exact m.trans (ih (i + 1) _ (by omega) (by omega) (by rw [m.1]; exact h3))
  exact key _ _ p (le_refl _) (by omega) hb

/-! ### Heapsort -/

theorem siftDown_mv (a hi : Nat) (n : Nat) (p : List α) (r : Nat) (hb : a + hi ≤ p.length) :
    Mv a (a + hi) p (siftDown (L lt) hi a n p r) := by
  induction n generalizing p r with
  | zero => exact Mv.refl _ _ _
  | succ n ih =>
    rw [siftDown]
    simp only
    by_cases hc : 2 * r + 1 ≥ hi
    · rw [if_pos hc]; exact Mv.refl _ _ _
    · rw [if_neg hc]
      have hch : ∃ ch, (if (decide (2 * r + 1 + 1 < hi) && L lt p (a + (2 * r + 1)) (a + (2 * r + 1) + 1)) = true then 2 * r + 1 + 1 else 2 * r + 1) = ch ∧
          r < ch ∧ ch < hi := by
        refine ⟨_, rfl, ?_⟩
        split
        · rename_i h
          rw [Bool.and_eq_true, decide_eq_true_eq] at h
          omega
        · omega
      obtain ⟨ch, e, h1, h2⟩ := hch
      rw [e]
      split
      · exact Mv.refl _ _ _
      · have m := Mv.swap (a := a) (b := a + hi) (p := p) (i := a + r) (j := a + ch) hb (by omega) (by omega)
        exact m.trans (ih _ _ (by rw [m.1]; exact hb))

/-- the heap order below `hi`, for the nodes from `lo` on -/
def HeapFrom (p : List α) (a lo hi : Nat) : Prop :=
  ∀ i c, lo ≤ i → (c = 2 * i + 1 ∨ c = 2 * i + 2) → c < hi → f (g p (a + c)) ≤ f (g p (a + i))

theorem siftDown_heap (a lo hi : Nat) (n : Nat) (p : List α) (r : Nat) (hb : a + hi ≤ p.length) (hn : hi ≤ r + n) (hlr : lo ≤ r)
    (hg : Good lt f p)
    (h1 : ∀ i c, lo ≤ i → (c = 2 * i + 1 ∨ c = 2 * i + 2) → c < hi → i ≠ r → f (g p (a + c)) ≤ f (g p (a + i)))
    (h2 : ∀ q c, lo ≤ q → (r = 2 * q + 1 ∨ r = 2 * q + 2) → (c = 2 * r + 1 ∨ c = 2 * r + 2) → c < hi → f (g p (a + c)) ≤ f (g p (a + q))) :
    HeapFrom f (siftDown (L lt) hi a n p r) a lo hi := by
  induction n generalizing p r with
  | zero =>
    rw [siftDown]
    intro i c e1 e2 e3
    exact h1 i c e1 e2 e3 (by omega)
  | succ n ih =>
    rw [siftDown]
    simp only
    by_cases hc : 2 * r + 1 ≥ hi
    · rw [if_pos hc]
      intro i c e1 e2 e3
      exact h1 i c e1 e2 e3 (by omega)
    · rw [if_neg hc]
      have hch : ∃ ch, (if (decide (2 * r + 1 + 1 < hi) && L lt p (a + (2 * r + 1)) (a + (2 * r + 1) + 1)) = true then 2 * r + 1 + 1 else 2 * r + 1) = ch ∧
          (ch = 2 * r + 1 ∨ ch = 2 * r + 2) ∧ ch < hi ∧ ∀ c, (c = 2 * r + 1 ∨ c = 2 * r + 2) → c < hi → f (g p (a + c)) ≤ f (g p (a + ch)) := by
        refine ⟨_, rfl, ?_⟩
        split
        · rename_i h
          rw [Bool.and_eq_true, decide_eq_true_eq] at h
          have := hg.pos h.2
          refine ⟨Or.inr rfl, h.1, ?_⟩
          rintro c (rfl | rfl) hch
          · exact this.le
          · exact le_refl _
        · rename_i h
          refine ⟨Or.inl rfl, by omega, ?_⟩
          rintro c (rfl | rfl) hch
          · exact le_refl _
          · refine hg.neg (i := a + (2 * r + 1)) (j := a + (2 * r + 2)) fun hl => h ?_
            rw [Bool.and_eq_true, decide_eq_true_eq]
            exact ⟨by omega, hl⟩
      obtain ⟨ch, e, c1, c2, c3⟩ := hch
      rw [e]
      by_cases hl : L lt p (a + r) (a + ch) = true
      · rw [hl, if_neg (by simp)]
        have hlt := hg.pos hl
        have m := Mv.swap (a := a) (b := a + hi) (p := p) (i := a + r) (j := a + ch) hb (by omega) (by omega)
        have gs := g_swap' (p := p) (i := a + r) (j := a + ch) (by omega) (by omega)
        refine ih _ _ (by rw [m.1]; exact hb) (by omega) (by omega) (hg.mv m) ?_ ?_
        · intro i c e1 e2 e3 e4
          rw [gs, gs]
          by_cases hir : i = r
          · subst hir
            rw [if_neg (by omega), if_pos (c := a + i = a + i) rfl]
            by_cases hcc : c = ch
            · rw [if_pos (by omega)]; omega
            · rw [if_neg (by omega)]; exact c3 c e2 e3
          · rw [if_neg (c := a + i = a + r) (by omega), if_neg (c := a + i = a + ch) (by omega), if_neg (c := a + c = a + ch) (by omega)]
            by_cases hcr : c = r
            · rw [if_pos (by omega)]
              exact h2 i ch e1 (by omega) (by omega) (by omega)
            · rw [if_neg (by omega)]; exact h1 i c e1 e2 e3 hir
        · intro q c e1 e2 e3 e4
          have : q = r := by omega
          subst this
          rw [gs, gs, if_neg (by omega), if_neg (by omega), if_pos rfl]
          exact h1 ch c (by omega) e3 e4 (by omega)
      · have hl' : L lt p (a + r) (a + ch) = false := by simpa using hl
        rw [hl', if_pos (by simp)]
        have hle := hg.neg hl
        intro i c e1 e2 e3
        by_cases hir : i = r
        · subst hir; exact (c3 c e2 e3).trans hle
        · exact h1 i c e1 e2 e3 hir

theorem heap_max {p : List α} {a hi : Nat} (h : HeapFrom f p a 0 hi) (i : Nat) (hi' : i < hi) : f (g p (a + i)) ≤ f (g p a) := by
  induction i using Nat.strong_induction_on with
  | _ i ih =>
    by_cases h0 : i = 0
    · rw [h0]; exact le_refl _
    · have := h ((i - 1) / 2) i (by omega) (by omega) hi'
      exact this.trans (ih _ (by omega) (by omega))

theorem heapify (a hi : Nat) (K : Nat) (p : List α) (hb : a + hi ≤ p.length) :
    Mv a (a + hi) p ((List.range K).reverse.foldl (fun p i => siftDown (L lt) hi a p.length p i) p) ∧
      (Good lt f p → HeapFrom f p a K hi →
        HeapFrom f ((List.range K).reverse.foldl (fun p i => siftDown (L lt) hi a p.length p i) p) a 0 hi) := by
  induction K generalizing p with
  | zero => exact ⟨Mv.refl _ _ _, fun _ h => h⟩
  | succ K ih =>
    rw [List.range_succ, List.reverse_append, List.reverse_singleton, List.singleton_append, List.foldl_cons]
    have m := siftDown_mv lt a hi p.length p K hb
    obtain ⟨h1, h2⟩ := ih (siftDown (L lt) hi a p.length p K) (by rw [m.1]; exact hb)
    refine ⟨m.trans h1, fun hg hh => h2 (hg.mv m) ?_⟩
    exact siftDown_heap lt f a K hi p.length p K hb (by omega) (le_refl _) hg (fun i c e1 e2 e3 e4 => hh i c (by omega) e2 e3)
      (fun q c e1 e2 _ _ => by omega)

theorem sortPhase (a hi : Nat) (K : Nat) (p : List α) (hK : K ≤ hi) (hb : a + hi ≤ p.length) :
    Mv a (a + hi) p ((List.range K).reverse.foldl (fun p i => siftDown (L lt) i a p.length (swap p a (a + i)) 0) p) ∧
      (Good lt f p → HeapFrom f p a 0 K → Srt f p (a + K) (a + hi) → (∀ i j, i < K → K ≤ j → j < hi → f (g p (a + i)) ≤ f (g p (a + j))) →
        Srt f ((List.range K).reverse.foldl (fun p i => siftDown (L lt) i a p.length (swap p a (a + i)) 0) p) a (a + hi)) := by
  induction K generalizing p with
  | zero => exact ⟨Mv.refl _ _ _, fun _ _ h _ => h⟩
  | succ K ih =>
    rw [List.range_succ, List.reverse_append, List.reverse_singleton, List.singleton_append, List.foldl_cons]
    have m0 := Mv.swap (a := a) (b := a + K + 1) (p := p) (i := a) (j := a + K) (by omega) (by omega) (by omega)
    have gs := g_swap' (p := p) (i := a) (j := a + K) (by omega) (by omega)
    have hl0 := m0.1
    generalize swap p a (a + K) = q at *
    have m1 := siftDown_mv lt a K p.length q 0 (by omega)
    have hl1 := m1.1
    obtain ⟨h1, h2⟩ := ih (siftDown (L lt) K a p.length q 0) (by omega) (by omega)
    refine ⟨((m0.mono (le_refl _) (by omega)).trans (m1.mono (le_refl _) (by omega))).trans h1, fun hg hh hs hle => ?_⟩
    have hgq := hg.mv m0
    have hmax : ∀ k, k ≤ K → f (g p (a + k)) ≤ f (g p a) := fun k hk => heap_max f hh k (by omega)
    have eK : g q (a + K) = g p a := by
      rw [gs]
      by_cases h0 : K = 0
      · subst h0; simp
      · rw [if_neg (by omega), if_pos rfl]
    have hq : ∀ k, a ≤ k → k < a + K + 1 → f (g q k) ≤ f (g p a) :=
      m0.all (fun x => f x ≤ f (g p a)) fun k k1 k2 => by
        have := hmax (k - a) (by omega)
        rwa [show a + (k - a) = k by omega] at this
    have hr : ∀ k, a ≤ k → k < a + K → f (g (siftDown (L lt) K a p.length q 0) k) ≤ f (g p a) :=
      m1.all (fun x => f x ≤ f (g p a)) fun k k1 k2 => hq k k1 (by omega)
    have hout : ∀ k, a + K < k → g (siftDown (L lt) K a p.length q 0) k = g p k := fun k hk => by
      rw [m1.out (by omega), m0.out (by omega)]
    have hK' : g (siftDown (L lt) K a p.length q 0) (a + K) = g p a := by rw [m1.out (by omega), eK]
    have hbig : ∀ j, a + K < j → j < a + hi → f (g p a) ≤ f (g p j) := fun j j1 j2 => by
      have := hle 0 (j - a) (by omega) (by omega) (by omega)
      rwa [show a + (j - a) = j by omega, Nat.add_zero] at this
    refine h2 (hgq.mv m1) ?_ ?_ ?_
    · refine siftDown_heap lt f a 0 K p.length q 0 (by omega) (by omega) (le_refl _) hgq ?_ (fun q c e1 e2 _ _ => by omega)
      intro i c e1 e2 e3 e4
      rw [gs, gs, if_neg (by omega), if_neg (by omega), if_neg (by omega), if_neg (by omega)]
      exact hh i c e1 e2 (by omega)
    · intro i j i1 i2 i3
      by_cases hi0 : i = a + K
      · rw [hi0, hK', hout j (by omega)]; exact hbig j (by omega) i3
      · rw [hout i (by omega), hout j (by omega)]; exact hs i j (by omega) i2 i3
    · intro i j i1 i2 i3
      have := hr (a + i) (by omega) (by omega)
      by_cases hj : j = K
      · rw [hj, hK']; exact this
      · rw [hout (a + j) (by omega)]; exact this.trans (hbig _ (by omega) (by omega))

theorem heapSort_spec {a b : Nat} {p : List α} (hab : a ≤ b) (hb : b ≤ p.length) :
    Mv a b p (heapSort (L lt) p a b) ∧ (Good lt f p → Srt f (heapSort (L lt) p a b) a b) := by
  unfold heapSort
  simp only
  obtain ⟨h1, h2⟩ := heapify lt f a (b - a) ((b - a - 1) / 2 + 1) p (by omega)
  generalize (List.range ((b - a - 1) / 2 + 1)).reverse.foldl (fun p i => siftDown (L lt) (b - a) a p.length p i) p = q at *
  have hl := h1.1
  obtain ⟨h3, h4⟩ := sortPhase lt f a (b - a) (b - a) q (le_refl _) (by omega)
  rw [show a + (b - a) = b by omega] at h1 h3 h4
  refine ⟨h1.trans h3, fun hg => h4 (hg.mv h1) (h2 hg ?_) (fun i j _ _ _ => by omega) fun i j _ _ _ => by omega⟩
  intro i c e1 e2 e3
  omega

/-! ### Quicksort -/

/-- putting the sorted parts together -/
theorem join {q : List α} {a mlo mhi b x : Nat} (s1 : Srt f q a mlo) (s2 : Srt f q mhi b) 
    (h1 : ∀ k, a ≤ k → k < mlo → f (g q k) ≤ x) (h2 : ∀ k, mlo ≤ k → k < mhi → f (g q k) = x) (h3 : ∀ k, mhi ≤ k → k < b → x ≤ f (g q k)) :
    Srt f q a b := by
  intro i j i1 i2 i3
  have lo : ∀ k, a ≤ k → k < mhi → f (g q k) ≤ x := fun k k1 k2 => by
    by_cases hk : k < mlo
    · exact h1 k k1 hk
    · exact (h2 k (by omega) k2).le
  have hi : ∀ k, mlo ≤ k → k < b → x ≤ f (g q k) := fun k k1 k2 => by
    by_cases hk : k < mhi
    · exact (h2 k k1 hk).ge
    · exact h3 k (by omega) k2
  by_cases hj : j < mlo
  · exact s1 i j i1 i2 hj
  · by_cases hi' : mhi ≤ i
    · exact s2 i j hi' i2 i3
    · exact (lo i i1 (by omega)).trans (hi j (by omega) i3)

theorem quickSort_spec (fuel depth : Nat) (p : List α) (a b : Nat) (hf : b - a < fuel) (hb : b ≤ p.length) :
    Mv a b p (quickSort (L lt) fuel depth p a b) ∧ (Good lt f p → Srt f (quickSort (L lt) fuel depth p a b) a b) := by
  induction fuel generalizing depth p a b with
  | zero => omega
  | succ fuel ih =>
    rw [quickSort]
    split
    · rename_i h12
      split
      · exact heapSort_spec lt f (by omega) hb
      · obtain ⟨q, mlo, mhi, e, m, x1, x2, x3, x4⟩ := doPivot_spec lt f (p := p) (lo := a) (hi := b) h12 hb
        rw [e]
        simp only
        have hl := m.1
        split
        · obtain ⟨m1, s1⟩ := ih (depth - 1) q a mlo (by omega) (by omega)
          generalize quickSort (L lt) fuel (depth - 1) q a mlo = q1 at *
          have hl1 := m1.1
          obtain ⟨m2, s2⟩ := ih (depth - 1) q1 mhi b (by omega) (by omega)
          generalize quickSort (L lt) fuel (depth - 1) q1 mhi b = q2 at *
          refine ⟨(m.trans (m1.mono (le_refl _) (by omega))).trans (m2.mono (by omega) (le_refl _)), fun hg => ?_⟩
          obtain ⟨x, y1, y2, y3⟩ := x4 hg
          have hg1 := (hg.mv m).mv m1
          refine join f (mlo := mlo) (mhi := mhi) (x := x) ?_ (s2 hg1) ?_ ?_ ?_
          · intro i j i1 i2 i3
            rw [m2.out (by omega), m2.out (by omega)]; exact s1 (hg.mv m) i j i1 i2 i3
          · intro k k1 k2
            rw [m2.out (by omega)]; exact m1.all (fun z => f z ≤ x) y1 k k1 k2
          · intro k k1 k2
            rw [m2.out (by omega), m1.out (by omega)]; exact y2 k k1 k2
          · exact m2.all (fun z => x ≤ f z) fun k k1 k2 => by rw [m1.out (by omega)]; exact y3 k k1 k2
        · obtain ⟨m1, s1⟩ := ih (depth - 1) q mhi b (by omega) (by omega)
          generalize quickSort (L lt) fuel (depth - 1) q mhi b = q1 at *
          have hl1 := m1.1
          obtain ⟨m2, s2⟩ := ih (depth - 1) q1 a mlo (by omega) (by omega)
          generalize quickSort (L lt) fuel (depth - 1) q1 a mlo = q2 at *
          refine ⟨(m.trans (m1.mono (by omega) (le_refl _))).trans (m2.mono (le_refl _) (by omega)), fun hg => ?_⟩
          obtain ⟨x, y1, y2, y3⟩ := x4 hg
          have hg1 := (hg.mv m).mv m1
          refine join f (mlo := mlo) (mhi := mhi) (x := x) (s2 hg1) ?_ ?_ ?_ ?_
          · intro i j i1 i2 i3
            rw [m2.out (by omega), m2.out (by omega)]; exact s1 (hg.mv m) i j i1 i2 i3
          · exact m2.all (fun z => f z ≤ x) fun k k1 k2 => by rw [m1.out (by omega)]; exact y1 k k1 k2
          · intro k k1 k2
            rw [m2.out (by omega), m1.out (by omega)]; exact y2 k k1 k2
          · intro k k1 k2
            rw [m2.out (by omega)]; exact m1.all (fun z => x ≤ f z) y3 k k1 k2
    · split
      · have m := shell_mv lt (a := a) (b := b) (p := p) hb
        obtain ⟨m1, s1⟩ := insertion_spec lt f (a := a) (b := b) (p := shell (L lt) p a b) (by omega) (by rw [m.1]; exact hb)
        exact ⟨m.trans m1, fun hg => s1 (hg.mv m)⟩
      · exact ⟨Mv.refl _ _ _, fun _ i j _ _ _ => by omega⟩

end

end Sort115

/-- `sort.Sort` of Go 1.15 on a slice whose `Less(i, j)` compares the elements at `i` and `j` -/
def goSort : GoSort := fun α less l =>
  match l with
  | [] => []
  | a :: t => @Sort115.sort α ⟨a⟩ (fun p i j => less (p.getD i a) (p.getD j a)) (a :: t)

open Sort115 in
/-- Go 1.15's `sort.Sort` meets the contract -/
theorem goSort_ok : SortOk goSort where
  perm α less l := by
    cases l with
    | nil => exact List.Perm.refl _
    | cons a t =>
      let _ : Inhabited α := ⟨a⟩
      exact (quickSort_spec less (fun _ => 0) _ (maxDepth (a :: t).length) (a :: t) 0 (a :: t).length (by simp) (le_refl _)).1.perm
  sorted α less l w := by
    cases l with
    | nil => exact List.Pairwise.nil
    | cons a t =>
      let _ : Inhabited α := ⟨a⟩
      set l := a :: t with hl
      have hmem : ∀ k, g l k ∈ l := by
        intro k
        unfold g
        by_cases hk : k < l.length
        · rw [List.getD_eq_getElem _ _ hk]; exact List.getElem_mem _
        · rw [List.getD_eq_default _ _ (by omega)]; exact List.mem_cons_self
      set f : α → Nat := fun x => l.countP fun y => less y x with hf
      have hfl : ∀ x ∈ l, ∀ y ∈ l, less x y = decide (f x < f y) := by
        intro x hx y hy
        cases hxy : less x y
        · refine (decide_eq_false ?_).symm
          rw [Nat.not_lt]
          refine List.countP_mono_left fun z hz hzy => ?_
          cases hzx : less z x
          · have := w.ntrans z hz x hx y hy hzx hxy
            rw [this] at hzy; cases hzy
          · rfl
        · refine (decide_eq_true ?_).symm
          have h1 : l.countP (fun z => less z x) ≤ (l.filter fun z => less z y).countP fun z => less z x := by
            rw [List.countP_filter]
            refine List.countP_mono_left fun z hz hzx => ?_
            rw [hzx, w.trans z hz x hx y hy hzx hxy]; rfl
          have h2 : (l.filter fun z => less z y).countP (fun z => less z x) < (l.filter fun z => less z y).length := by
            rw [List.countP_lt_length_iff]
            exact ⟨x, List.mem_filter.2 ⟨hx, hxy⟩, by simp [w.irrefl x hx]⟩
          have h3 : (l.filter fun z => less z y).length = f y := (List.countP_eq_length_filter).symm
          show l.countP _ < f y
          omega
      have hgood : Good less f l := fun i j => hfl _ (hmem i) _ (hmem j)
      have hs := quickSort_spec less f (l.length + 1) (maxDepth l.length) l 0 l.length (by omega) (le_refl _)
      have h1 := hs.2 hgood
      have h2 := hs.1.perm
      have h3 := hs.1.1
      show (quickSort (L less) (l.length + 1) (maxDepth l.length) l 0 l.length).Pairwise _
      generalize quickSort (L less) (l.length + 1) (maxDepth l.length) l 0 l.length = q at *
      rw [List.pairwise_iff_getElem]
      intro i j hi hj hij
      have := h1 i j (by omega) hij (by omega)
      unfold g at this
      rw [List.getD_eq_getElem _ _ hi, List.getD_eq_getElem _ _ hj] at this
      rw [hfl _ (h2.mem_iff.1 (List.getElem_mem _)) _ (h2.mem_iff.1 (List.getElem_mem _))]
      exact decide_eq_false (by omega)

end GoGeo
