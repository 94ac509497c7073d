import Verif.Props.Simplify
import Verif.Props.Box

/-!
# C138: simplifying again, and what simplifying does to length and box
-/

set_option linter.unusedSectionVars false

namespace GoGeo
open GoFloat GoSqrt GoMath Spec

section
variable {F : Type} [GoMath F] [FloatOrd F]

/-- the search returns the first of the farthest points -/
theorem dpMax_fold_first (line : List (Point F)) (srid : Int) (s e : Nat) (hs : s < line.length) (he : e < line.length) (is : List Nat)
    (his : ∀ i ∈ is, i < line.length) (hp : is.Pairwise (· < ·)) (b : F × Nat) (hb : isNaN b.1 = false) (M : F) (k : Nat)
    (h : is.foldlM (dpMaxStep line srid s e) b = .ok (M, k)) :
    (M, k) = b ∨ ∀ i ∈ is, i < k → le M (chord line srid s e i) = false := by
  induction is generalizing b with
  | nil => cases h; exact Or.inl rfl
  | cons i is ih =>
    rw [List.foldlM_cons, dpMaxStep_ok line srid s e hs he b i (his i List.mem_cons_self), bind_ok'] at h
    have his' : ∀ i ∈ is, i < line.length := fun i hi => his i (List.mem_cons_of_mem _ hi)
    rw [List.pairwise_cons] at hp
    by_cases hg : gt (chord line srid s e i) b.1 = true
    · rw [if_pos hg] at h
      have hlt : lt b.1 (chord line srid s e i) = true := hg
      have hn := (lt_iff'.1 hlt).2.1
      obtain ⟨M', k', h1, h2, h3, h4, h5⟩ := dpMax_fold line srid s e hs he is his' (chord line srid s e i, i) hn
      rw [h] at h1
      cases h1
      right
      intro j hj hjk
      rcases ih his' hp.2 _ hn h with hh | hh
      · cases hh
        rcases List.mem_cons.1 hj with rfl | hj
        · omega
        · have := hp.1 j hj; omega
      · rcases List.mem_cons.1 hj with rfl | hj
        · rcases h5 with h5 | ⟨_, _, h7⟩
          · cases h5; omega
          · by_contra hc
            have hle : le M (chord line srid s e j) = true := by simpa using hc
            have := (lt_false_iff hn h2).2 hle
            rw [h7] at this; cases this
        · exact hh j hj hjk
    · rw [if_neg hg] at h
      obtain ⟨M', k', h1, h2, h3, h4, h5⟩ := dpMax_fold line srid s e hs he is his' b hb
      rw [h] at h1
      cases h1
      rcases ih his' hp.2 _ hb h with hh | hh
      · exact Or.inl hh
      · rcases h5 with h5 | ⟨_, _, h7⟩
        · exact Or.inl h5
        · right
          intro j hj hjk
          rcases List.mem_cons.1 hj with rfl | hj
          · by_contra hc
            have hle : le M (chord line srid s e j) = true := by simpa using hc
            exact hg (show lt b.1 _ = true from lt_of_lt_of_le' h7 hle)
          · exact hh j hj hjk

theorem between_pairwise (s e : Nat) : (between s e).Pairwise (· < ·) := List.pairwise_lt_range'

/-- what the search returns when it is above a threshold that is not negative -/
theorem dpMax_first (line : List (Point F)) (threshold : F) (srid : Int) (hth : gt (lit 0) threshold = false) (s e : Nat) (hs : s < line.length)
    (he : e < line.length) (M : F) (k : Nat) (h : dpMax line srid s e = .ok (M, k)) (hM : gt M threshold = true) :
    M = chord line srid s e k ∧ lt (lit 0) M = true ∧ (∀ i, s < i → i < e → lt M (chord line srid s e i) = false) ∧
      ∀ i, s < i → i < e → i < k → le M (chord line srid s e i) = false := by
  have hz : isNaN (lit 0 : F) = false := FloatOrd.dec_not_nan _ _
  have hb : ∀ i ∈ between s e, i < line.length := fun i hi => by have := mem_between.1 hi; omega
  have hne : (M, k) ≠ (lit 0, 0) := by
    intro c; cases c; rw [hM] at hth; cases hth
  obtain ⟨M', k', h1, h2, h3, h4, h5⟩ := dpMax_fold line srid s e hs he (between s e) hb (lit 0, 0) hz
  have h' : (between s e).foldlM (dpMaxStep line srid s e) (lit 0, 0) = .ok (M, k) := h
  rw [h'] at h1
  cases h1
  obtain ⟨h6, h7, h8⟩ := h5.resolve_left hne
  have h9 := (dpMax_fold_first line srid s e hs he (between s e) hb (between_pairwise s e) _ hz M k h').resolve_left hne
  exact ⟨h7, h8, fun i a b => h4 i (mem_between.2 ⟨a, b⟩), fun i a b c => h9 i (mem_between.2 ⟨a, b⟩) c⟩

/-- points not farther than the best leave it alone -/
theorem dpMax_fold_stay (line : List (Point F)) (srid : Int) (s e : Nat) (hs : s < line.length) (he : e < line.length) (is : List Nat)
    (his : ∀ i ∈ is, i < line.length) (b : F × Nat) (hb : ∀ i ∈ is, lt b.1 (chord line srid s e i) = false) :
    is.foldlM (dpMaxStep line srid s e) b = .ok b := by
  induction is with
  | nil => rfl
  | cons i is ih =>
    rw [List.foldlM_cons, dpMaxStep_ok line srid s e hs he b i (his i List.mem_cons_self), bind_ok', if_neg]
    · exact ih (fun i hi => his i (List.mem_cons_of_mem _ hi)) (fun i hi => hb i (List.mem_cons_of_mem _ hi))
    · have : gt (chord line srid s e i) b.1 = false := hb i List.mem_cons_self
      simp [this]

theorem between_split {s k e : Nat} (h1 : s < k) (h2 : k < e) : between s e = between s k ++ k :: between k e := by
  unfold between
  have e1 : k :: List.range' (k + 1) (e - (k + 1)) = List.range' k (e - k) := by
    rw [show e - k = (e - (k + 1)) + 1 by omega, List.range'_succ]
  rw [e1]
  have := List.range'_append (s := s + 1) (m := k - (s + 1)) (n := e - k) (step := 1)
  rw [show s + 1 + 1 * (k - (s + 1)) = k by omega] at this
  rw [this]
  congr 1
  omega

/-- the first of the farthest points is what the search returns -/
theorem dpMax_of_first (line : List (Point F)) (srid : Int) (s e k : Nat) (hs : s < line.length) (he : e < line.length) (hsk : s < k) (hke : k < e)
    (h0 : lt (lit 0) (chord line srid s e k) = true) (h1 : ∀ i, s < i → i < e → lt (chord line srid s e k) (chord line srid s e i) = false)
    (h2 : ∀ i, s < i → i < k → le (chord line srid s e k) (chord line srid s e i) = false) :
    dpMax line srid s e = .ok (chord line srid s e k, k) := by
  have hz : isNaN (lit 0 : F) = false := FloatOrd.dec_not_nan _ _
  unfold dpMax
  rw [between_split hsk hke, List.foldlM_append]
  obtain ⟨M, j, g1, g2, g3, g4, g5⟩ := dpMax_fold line srid s e hs he (between s k) (fun i hi => by have := mem_between.1 hi; omega) (lit 0, 0) hz
  rw [g1, bind_ok', List.foldlM_cons, dpMaxStep_ok line srid s e hs he _ k (by omega), bind_ok', if_pos]
  · exact dpMax_fold_stay line srid s e hs he _ (fun i hi => by have := mem_between.1 hi; omega) _ (fun i hi => by
      have := mem_between.1 hi
      exact h1 i (by omega) this.2)
  · show lt M _ = true
    rcases g5 with g5 | ⟨g5, g6, _⟩
    · cases g5; exact h0
    · have := mem_between.1 g5
      have hle := h2 j this.1 this.2
      rw [← g6] at hle
      by_contra hc
      have hc' : lt M (chord line srid s e k) = false := by simpa using hc
      rw [(lt_false_iff g2 (lt_iff'.1 h0).2.1).1 hc'] at hle
      cases hle

theorem chord_sub (line r : List (Point F)) (srid : Int) (K : List Nat) (hK : K.map (line[·]?) = r.map some) (a b c : Nat)
    (ha : a < K.length) (hb : b < K.length) (hc : c < K.length) :
    chord r srid a b c = chord line srid (K.getD a 0) (K.getD b 0) (K.getD c 0) := by
  have h : ∀ a, a < K.length → r.getD a default = line.getD (K.getD a 0) default := by
    intro a ha
    have := congrArg (·[a]?) hK
    simp only [List.getElem?_map, List.getElem?_eq_getElem ha, Option.map_some] at this
    have hr : a < r.length := by
      have := congrArg List.length hK
      simp only [List.length_map] at this
      omega
    rw [List.getElem?_eq_getElem hr, Option.map_some] at this
    have e : K.getD a 0 = K[a] := by simp [List.getD_eq_getElem?_getD, ha]
    rw [List.getD_eq_getElem?_getD, List.getElem?_eq_getElem hr, List.getD_eq_getElem?_getD, e, Option.some.inj this]
  unfold chord
  rw [h a ha, h b hb, h c hc]

/-- on the line of the kept points the work list deletes nothing -/
theorem dpLoop_again (line r : List (Point F)) (threshold : F) (srid : Int) (hth : gt (lit 0) threshold = false) (K : List Nat)
    (hK : K.map (line[·]?) = r.map some) (hinc : K.Pairwise (· < ·)) {s e : Nat} {ks : List Nat} (hs : Splits line threshold srid s e ks) :
    ∀ l₁ l₂, K = l₁ ++ (s :: ks ++ e :: l₂) → ∃ n, ∀ fuel st del,
      dpLoop r threshold srid (n + fuel) ((l₁.length, l₁.length + ks.length + 1) :: st) del = dpLoop r threshold srid fuel st del := by
  have hlen : K.length = r.length := by
    have := congrArg List.length hK
    simpa only [List.length_map] using this
  have hval : ∀ i ∈ K, i < line.length := by
    intro i hi
    have : line[i]? ∈ r.map some := by rw [← hK]; exact List.mem_map.2 ⟨i, hi, rfl⟩
    obtain ⟨x, _, hx⟩ := List.mem_map.1 this
    exact (List.getElem?_eq_some_iff.1 hx.symm).1
  have hmono : ∀ i j, i < j → j < K.length → K.getD i 0 < K.getD j 0 := by
    intro i j hij hj
    have := List.pairwise_iff_getElem.1 hinc i j (by omega) hj hij
    simpa [List.getD_eq_getElem?_getD, show i < K.length by omega, hj] using this
  induction hs with
  | @stop s e M k h1 h2 =>
    intro l₁ l₂ hk
    refine ⟨1, fun fuel st del => ?_⟩
    rw [Nat.add_comm 1 fuel, dpLoop]
    have hb : between l₁.length (l₁.length + ([] : List Nat).length + 1) = [] := by simp [between]
    have : dpMax r srid l₁.length (l₁.length + ([] : List Nat).length + 1) = .ok (lit 0, 0) := by
      unfold dpMax; rw [hb]; rfl
    rw [this, bind_ok']
    simp only [hth, hb, List.append_nil]
    rfl
  | @split s e M k ks₁ ks₂ h1 h2 hsk hke _ _ ih1 ih2 =>
    intro l₁ l₂ hk
    have kA : K = l₁ ++ (s :: ks₁ ++ k :: (ks₂ ++ e :: l₂)) := by rw [hk]; simp
    have kB : K = (l₁ ++ s :: ks₁) ++ (k :: ks₂ ++ e :: l₂) := by rw [hk]; simp
    obtain ⟨n1, g1⟩ := ih1 l₁ (ks₂ ++ e :: l₂) kA
    obtain ⟨n2, g2⟩ := ih2 (l₁ ++ s :: ks₁) l₂ kB
    have hKl : K.length = l₁.length + ks₁.length + ks₂.length + 3 + l₂.length := by rw [hk]; simp; omega
    have ga : K.getD l₁.length 0 = s := by rw [hk]; simp [List.getD_eq_getElem?_getD]
    have gc : K.getD (l₁.length + ks₁.length + 1) 0 = k := by
      rw [kB, List.getD_eq_getElem?_getD, List.getElem?_append_right (by simp; omega)]
      simp [show l₁.length + ks₁.length + 1 - (l₁.length + (ks₁.length + 1)) = 0 by omega]
    have gb : K.getD (l₁.length + (ks₁ ++ k :: ks₂).length + 1) 0 = e := by
      have kC : K = (l₁ ++ s :: ks₁ ++ k :: ks₂) ++ e :: l₂ := by rw [hk]; simp
      rw [kC, List.getD_eq_getElem?_getD, List.getElem?_append_right (by simp; omega)]
      simp only [List.length_append, List.length_cons]
      rw [show l₁.length + (ks₁.length + (ks₂.length + 1)) + 1 - (l₁.length + (ks₁.length + 1) + (ks₂.length + 1)) = 0 by omega]
      rfl
    have hsl : s < line.length := hval s (by rw [hk]; simp)
    have hel : e < line.length := hval e (by rw [hk]; simp)
    obtain ⟨m1, m2, m3, m4⟩ := dpMax_first line threshold srid hth s e hsl hel M k h1 h2
    have hch : ∀ i, i < K.length → chord r srid l₁.length (l₁.length + (ks₁ ++ k :: ks₂).length + 1) i = chord line srid s e (K.getD i 0) := by
      intro i hi
      rw [chord_sub line r srid K hK _ _ _ (by omega) (by simp only [List.length_append, List.length_cons]; omega) hi, ga, gb]
    have hc := hch (l₁.length + ks₁.length + 1) (by omega)
    rw [gc, ← m1] at hc
    have hmax : dpMax r srid l₁.length (l₁.length + (ks₁ ++ k :: ks₂).length + 1) = .ok (M, l₁.length + ks₁.length + 1) := by
      rw [← hc]
      have hL : (ks₁ ++ k :: ks₂).length = ks₁.length + (ks₂.length + 1) := by simp
      apply dpMax_of_first
      · omega
      · omega
      · omega
      · omega
      · rw [hc]; exact m2
      · intro i hi1 hi2
        rw [hc, hch i (by omega)]
        apply m3
        · rw [← ga]; exact hmono _ _ hi1 (by omega)
        · rw [← gb]; exact hmono _ _ hi2 (by omega)
      · intro i hi1 hi2
        rw [hc, hch i (by omega)]
        apply m4
        · rw [← ga]; exact hmono _ _ hi1 (by omega)
        · rw [← gb]; exact hmono _ _ (by omega) (by omega)
        · rw [← gc]; exact hmono _ _ hi2 (by omega)
    refine ⟨n2 + n1 + 1, fun fuel st del => ?_⟩
    rw [show n2 + n1 + 1 + fuel = (n2 + (n1 + fuel)) + 1 by omega, dpLoop, hmax, bind_ok']
    simp only [h2, if_true]
    have e1 : (l₁ ++ s :: ks₁).length = l₁.length + ks₁.length + 1 := by simp; omega
    have e2 : l₁.length + (ks₁ ++ k :: ks₂).length + 1 = (l₁ ++ s :: ks₁).length + ks₂.length + 1 := by simp; omega
    have := g2 (n1 + fuel) ((l₁.length, l₁.length + ks₁.length + 1) :: st) del
    have g := g1 fuel st del
    rw [← e1] at this g
    rw [e2, ← e1, this, g]

/-- fuel beyond what a run needs changes nothing -/
theorem dpLoop_mono (line : List (Point F)) (threshold : F) (srid : Int) (j fuel : Nat) : ∀ st del x,
    dpLoop line threshold srid fuel st del = .ok x → dpLoop line threshold srid (fuel + j) st del = .ok x := by
  induction fuel with
  | zero =>
    intro st del x h
    cases st with
    | nil => cases j <;> exact h
    | cons a st => cases h
  | succ fuel ih =>
    intro st del x h
    cases st with
    | nil => rw [show fuel + 1 + j = (fuel + j) + 1 by omega]; exact h
    | cons a st =>
      rw [show fuel + 1 + j = (fuel + j) + 1 by omega]
      obtain ⟨a, b⟩ := a
      rw [dpLoop] at h ⊢
      cases hm : dpMax line srid a b with
      | error e => rw [hm] at h; cases h
      | ok p =>
        rw [hm, bind_ok'] at h
        rw [bind_ok']
        obtain ⟨M, k⟩ := p
        by_cases hg : gt M threshold = true
        · simp only [hg, if_true] at h ⊢; exact ih _ _ _ h
        · simp only [hg] at h ⊢; exact ih _ _ _ h

theorem simplify_mono (srt : GoSort) (grow : Nat → Nat → Nat) (m : Mem (Point F)) (line : Slice) (threshold : F) (srid : Int) {n fuel : Nat}
    (hn : n ≤ fuel) (x : Mem (Point F) × Slice) (h : DouglasPeuckerSimplify srt grow n m line threshold srid = .ok x) :
    DouglasPeuckerSimplify srt grow fuel m line threshold srid = .ok x := by
  unfold DouglasPeuckerSimplify dpWorker at h ⊢
  cases hd : dpLoop (m.read line) threshold srid n [(0, (m.read line).length - 1)] [] with
  | error e => rw [hd] at h; cases h
  | ok d =>
    have := dpLoop_mono (m.read line) threshold srid (fuel - n) n _ _ _ hd
    rw [show n + (fuel - n) = fuel by omega] at this
    rw [this]
    rw [hd] at h
    exact h

/-- **C138 (again).** Simplifying a simplified line with the same threshold changes nothing: the line that comes back is the same slice,
and the memory is as before. -/
theorem C138_again (srt : GoSort) (hsrt : SortOk srt) (grow : Nat → Nat → Nat) (m : Mem (Point F)) (line : Slice) (hv : m.Valid line) (threshold : F)
    (srid : Int) (hth : lt threshold (lit 0) = false) (hlen : 2 ≤ (m.read line).length) :
    ∃ n m' line', ∀ fuel, n ≤ fuel → DouglasPeuckerSimplify srt grow fuel m line threshold srid = .ok (m', line') ∧
      DouglasPeuckerSimplify srt grow fuel m' line' threshold srid = .ok (m', line') := by
  obtain ⟨n, h⟩ := dp_run srt hsrt grow m line hv threshold srid hth hlen (fun _ _ => True) (fun _ _ _ _ _ _ _ _ => ⟨trivial, trivial⟩) trivial
  obtain ⟨m₁, l₁, ks₁, a1, a2, a3, a4, a5, a6, a7, a8, ks', a9, a10⟩ := h n le_rfl
  obtain ⟨n', h'⟩ := dpLoop_again (m.read line) (m₁.read l₁) threshold srid hth ks₁ a6 a3 a10 [] [] (by rw [a9]; simp)
  have hl : (m₁.read l₁).length - 1 = ks'.length + 1 := by
    have := congrArg List.length a6
    simp only [List.length_map, a9, List.length_append, List.length_cons, List.length_nil] at this
    omega
  refine ⟨max n n', m₁, l₁, fun fuel hf => ⟨simplify_mono srt grow m line threshold srid (by omega) _ a1, ?_⟩⟩
  refine simplify_mono srt grow m₁ l₁ threshold srid (show n' ≤ fuel by omega) _ ?_
  unfold DouglasPeuckerSimplify dpWorker
  have := h' 0 [] []
  simp only [List.length_nil, Nat.zero_add, Nat.add_zero] at this
  rw [hl, this]
  have e : dpLoop (m₁.read l₁) threshold srid 0 [] [] = .ok [] := by unfold dpLoop; rfl
  rw [e, bind_ok', List.perm_nil.1 (hsrt.perm Nat (fun a b => decide (b < a)) [])]
  rfl

end

/-! ### length and box -/

theorem length_cons_le (a b : ℝ × ℝ) (l : List (ℝ × ℝ)) :
    ((edges (a :: l)).map fun e => eucl e.1 e.2).sum ≤ eucl a b + ((edges (b :: l)).map fun e => eucl e.1 e.2).sum := by
  cases l with
  | nil => simpa [edges] using eucl_nonneg a b
  | cons c l =>
    simp only [edges, List.map_cons, List.sum_cons]
    have := eucl_triangle a b c
    linarith

theorem length_sublist {r l : List (ℝ × ℝ)} (h : r.Sublist l) : ∀ a, ((edges (a :: r)).map fun e => eucl e.1 e.2).sum ≤
    ((edges (a :: l)).map fun e => eucl e.1 e.2).sum := by
  induction h with
  | slnil => intro a; exact le_rfl
  | @cons r l b _ ih =>
    intro a
    have h1 := length_cons_le a b r
    have h2 := ih b
    simp only [edges, List.map_cons, List.sum_cons]
    linarith
  | @cons_cons r l b _ ih =>
    intro a
    have h2 := ih b
    simp only [edges, List.map_cons, List.sum_cons]
    linarith

theorem simplifies_sublist {α : Type} {near : α → α → α → Prop} {l r : List α} (h : Simplifies near l r) : r.Sublist l := by
  obtain ⟨ks, h1, -, -, h4, -⟩ := h
  have hval : ∀ i ∈ ks, i < l.length := by
    intro i hi
    have : l[i]? ∈ r.map some := by rw [← h4]; exact List.mem_map.2 ⟨i, hi, rfl⟩
    obtain ⟨x, _, hx⟩ := List.mem_map.1 this
    exact (List.getElem?_eq_some_iff.1 hx.symm).1
  have h5 := List.map_getElem_sublist (l := l) (is := ks.attach.map fun k => (⟨k.1, hval k.1 k.2⟩ : Fin l.length)) (by
    rw [← List.attach_map_subtype_val ks, List.pairwise_map] at h1
    rw [List.pairwise_map]
    exact h1.imp fun h => h)
  have e : r = (ks.attach.map fun k => (⟨k.1, hval k.1 k.2⟩ : Fin l.length)).map (l[·]) := by
    apply List.map_injective_iff.2 (Option.some_injective _)
    rw [← h4, List.map_map, List.map_map]
    conv_lhs => rw [← List.attach_map_subtype_val ks, List.map_map]
    apply List.map_congr_left
    intro k _
    simp [hval k.1 k.2]
  rw [e]
  exact h5

/-- **C138 (length).** In exact arithmetic the simplified line is not longer than the line. -/
theorem C138_length (srt : GoSort) (hsrt : SortOk srt) (grow : Nat → Nat → Nat) (m : Mem (Point (XR ℝ))) (line : Slice) (hv : m.Valid line)
    (t : ℝ) (ht : 0 ≤ t) (srid : Int) (l : List (ℝ × ℝ)) (hl : m.read line = l.map pt) (hlen : 2 ≤ l.length) :
    ∃ n, ∀ fuel, n ≤ fuel → ∃ m' line' a b, DouglasPeuckerSimplify srt grow fuel m line (.fin t) srid = .ok (m', line') ∧
      LineLength (m.read line) = .fin a ∧ LineLength (m'.read line') = .fin b ∧ b ≤ a := by
  have hth : lt (.fin t) (lit 0 : XR ℝ) = false := by
    rw [XR.fin_lit]
    simp only [XR.fin_lt, Nat.cast_zero, decide_eq_false_iff_not, not_lt]
    exact ht
  obtain ⟨n, h⟩ := C46_simplify srt hsrt grow m line hv (.fin t) srid hth (by rw [hl, List.length_map]; exact hlen)
  refine ⟨n, fun fuel hf => ?_⟩
  obtain ⟨m', line', h1, h2, h3, _⟩ := h fuel hf
  have hsub := simplifies_sublist h3
  rw [hl] at hsub
  obtain ⟨r, hr, e⟩ := List.sublist_map_iff.1 hsub
  refine ⟨m', line', _, _, h1, by rw [hl, length_fin], by rw [e, length_fin], ?_⟩
  cases l with
  | nil => simp at hlen
  | cons a l =>
    cases r with
    | nil => exact List.sum_nonneg (by
        intro x hx
        obtain ⟨f, _, rfl⟩ := List.mem_map.1 hx
        exact eucl_nonneg _ _)
    | cons b r =>
      cases hr with
      | cons _ hr =>
        have h1 := length_sublist hr a
        simp only [edges, List.map_cons, List.sum_cons] at h1
        have := eucl_nonneg a b
        linarith
      | cons_cons _ hr => exact length_sublist hr _

/-- **C138 (box, float64).** The box of the simplified line lies within the box of the line. -/
theorem C138_box (srt : GoSort) (hsrt : SortOk srt) (grow : Nat → Nat → Nat) (m : Mem (Point Float)) (line : Slice) (hv : m.Valid line)
    (threshold : Float) (hth : 0 ≤ threshold) (srid : Int) (hlen : 2 ≤ (m.read line).length)
    (hb : ∀ p ∈ m.read line, Bounded31 p.X ∧ Bounded31 p.Y) :
    ∃ n, ∀ fuel, n ≤ fuel → ∃ m' line', DouglasPeuckerSimplify srt grow fuel m line threshold srid = .ok (m', line') ∧
      Inside (BoundingBox (.lineString (m'.read line'))) (BoundingBox (.lineString (m.read line))) := by
  obtain ⟨n, h⟩ := C46_simplify_float srt hsrt grow m line hv threshold srid hth hlen
  refine ⟨n, fun fuel hf => ?_⟩
  obtain ⟨m', line', h1, h2, h3⟩ := h fuel hf
  have hsub := simplifies_sublist h3
  have hne : m'.read line' ≠ [] := by
    obtain ⟨ks, h1, h2, h3, h4, h5⟩ := h3
    intro e
    rw [e] at h4
    cases ks <;> simp_all
  refine ⟨m', line', h1, (C20_boundingBox_least (.lineString (m'.read line')) hne fun p hp => hb p (hsub.subset hp)).2 _ fun p hp => ?_⟩
  refine (C20_boundingBox_least (.lineString (m.read line)) ?_ hb).1 p (hsub.subset hp)
  intro e
  have e : m.read line = [] := e
  rw [e] at hlen
  simp at hlen

/-- C138 on the line of C46: the second run returns the slice it was given, and the first made the line shorter. -/
example : ((DouglasPeuckerSimplify (F := Float) insSort (fun _ _ => 0) 10 ⟨[[⟨0,0⟩, ⟨1,2.5⟩, ⟨2,5⟩, ⟨3,2⟩, ⟨4,0⟩]]⟩ ⟨0,0,5,5⟩ 1 0).bind
    fun r => DouglasPeuckerSimplify (F := Float) insSort (fun _ _ => 0) 10 r.1 r.2 1 0).map (fun r => (r.2.len, r.1.read r.2)) =
    .ok (3, [⟨0,0⟩, ⟨2,5⟩, ⟨4,0⟩]) := by decide +kernel

end GoGeo
