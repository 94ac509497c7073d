import Verif.Wkt.Lemmas

/-! # What the expressions for rings and polygons find in encoded text -/

set_option linter.unusedSectionVars false

namespace GoGeo.Wkt
open Regex

variable {F : Type} [GoFloat F] {T : NumText F}

/-- a class of number characters -/
structure NumClass (N : Char → Bool) : Prop where
  num : ∀ c, isNum c = true → N c = true
  space : N ' ' = false
  comma : N ',' = false
  close : N ')' = false
  op : N '(' = false

theorem numClass_isNum : NumClass isNum := ⟨fun _ h => h, by decide, by decide, by decide, by decide⟩
theorem numClass_isNumE : NumClass isNumE := ⟨fun c h => by simp [isNumE, h], by decide, by decide, by decide, by decide⟩

def isSep (c : Char) : Bool := c == ',' || c == ' '

theorem num_head_ne {w : List Char} (hw : Clean w) {d : Char} (hd : isNum d = false) (s : List Char) : ∀ c, (w ++ s).head? = some c → c ≠ d := by
  obtain ⟨c0, u, rfl, h0⟩ := hw.hd
  intro c hc
  simp at hc; subst hc
  rintro rfl; rw [h0] at hd; cases hd

theorem pair_m {N : Char → Bool} (hN : NumClass N) {p : Point F} (h : GoodP T p) (sep r : List Char) (g : Caps) (k : Cont) (X : Caps)
    (hs : ∀ c ∈ sep, isSep c = true) (hsep : ∀ c, (sep ++ r).head? = some c → N c = false) (hr : ∀ c, r.head? = some c → isSep c = false) (hk : k r g = some X) :
    (pairRe N).m (xyText T p ++ (sep ++ r)) g k = some X := by
  unfold pairRe xyText spaces one seps
  rw [seq_m, List.append_assoc, star_none _ _ _ _ (by
    intro c hc
    have := num_head_ne h.1.clean (d := ' ') (by decide) _ c hc
    simpa using this), seq_m]
  refine plus_all N _ _ _ _ h.1.ne (fun c hc => hN.num c (h.1.ch c hc)) (by intro c hc; simp at hc; subst hc; exact hN.space) X ?_
  rw [seq_m, List.cons_append]
  refine plus_all _ [' '] _ _ _ (by simp) (by simp) (by
    intro c hc
    have := num_head_ne h.2.clean (d := ' ') (by decide) _ c hc
    simpa using this) X ?_
  rw [seq_m]
  refine plus_all N _ _ _ _ h.2.ne (fun c hc => hN.num c (h.2.ch c hc)) hsep X ?_
  rw [seq_m]
  refine star_all _ sep r _ _ hs hr X ?_
  rw [star_none _ _ _ _ (by intro c hc; have := hr c hc; simp [isSep] at this; simpa using this.2)]
  exact hk

theorem pairs_m {N : Char → Bool} (hN : NumClass N) (t : List Char) (g : Caps) (k : Cont) (X : Caps) (hk : k (')' :: t) g = some X) :
    ∀ (ps : List (Point F)) (n : Nat), (∀ p ∈ ps, GoodP T p) → (Str.join ',' (ps.map (xyText T)) ++ ')' :: t).length ≤ n →
    starM (pairRe N).m n (Str.join ',' (ps.map (xyText T)) ++ ')' :: t) g k = some X
  | [], n, _, _ => by
    rw [starM_stop]
    · exact hk
    · intro k'
      show (pairRe N).m (')' :: t) g k' = none
      unfold pairRe spaces one plus
      rw [seq_m, star_none _ _ _ _ (by simp), seq_m, seq_m, chr_cons, if_neg (by rw [hN.close]; simp)]
  | [p], 0, _, hn => by simp at hn
  | [p], n + 1, h, hn => by
    apply starM_step
    have := pair_m hN (h p (by simp)) [] (')' :: t) g (fun r g' => if r.length < (Str.join ',' ([p].map (xyText T)) ++ ')' :: t).length then starM (pairRe N).m n r g' k else none) X
      (by simp) (by intro c hc; simp at hc; subst hc; exact hN.close) (by intro c hc; simp at hc; subst hc; decide) (by
        rw [if_pos]
        · exact pairs_m hN t g k X hk [] n (by simp) (by
            have := List.length_pos_iff.mpr (clean_xy (h p (by simp))).ne
            simp [Str.join] at hn ⊢; omega)
        · have := List.length_pos_iff.mpr (clean_xy (h p (by simp))).ne
          simp [Str.join]; omega)
    exact this
  | p :: q :: ps, 0, _, hn => by simp at hn
  | p :: q :: ps, n + 1, h, hn => by
    apply starM_step
    have e : Str.join ',' ((p :: q :: ps).map (xyText T)) ++ ')' :: t = xyText T p ++ ([','] ++ (Str.join ',' ((q :: ps).map (xyText T)) ++ ')' :: t)) := by
      show (xyText T p ++ ',' :: Str.join ',' ((q :: ps).map (xyText T))) ++ ')' :: t = _
      simp
    have hq : Clean (Str.join ',' ((q :: ps).map (xyText T))) := clean_path (by simp) fun x hx => h x (by simp at hx ⊢; exact Or.inr hx)
    rw [e] at hn ⊢
    refine pair_m hN (h p (by simp)) [','] _ g _ X (by simp [isSep]) (by intro c hc; simp at hc; subst hc; exact hN.comma) ?_ ?_
    · intro c hc
      have h1 := num_head_ne hq (d := ',') (by decide) _ c hc
      have h2 := num_head_ne hq (d := ' ') (by decide) _ c hc
      simp [isSep, h1, h2]
    · rw [if_pos]
      · exact pairs_m hN t g k X hk (q :: ps) n (fun x hx => h x (by simp at hx ⊢; exact Or.inr hx)) (by
          rw [List.length_append, List.length_append] at hn
          simp only [List.length_singleton] at hn
          omega)
      · rw [List.length_append, List.length_append]
        simp
        omega

theorem ring_m {N : Char → Bool} (hN : NumClass N) (ps : List (Point F)) (h : ∀ p ∈ ps, GoodP T p) (t : List Char) (g : Caps) (k : Cont) (X : Caps) (hk : k t g = some X) :
    (ringRe N).m (pathText T ps ++ t) g k = some X := by
  unfold ringRe spaces
  have e : pathText T ps ++ t = '(' :: (Str.join ',' (ps.map (xyText T)) ++ ')' :: t) := by simp [pathText, paren]
  have hh : ∀ c, (Str.join ',' (ps.map (xyText T)) ++ ')' :: t).head? = some c → (c == ' ') = false := by
    intro c hc
    cases ps with
    | nil => simp [Str.join] at hc; subst hc; decide
    | cons p ps =>
      have := num_head_ne (clean_path (by simp) h) (d := ' ') (by decide) _ c hc
      simpa using this
  rw [e, seq_m]
  unfold one
  rw [star_none _ _ _ _ (by simp), seq_m, chr_cons, if_pos (by simp), seq_m, star_none _ _ _ _ hh, seq_m, star_m]
  refine pairs_m hN t g _ X ?_ ps _ h (le_refl _)
  rw [seq_m, star_none _ _ _ _ (by simp), chr_cons, if_pos (by simp)]
  exact hk

/-- text that does not open a bracket does not start a ring -/
theorem ring_fail {N : Char → Bool} (c : Char) (hc : c ≠ '(' ∧ c ≠ ' ') (s : List Char) (g : Caps) (k : Cont) : (ringRe N).m (c :: s) g k = none := by
  unfold ringRe spaces one
  rw [seq_m, star_none _ _ _ _ (by simpa using hc.2), seq_m, chr_cons, if_neg (by simpa using hc.1)]

/-- two opening brackets do not start a ring -/
theorem ring_fail2 {N : Char → Bool} (hN : NumClass N) (s : List Char) (g : Caps) (k : Cont) : (ringRe N).m ('(' :: '(' :: s) g k = none := by
  unfold ringRe spaces one
  rw [seq_m, star_none _ _ _ _ (by simp), seq_m, chr_cons, if_pos (by simp), seq_m, star_none _ _ _ _ (by simp), seq_m, star_m, starM_stop]
  · rw [seq_m, star_none _ _ _ _ (by simp), chr_cons, if_neg (by simp)]
  · intro k'
    unfold pairRe spaces one plus
    rw [seq_m, star_none _ _ _ _ (by simp), seq_m, seq_m, chr_cons, if_neg (by rw [hN.op]; simp)]

theorem rings_find (ps : List (Point F)) (h : ∀ p ∈ ps, GoodP T p) (sep t : List Char) (hs : ∀ c ∈ sep, isSep c = true) (ht : ∀ c, t.head? = some c → isSep c = false) :
    ringsRe.find (pathText T ps ++ (sep ++ t)) = some [pathText T ps ++ sep, pathText T ps] := by
  apply find_here
  unfold ringsRe
  rw [seq_m, cap_m]
  apply ring_m numClass_isNumE ps h
  unfold seps
  apply star_all _ sep t _ _ hs ht
  rw [take_sub_length (u := pathText T ps) (t := sep ++ t) rfl, take_sub_length (u := pathText T ps ++ sep) (t := t) (by simp)]
  simp

theorem rings_find_next (s : List Char) : ringsRe.find ('(' :: '(' :: s) = ringsRe.find ('(' :: s) := by
  apply find_next
  intro k
  unfold ringsRe
  rw [seq_m, cap_m, ring_fail2 numClass_isNumE]

theorem ringStar_m (t : List Char) (g : Caps) (k : Cont) (X : Caps) (hk : k (')' :: t) g = some X) :
    ∀ (rs : List (List (Point F))) (n : Nat), (∀ r ∈ rs, ∀ p ∈ r, GoodP T p) → (Str.join ',' (rs.map (pathText T)) ++ ')' :: t).length ≤ n →
    starM (Re.seq (ringRe isNum) seps).m n (Str.join ',' (rs.map (pathText T)) ++ ')' :: t) g k = some X
  | [], n, _, _ => by
    rw [starM_stop]
    · exact hk
    · intro k'
      show (Re.seq (ringRe isNum) seps).m (')' :: t) g k' = none
      rw [seq_m, ring_fail _ (by decide)]
  | [p], 0, _, hn => by simp at hn
  | [p], n + 1, h, hn => by
    apply starM_step
    rw [seq_m]
    have : Str.join ',' ([p].map (pathText T)) = pathText T p := rfl
    rw [this] at hn ⊢
    apply ring_m numClass_isNum p (h p (by simp))
    unfold seps
    rw [star_none _ _ _ _ (by simp), if_pos (by simp [pathText, paren]; omega)]
    exact ringStar_m t g k X hk [] n (by simp) (by simp [pathText, paren] at hn; simp [Str.join]; omega)
  | p :: q :: ps, 0, _, hn => by simp at hn
  | p :: q :: ps, n + 1, h, hn => by
    apply starM_step
    have e : Str.join ',' ((p :: q :: ps).map (pathText T)) ++ ')' :: t = pathText T p ++ ([','] ++ (Str.join ',' ((q :: ps).map (pathText T)) ++ ')' :: t)) := by
      show (pathText T p ++ ',' :: Str.join ',' ((q :: ps).map (pathText T))) ++ ')' :: t = _
      simp
    rw [seq_m]
    rw [e] at hn ⊢
    apply ring_m numClass_isNum p (h p (by simp))
    unfold seps
    apply star_all _ [','] _ _ _ (by simp)
    · intro c hc
      have : Str.join ',' ((q :: ps).map (pathText T)) = '(' :: (Str.join ',' ((q :: ps).map (pathText T))).tail := by
        cases ps <;> rfl
      rw [this] at hc; simp at hc; subst hc; decide
    · rw [if_pos (by rw [List.length_append, List.length_append]; simp; omega)]
      exact ringStar_m t g k X hk (q :: ps) n (fun x hx => h x (by simp at hx ⊢; exact Or.inr hx)) (by
        rw [List.length_append, List.length_append] at hn
        simp only [List.length_singleton] at hn
        omega)

theorem polys_find (rs : List (List (Point F))) (h : ∀ r ∈ rs, ∀ p ∈ r, GoodP T p) (t : List Char) :
    polysRe.find (polyText T rs ++ t) = some [polyText T rs, polyText T rs] := by
  apply find_here
  have e : polyText T rs ++ t = '(' :: (Str.join ',' (rs.map (pathText T)) ++ ')' :: t) := by simp [polyText, paren]
  unfold polysRe
  have : ∀ k : Cont, k t [] = some [polyText T rs, polyText T rs] →
      (Re.seq (one '(') (.seq (.star (.seq (ringRe isNum) seps)) (one ')'))).m (polyText T rs ++ t) [] k = some [polyText T rs, polyText T rs] := by
    intro k hk
    rw [e, seq_m, one_m, seq_m, star_m]
    refine ringStar_m t _ _ _ ?_ rs _ h (le_refl _)
    rw [one_m]
    exact hk
  rw [cap_m]
  apply this
  rw [take_sub_length (u := polyText T rs) (t := t) rfl]
  rfl

end GoGeo.Wkt
