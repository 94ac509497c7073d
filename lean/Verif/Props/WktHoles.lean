import Verif.Props.WktHeights

/-!
# Several lines and rings with heights through WKT: the rest of C163
-/

namespace GoGeo.Spec
variable {F : Type}

/-- every second coordinate is written with two characters or more -/
def WideY (T : NumText F) (l : List (PointZ F)) : Prop := ∀ p ∈ l, 2 ≤ (T.fmt p.Y).length

end GoGeo.Spec

namespace GoGeo.Wkt
open GoFloat Spec Regex

set_option linter.unusedSectionVars false

variable {F : Type} [GoFloat F] {T : NumText F}

/-! ### a line with a comma behind it -/

theorem parseTerms_badZ (hT : Rejects T) (rest : List (List Char)) : ∀ (ps : List (PointZ F)) (p : PointZ F), (∀ p ∈ ps, GoodPZ T p) → GoodPZ T p →
    parseTerms T (Str.trim (· == ' ')) (ps.map (xyzText T) ++ (xyzText T p ++ [')']) :: rest) = .ok none
  | [], p, _, h => by
    rw [List.map_nil, List.nil_append, parseTerms]
    have e1 : Str.trim (· == ' ') (xyzText T p ++ [')']) = xyzText T p ++ [')'] := by
      unfold Str.trim
      rw [Str.trimLeft_id, Str.trimRight_id]
      · intro c hc; rw [List.getLast?_append] at hc; simp at hc; subst hc; decide
      · intro c hc
        have := num_head_ne (clean_xyz h) (d := ' ') (by decide) _ c hc
        simpa using this
    have e2 : Str.split ' ' (xyzText T p ++ [')']) = [T.fmt p.X, T.fmt p.Y, T.fmt p.Z ++ [')']] := by
      unfold xyzText
      rw [List.append_assoc, List.cons_append, Str.split_append ' ' _ _ (h.1.not_mem (by decide)), List.append_assoc, List.cons_append,
        Str.split_append ' ' _ _ (h.2.1.not_mem (by decide)), Str.split_word]
      simp only [List.mem_append, List.mem_singleton, not_or]
      exact ⟨h.2.2.not_mem (by decide), by decide⟩
    have e3 : parsePos T [T.fmt p.X, T.fmt p.Y, T.fmt p.Z ++ [')']] = .ok none := by
      simp [parsePos, h.1.rt, h.2.1.rt, hT.other (T.fmt p.Z ++ [')']) ')' (by simp) (by simp [notInNumber])]
    rw [e1, e2, e3]
    rfl
  | q :: ps, p, hq, h => by
    have hq0 := hq q (by simp)
    rw [List.map_cons, List.cons_append, parseTerms, trim_clean (clean_xyz hq0) ' ' (by decide), split_xyz hq0, parsePos_xyz hq0,
      parseTerms_badZ hT rest ps p (fun x hx => hq x (by simp [hx])) h]
    rfl

theorem line_commaZ (hT : Rejects T) {ps : List (PointZ F)} (h0 : ps ≠ []) (h : ∀ p ∈ ps, GoodPZ T p) : LineStringFromWKT T (pathZText T ps ++ [',']) = .ok none := by
  have hcl := clean_pathZ h0 h
  have e1 : unparen (pathZText T ps ++ [',']) = Str.join ',' (ps.map (xyzText T)) ++ ')' :: ',' :: [] := by
    have e : pathZText T ps ++ [','] = '(' :: (Str.join ',' (ps.map (xyzText T)) ++ ')' :: ',' :: []) := by simp [pathZText, paren]
    rw [e]
    unfold unparen
    have : Str.trimLeft (· == '(') ('(' :: (Str.join ',' (ps.map (xyzText T)) ++ ')' :: ',' :: [])) = Str.join ',' (ps.map (xyzText T)) ++ ')' :: ',' :: [] := by
      have := Str.trimLeft_id (· == '(') (Str.join ',' (ps.map (xyzText T)) ++ ')' :: ',' :: []) fun c hc => by
        have := num_head_ne hcl (d := '(') (by decide) _ c hc
        simpa using this
      unfold Str.trimLeft at this ⊢
      rw [List.dropWhile_cons, if_pos (by simp), this]
    rw [this]
    apply Str.trimRight_id
    intro c hc
    rw [List.getLast?_append] at hc; simp at hc; subst hc; decide
  obtain ⟨qs, q, rfl⟩ : ∃ qs q, ps = qs ++ [q] := ⟨ps.dropLast, ps.getLast h0, (List.dropLast_append_getLast h0).symm⟩
  have hq := h q (by simp)
  have hqs : ∀ p ∈ qs, GoodPZ T p := fun p hp => h p (by simp [hp])
  have e2 : ∀ qs : List (PointZ F), (∀ p ∈ qs, GoodPZ T p) →
      Str.split ',' (Str.join ',' ((qs ++ [q]).map (xyzText T)) ++ ')' :: ',' :: []) = qs.map (xyzText T) ++ (xyzText T q ++ [')']) :: [[]] := by
    intro qs hqs
    induction qs with
    | nil =>
      have : Str.join ',' (([] ++ [q]).map (xyzText T)) ++ ')' :: ',' :: [] = (xyzText T q ++ [')']) ++ ',' :: [] := by
        show xyzText T q ++ _ = _; simp
      rw [this, Str.split_append]
      · rfl
      · simp only [List.mem_append, List.mem_singleton, not_or]
        exact ⟨xyz_not_mem hq (by decide) (by decide), by decide⟩
    | cons a qs ih =>
      obtain ⟨b, l, e⟩ : ∃ b l, (qs ++ [q]).map (xyzText T) = b :: l := by cases qs <;> simp
      have : Str.join ',' ((a :: qs ++ [q]).map (xyzText T)) = xyzText T a ++ ',' :: Str.join ',' ((qs ++ [q]).map (xyzText T)) := by
        rw [List.cons_append, List.map_cons, e]; rfl
      rw [this, List.append_assoc, List.cons_append, Str.split_append, ih fun p hp => hqs p (by simp [hp])]
      · rfl
      · exact xyz_not_mem (hqs a (by simp)) (by decide) (by decide)
  unfold LineStringFromWKT
  rw [e1, e2 qs hqs, parseTerms_badZ hT _ qs q hqs hq]
  rfl

/-! ### the search in the text of several paths -/

theorem pairs_chars {N : Char → Bool} {w : List Char} {g : Caps} (h : Matches (.star (pairRe N)) w g) : ∀ c ∈ w, N c = true ∨ isSep c = true := by
  generalize hr : Re.star (pairRe N) = r at h
  induction h with
  | chr _ => cases hr
  | seq _ _ _ _ => cases hr
  | cap _ _ => cases hr
  | star_nil => simp
  | @star_cons a u v g1 g2 h1 h2 _ ih =>
    cases hr
    intro c hc
    rcases List.mem_append.1 hc with hc | hc
    · obtain ⟨sp, n1, bl, n2, sq, rfl, hsp, hn1, hbl, hn2, hsq⟩ := pair_of h1
      simp only [List.mem_append] at hc
      rcases hc with hc | hc | hc | hc | hc
      · exact Or.inr (by rw [hsp c hc]; decide)
      · exact Or.inl (hn1.2 c hc)
      · exact Or.inr (by rw [hbl.2 c hc]; decide)
      · exact Or.inl (hn2.2 c hc)
      · exact Or.inr (hsq c hc)
    · exact ih rfl c hc

theorem path_not_mem {ps : List (PointZ F)} (h : ∀ p ∈ ps, GoodPZ T p) {d : Char} (hd : isNum d = false) (hs : d ≠ ' ') (hc : d ≠ ',') : d ∉ Str.join ',' (ps.map (xyzText T)) := by
  intro hm
  rcases Str.mem_join hm with e | ⟨w, hw, hm⟩
  · exact hc e
  · obtain ⟨p, hp, rfl⟩ := List.mem_map.1 hw
    exact xyz_not_mem (h p hp) hd hs hm

/-- a match at the opening bracket of a path is the path, and the path is wide -/
theorem ring_at {N : Char → Bool} (hN : NumClass N) {ps : List (PointZ F)} (h0 : ps ≠ []) (h : ∀ p ∈ ps, GoodPZ T p) {t u t' : List Char} {g : Caps} (hm : Matches (ringRe N) u g) (e : pathZText T ps ++ t = u ++ t') :
    u = pathZText T ps ∧ t' = t ∧ g = [] ∧ WideY T ps := by
  have hcl := clean_pathZ h0 h
  obtain ⟨eg, sp, s1, m, s2, g', rfl, hsp, hs1, hs2, hm'⟩ := ring_of hm
  have esp : sp = [] := by
    cases sp with
    | nil => rfl
    | cons c sp =>
      have ec : '(' = c := by simp [pathZText, paren] at e; exact e.1
      exact absurd (ec.trans (hsp c (by simp))) (by decide)
  subst esp
  have nc : ')' ∉ s1 ++ (m ++ s2) := by
    simp only [List.mem_append, not_or]
    refine ⟨fun hc => absurd (hs1 _ hc) (by decide), fun hc => ?_, fun hc => absurd (hs2 _ hc) (by decide)⟩
    rcases pairs_chars hm' _ hc with k | k
    · rw [hN.close] at k; cases k
    · exact absurd k (by decide)
  have e2 : Str.join ',' (ps.map (xyzText T)) ++ ')' :: t = (s1 ++ (m ++ s2)) ++ ')' :: t' := by simpa [pathZText, paren] using e
  obtain ⟨em, et⟩ := cut_unique (path_not_mem h (by decide) (by decide) (by decide)) nc e2
  have q1 : s1 = [] := by
    cases s1 with
    | nil => rfl
    | cons c s1 =>
      obtain ⟨d, v, ev, hd⟩ := hcl.hd
      rw [ev] at em
      simp only [List.cons_append, List.cons.injEq] at em
      rw [em.1, hs1 c (by simp)] at hd
      exact absurd hd (by decide)
  subst q1
  have q2 : s2 = [] := by
    rcases List.eq_nil_or_concat s2 with h | ⟨t, c, h⟩
    · exact h
    · rw [List.concat_eq_append] at h
      obtain ⟨d, v, ev, hd⟩ := hcl.lst
      rw [ev, h, List.nil_append, ← List.append_assoc] at em
      have := (List.append_inj' em rfl).2
      simp at this
      rw [this, hs2 c (by rw [h]; simp)] at hd
      exact absurd hd (by decide)
  subst q2
  have em' : m = Str.join ',' (ps.map (xyzText T)) := by simpa using em.symm
  subst em'
  exact ⟨by simp [pathZText, paren], et.symm, eg, terms_of hN ps g' h hm'⟩

/-- nothing is found in front of the next opening bracket -/
theorem find_skip {d : Char} (hd : isWs d = false) (hd' : d ≠ '(') (t : List Char) : ∀ v : List Char, '(' ∉ v → ringsRe.find (v ++ d :: t) = ringsRe.find t := by
  have no : ∀ v : List Char, '(' ∉ v → ∀ k, ringsRe.m (v ++ d :: t) [] k = none := by
    intro v hv k
    by_contra hne
    obtain ⟨x, hx⟩ := Option.ne_none_iff_exists'.1 hne
    obtain ⟨u, t', g', e, hm, -⟩ := m_sound _ _ _ _ _ hx
    obtain ⟨sp, mid, sq, rfl, -, hsp, -⟩ := rings_matches hm
    have e' : (v ++ [d]) ++ t = sp ++ '(' :: (mid ++ ')' :: (sq ++ t')) := by simpa using e
    rcases List.append_eq_append_iff.1 e' with ⟨a, rfl, -⟩ | ⟨a, e1, e2⟩
    · have := hsp d (by simp)
      rw [hd] at this; cases this
    · cases a with
      | nil =>
        rw [List.append_nil] at e1
        have := hsp d (by rw [← e1]; simp)
        rw [hd] at this; cases this
      | cons c a =>
        simp only [List.cons_append, List.cons.injEq] at e2
        have : '(' ∈ v ++ [d] := by rw [e1, ← e2.1]; simp
        rcases List.mem_append.1 this with h | h
        · exact hv h
        · exact hd' (List.mem_singleton.1 h).symm
  intro v
  induction v with
  | nil => intro hv; exact find_next _ _ _ (no [] hv)
  | cons c v ih =>
    intro hv
    exact (find_next _ _ _ (no (c :: v) hv)).trans (ih fun h => hv (by simp [h]))

/-- a wide path at the beginning is found, with the comma behind it -/
theorem find_wide {ps : List (PointZ F)} (h0 : ps ≠ []) (h : ∀ p ∈ ps, GoodPZ T p) (hw : WideY T ps) {sq t : List Char} (hs : ∀ c ∈ sq, isSep c = true)
    (ht : ∀ c, t.head? = some c → isSep c = false) : ringsRe.find (pathZText T ps ++ (sq ++ t)) = some [pathZText T ps ++ sq, pathZText T ps] := by
  apply find_here
  have hm : Matches (ringRe isNumE) (pathZText T ps) [] := by
    have e : pathZText T ps = [] ++ (['('] ++ ([] ++ (Str.join ',' (ps.map (xyzText T)) ++ ([] ++ [')'])))) := rfl
    rw [e]
    exact .seq (g := []) (g' := []) .star_nil (.seq (g := []) (g' := []) (.chr (by decide)) (.seq (g := []) (g' := []) .star_nil
      (.seq (g := []) (g' := []) (terms_match numClass_isNumE ps h hw) (.seq (g := []) (g' := []) .star_nil (.chr (by decide))))))
  have hm' : Matches ringsRe (pathZText T ps ++ []) ([pathZText T ps] ++ []) := .seq (.cap hm) .star_nil
  generalize hk : (fun (rest : List Char) (g : Caps) => some (List.take ((pathZText T ps ++ (sq ++ t)).length - rest.length) (pathZText T ps ++ (sq ++ t)) :: g)) = k
  have hne := m_complete ringsRe (by decide) _ _ hm' (sq ++ t) [] k (by rw [← hk]; simp)
  rw [List.append_nil] at hne
  obtain ⟨x, hx⟩ := Option.ne_none_iff_exists'.1 hne
  rw [hx]
  unfold ringsRe at hx
  rw [seq_m] at hx
  obtain ⟨u, t', g', e, hmu, hk'⟩ := m_sound _ _ _ _ _ hx
  cases hmu with
  | @cap _ _ g1 k1 =>
    obtain ⟨rfl, rfl, rfl, -⟩ := ring_at numClass_isNumE h0 h k1 e
    have e3 := star_all isSep sq t ([] ++ [pathZText T ps] ++ []) k hs ht [pathZText T ps ++ sq, pathZText T ps] (by
      rw [← hk]
      simp only [List.nil_append, List.append_nil]
      rw [take_sub_length (u := pathZText T ps ++ sq) (t := t) (by simp)])
    rw [← hx]
    rw [← hk'] at hx
    rw [hx]
    have e4 : seps = Re.star (.chr isSep) := rfl
    rw [e4]
    simpa using e3

/-- a path that is not wide is passed over -/
theorem find_narrow {ps : List (PointZ F)} (h0 : ps ≠ []) (h : ∀ p ∈ ps, GoodPZ T p) (hw : ¬ WideY T ps) (t : List Char) (ht : t = [] ∨ ∃ t', t = ',' :: t') :
    ringsRe.find (pathZText T ps ++ t) = ringsRe.find t.tail := by
  have hno : ∀ k, ringsRe.m (pathZText T ps ++ t) [] k = none := by
    intro k
    by_contra hne
    obtain ⟨x, hx⟩ := Option.ne_none_iff_exists'.1 hne
    unfold ringsRe at hx
    rw [seq_m] at hx
    obtain ⟨u, t', g', e, hmu, -⟩ := m_sound _ _ _ _ _ hx
    cases hmu with
    | @cap _ _ g1 k1 => exact hw (ring_at numClass_isNumE h0 h k1 e).2.2.2
  have e : pathZText T ps ++ t = '(' :: (Str.join ',' (ps.map (xyzText T)) ++ ')' :: t) := by simp [pathZText, paren]
  rw [e] at hno ⊢
  rw [find_next _ _ _ hno]
  have nb := path_not_mem (T := T) h (d := '(') (by decide) (by decide) (by decide)
  rcases ht with rfl | ⟨t', rfl⟩
  · exact find_skip (d := ')') (by decide) (by decide) [] _ nb
  · have := find_skip (d := ',') (by decide) (by decide) t' (Str.join ',' (ps.map (xyzText T)) ++ [')']) (by simp [nb])
    simpa using this

/-- the first wide path is found -/
theorem find_paths {l : List (PointZ F)} (h0 : l ≠ []) (h : ∀ p ∈ l, GoodPZ T p) : ∀ init : List (List (PointZ F)), (∀ q ∈ init, q ≠ [] ∧ ∀ p ∈ q, GoodPZ T p) →
    ((∀ q ∈ init, ¬ WideY T q) ∧ WideY T l → ringsRe.find (Str.join ',' ((init ++ [l]).map (pathZText T))) = some [pathZText T l, pathZText T l]) ∧
    (¬ ((∀ q ∈ init, ¬ WideY T q) ∧ WideY T l) → ringsRe.find (Str.join ',' ((init ++ [l]).map (pathZText T))) = none ∨
      ∃ q ∈ init, ringsRe.find (Str.join ',' ((init ++ [l]).map (pathZText T))) = some [pathZText T q ++ [','], pathZText T q])
  | [], _ => by
    have e : Str.join ',' (([] ++ [l]).map (pathZText T)) = pathZText T l := rfl
    rw [e]
    refine ⟨fun hw => ?_, fun hw => Or.inl ?_⟩
    · have := find_wide h0 h hw.2 (sq := []) (t := []) (by simp) (by simp)
      simpa using this
    · have := find_narrow h0 h (fun h => hw ⟨by simp, h⟩) [] (Or.inl rfl)
      rw [List.append_nil] at this
      rw [this]
      decide
  | q :: init, hi => by
    obtain ⟨q0, hq⟩ := hi q (by simp)
    have ih := find_paths h0 h init fun a ha => hi a (by simp [ha])
    obtain ⟨b, bs, eb⟩ : ∃ b bs, (init ++ [l]) = b :: bs := by cases init <;> simp
    have e : Str.join ',' ((q :: init ++ [l]).map (pathZText T)) = pathZText T q ++ ([','] ++ Str.join ',' ((init ++ [l]).map (pathZText T))) := by
      rw [List.cons_append, List.map_cons, eb]; rfl
    have hd : ∃ s, Str.join ',' ((init ++ [l]).map (pathZText T)) = '(' :: s := by
      rw [eb]
      cases bs with
      | nil => exact ⟨_, rfl⟩
      | cons c bs => exact ⟨_, rfl⟩
    rw [e]
    by_cases hw : WideY T q
    · have hf := find_wide q0 hq hw (sq := [',']) (t := Str.join ',' ((init ++ [l]).map (pathZText T))) (by simp [isSep]) (by
        obtain ⟨s, hs⟩ := hd
        rw [hs]
        intro c hc
        simp at hc
        subst hc
        decide)
      exact ⟨fun h => absurd hw (h.1 q (by simp)), fun _ => Or.inr ⟨q, by simp, hf⟩⟩
    · have hf := find_narrow q0 hq hw ([','] ++ Str.join ',' ((init ++ [l]).map (pathZText T))) (Or.inr ⟨_, rfl⟩)
      rw [hf]
      show (_ → ringsRe.find (Str.join ',' ((init ++ [l]).map (pathZText T))) = _) ∧ (_ → ringsRe.find (Str.join ',' ((init ++ [l]).map (pathZText T))) = none ∨
        ∃ q' ∈ q :: init, ringsRe.find (Str.join ',' ((init ++ [l]).map (pathZText T))) = some [pathZText T q' ++ [','], pathZText T q'])
      refine ⟨fun k => ih.1 ⟨fun a ha => k.1 a (by simp [ha]), k.2⟩, fun k => ?_⟩
      rcases ih.2 (fun k' => k ⟨fun a ha => by
          rcases List.mem_cons.1 ha with rfl | ha
          · exact hw
          · exact k'.1 a ha, k'.2⟩) with k' | ⟨a, ha, k'⟩
      · exact Or.inl k'
      · exact Or.inr ⟨a, by simp [ha], k'⟩

theorem parseAll_bad {f : List Char → Go (Option (Geometry F))} {a : List Char} (h : f a = .ok none) (as : List (List Char)) : parseAll f (a :: as) = .ok none := by
  rw [parseAll, h]
  rfl

theorem ring_commaZ (hT : Rejects T) {ps : List (PointZ F)} (h0 : ps ≠ []) (h : ∀ p ∈ ps, GoodPZ T p) : RingFromWKT T (pathZText T ps ++ [',']) = .ok none := by
  unfold RingFromWKT
  rw [line_commaZ hT h0 h]
  rfl

theorem paths_piece {ls : List (List (PointZ F))} (h0 : ls ≠ []) (h : ∀ l ∈ ls, l ≠ [] ∧ ∀ p ∈ l, GoodPZ T p) :
    Piece (Str.join ',' (ls.map (pathZText T))) ∧ '\n' ∉ Str.join ',' (ls.map (pathZText T)) :=
  ⟨piece_join _ (by simpa using h0) (map_piece fun l hl => (path_piece (h l hl).1 (h l hl).2).1), nl_join (map_nl fun l hl => (path_piece (h l hl).1 (h l hl).2).2)⟩

open Classical in
/-- C163: lines with heights, written as a multiline and read again. If only the last of them is written with two characters or more for every second coordinate, it comes back,
twice; the others are lost. In all other cases the text is rejected. -/
theorem C163_lines (hT : Rejects T) (init : List (List (PointZ F))) (l : List (PointZ F)) (h : ∀ q ∈ init ++ [l], q ≠ [] ∧ ∀ p ∈ q, PointZReads T p) :
    Decode T (Encode T (.multiLineStringZ (init ++ [l]))) = .ok (if (∀ q ∈ init, ¬ WideY T q) ∧ WideY T l then some (.multiLineStringZ [l, l]) else none) := by
  have hg : ∀ q ∈ init ++ [l], q ≠ [] ∧ ∀ p ∈ q, GoodPZ T p := fun q hq => ⟨(h q hq).1, fun p hp => ((h q hq).2 p hp).good⟩
  obtain ⟨l0, hl⟩ := hg l (by simp)
  have hp := paths_piece (ls := init ++ [l]) (by simp) hg
  have e := decode_multiLine (T := T) hp.1 hp.2
  have e' : Decode T (Encode T (.multiLineStringZ (init ++ [l]))) = MultiLineStringFromWKT T (Str.join ',' ((init ++ [l]).map (pathZText T))) := e
  rw [e']
  have hf := find_paths l0 hl init fun q hq => hg q (by simp [hq])
  unfold MultiLineStringFromWKT
  split_ifs with hw
  · rw [hf.1 hw]
    have e : parseAll (LineStringFromWKT T) ((some [pathZText T l, pathZText T l]).getD []) = .ok (some [.lineStringZ l, .lineStringZ l]) := by
      show parseAll (LineStringFromWKT T) [pathZText T l, pathZText T l] = _
      simp only [parseAll, line_pathZ l0 hl]
      rfl
    rw [e]
    rfl
  · rcases hf.2 hw with k | ⟨q, hq, k⟩
    · rw [k]; rfl
    · rw [k]
      obtain ⟨q0, hq'⟩ := hg q (by simp [hq])
      rw [Option.getD_some, parseAll_bad (line_commaZ hT q0 hq')]
      rfl

open Classical in
/-- C163: rings with heights, written as a polygon and read again. If only the last of them is written with two characters or more for every second coordinate, it comes back,
closed, as the exterior ring and as a hole; the others are lost. In all other cases the text is rejected. -/
theorem C163_rings (hT : Rejects T) (init : List (List (PointZ F))) (l r : List (PointZ F)) (hr : ClosedUpZ l r) (h : ∀ q ∈ init ++ [l], q ≠ [] ∧ ∀ p ∈ q, PointZReads T p) :
    Decode T (Encode T (.polygonZ (init ++ [l]))) = .ok (if (∀ q ∈ init, ¬ WideY T q) ∧ WideY T l then some (.polygonZ [r, r]) else none) := by
  have hg : ∀ q ∈ init ++ [l], q ≠ [] ∧ ∀ p ∈ q, GoodPZ T p := fun q hq => ⟨(h q hq).1, fun p hp => ((h q hq).2 p hp).good⟩
  obtain ⟨l0, hl⟩ := hg l (by simp)
  have hp := paths_piece (ls := init ++ [l]) (by simp) hg
  have e := decode_polygon (T := T) hp.1 hp.2
  have e' : Decode T (Encode T (.polygonZ (init ++ [l]))) = PolygonFromWKT T (Str.join ',' ((init ++ [l]).map (pathZText T))) := e
  rw [e']
  have hf := find_paths l0 hl init fun q hq => hg q (by simp [hq])
  unfold PolygonFromWKT
  split_ifs with hw
  · rw [hf.1 hw]
    have e : parseAll (RingFromWKT T) ((some [pathZText T l, pathZText T l]).getD []) = .ok (some [.lineStringZ r, .lineStringZ r]) := by
      show parseAll (RingFromWKT T) [pathZText T l, pathZText T l] = _
      simp only [parseAll, ring_pathZ l0 hl (closedUpZ_toRingZ l0 hr)]
      rfl
    rw [e]
    rfl
  · rcases hf.2 hw with k | ⟨q, hq, k⟩
    · rw [k]; rfl
    · rw [k]
      obtain ⟨q0, hq'⟩ := hg q (by simp [hq])
      rw [Option.getD_some, parseAll_bad (ring_commaZ hT q0 hq')]
      rfl

/-- no multiline with heights comes back as it was -/
theorem C163_never (hT : Rejects T) (ls : List (List (PointZ F))) (h0 : ls ≠ []) (h : ∀ q ∈ ls, q ≠ [] ∧ ∀ p ∈ q, PointZReads T p) :
    Decode T (Encode T (.multiLineStringZ ls)) ≠ .ok (some (.multiLineStringZ ls)) := by
  obtain ⟨init, l, rfl⟩ : ∃ init l, ls = init ++ [l] := ⟨ls.dropLast, ls.getLast h0, (List.dropLast_append_getLast h0).symm⟩
  rw [C163_lines hT init l h]
  split_ifs with hw
  · intro e
    have e' : [l, l] = init ++ [l] := by simpa using e
    have ei : init = [l] := by
      have := congrArg List.dropLast e'
      simpa using this.symm
    exact hw.1 l (by rw [ei]; simp) hw.2
  · simp

/-- two rings, the first with a coordinate of one digit: the second comes back twice -/
theorem C163_example_rings : Decode intText (Encode intText (.polygonZ [ringZ ++ [⟨.fin ((1 : ℤ) : ℚ), .fin ((2 : ℤ) : ℚ), .fin ((30 : ℤ) : ℚ)⟩], ringZ])) =
    .ok (some (.polygonZ [ringZ ++ [⟨.fin ((1 : ℤ) : ℚ), .fin ((23 : ℤ) : ℚ), .fin ((4 : ℤ) : ℚ)⟩], ringZ ++ [⟨.fin ((1 : ℤ) : ℚ), .fin ((23 : ℤ) : ℚ), .fin ((4 : ℤ) : ℚ)⟩]])) := by
  have := C163_rings rejects_int [ringZ ++ [⟨.fin ((1 : ℤ) : ℚ), .fin ((2 : ℤ) : ℚ), .fin ((30 : ℤ) : ℚ)⟩]] ringZ _ ringZ_closed (by
    intro q hq
    simp only [List.cons_append, List.nil_append, List.mem_cons, List.not_mem_nil, or_false] at hq
    rcases hq with rfl | rfl
    · refine ⟨by simp [ringZ], fun p hp => ?_⟩
      rcases List.mem_append.1 hp with hp | hp
      · exact ringZ_reads p hp
      · rw [List.mem_singleton] at hp
        subst hp
        exact ⟨readsBack_int _, readsBack_int _, readsBack_int _⟩
    · exact ⟨by simp [ringZ], ringZ_reads⟩)
  rw [if_pos] at this
  · exact this
  · refine ⟨fun q hq => ?_, ?_⟩
    · rw [List.mem_singleton] at hq
      subst hq
      unfold WideY
      decide +kernel
    · unfold WideY
      decide +kernel

end GoGeo.Wkt
