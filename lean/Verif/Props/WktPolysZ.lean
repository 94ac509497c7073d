import Verif.Props.WktHoles

/-!
# Multipolygons with heights through WKT: C164
-/

namespace GoGeo.Wkt
open GoFloat Spec Regex

set_option linter.unusedSectionVars false

variable {F : Type} [GoFloat F] {T : NumText F}

/-- a ring starts with a blank or a bracket -/
theorem ring_head {N : Char → Bool} {u : List Char} {g : Caps} (h : Matches (ringRe N) u g) : ∃ c u', u = c :: u' ∧ (c = ' ' ∨ c = '(') := by
  obtain ⟨-, sp, s1, m, s2, g', rfl, hsp, -⟩ := ring_of h
  cases sp with
  | nil => exact ⟨_, _, rfl, Or.inr rfl⟩
  | cons c sp => exact ⟨_, _, rfl, Or.inl (hsp c (by simp))⟩

/-- so do several -/
theorem rings_head {N : Char → Bool} {w : List Char} {g : Caps} (h : Matches (.star (.seq (ringRe N) seps)) w g) : w = [] ∨ ∃ c w', w = c :: w' ∧ (c = ' ' ∨ c = '(') := by
  generalize hr : Re.star (.seq (ringRe N) seps) = r at h
  induction h with
  | chr _ => cases hr
  | seq _ _ _ _ => cases hr
  | cap _ _ => cases hr
  | star_nil => exact Or.inl rfl
  | @star_cons a u v g1 g2 h1 h2 _ ih =>
    cases hr
    right
    obtain ⟨x, y, _, _, rfl, -, k1, -⟩ := matches_seq h1
    obtain ⟨c, x', rfl, hc⟩ := ring_head k1
    exact ⟨c, _, rfl, hc⟩

/-- the text of several paths, without its first character, and what is behind it -/
theorem paths_tail (l : List (PointZ F)) (ls : List (List (PointZ F))) (t : List Char) :
    ∃ s, Str.join ',' ((l :: ls).map (pathZText T)) ++ t = pathZText T l ++ s ∧ (ls = [] ∧ s = t ∨ ls ≠ [] ∧ s = ',' :: (Str.join ',' (ls.map (pathZText T)) ++ t)) := by
  cases ls with
  | nil => exact ⟨t, rfl, Or.inl ⟨rfl, rfl⟩⟩
  | cons q ls => exact ⟨_, by show (pathZText T l ++ ',' :: Str.join ',' ((q :: ls).map (pathZText T))) ++ t = _; rw [List.append_assoc]; rfl, Or.inr ⟨by simp, rfl⟩⟩

theorem paths_head {ls : List (List (PointZ F))} (h0 : ls ≠ []) : ∃ s, Str.join ',' (ls.map (pathZText T)) = '(' :: s := by
  cases ls with
  | nil => exact absurd rfl h0
  | cons q ls => cases ls <;> exact ⟨_, rfl⟩

/-- rings that match up to a closing bracket are the paths, and the paths are wide -/
theorem rings_at {N : Char → Bool} (hN : NumClass N) {t t' : List Char} : ∀ (ls : List (List (PointZ F))) (w : List Char) (g : Caps), ls ≠ [] → (∀ l ∈ ls, l ≠ [] ∧ ∀ p ∈ l, GoodPZ T p) →
    Matches (.star (.seq (ringRe N) seps)) w g → Str.join ',' (ls.map (pathZText T)) ++ ')' :: t = w ++ ')' :: t' →
    w = Str.join ',' (ls.map (pathZText T)) ∧ t' = t ∧ ∀ l ∈ ls, WideY T l
  | [], _, _, h0, _, _, _ => absurd rfl h0
  | l :: ls, w, g, _, h, hm, e => by
    obtain ⟨l0, hl⟩ := h l (by simp)
    cases hm with
    | star_nil =>
      obtain ⟨s, hs⟩ := paths_head (T := T) (ls := l :: ls) (by simp)
      rw [hs] at e
      simp at e
    | @star_cons _ u v g1 g2 h1 h2 =>
      obtain ⟨x, sq, _, _, rfl, -, k1, k2⟩ := matches_seq h1
      obtain ⟨s, es, hs⟩ := paths_tail (T := T) l ls (')' :: t)
      rw [es] at e
      obtain ⟨rfl, e2, -, hw⟩ := ring_at hN l0 hl (t := s) (t' := sq ++ (v ++ ')' :: t')) k1 (by rw [e]; simp)
      have hsq : ∀ c ∈ sq, isSep c = true := fun c hc => star_all_of k2 c hc
      have hv := rings_head h2
      rcases hs with ⟨rfl, rfl⟩ | ⟨ls0, rfl⟩
      · have q1 : sq = [] := by
          cases sq with
          | nil => rfl
          | cons c sq =>
            simp only [List.cons_append, List.cons.injEq] at e2
            have := hsq c (by simp)
            rw [e2.1] at this
            exact absurd this (by decide)
        subst q1
        have q2 : v = [] := by
          rcases hv with hv | ⟨c, v', rfl, hc⟩
          · exact hv
          · simp only [List.nil_append, List.cons_append, List.cons.injEq] at e2
            rw [e2.1] at hc
            exact absurd hc (by decide)
        subst q2
        refine ⟨by simp [Str.join], by simpa using e2, fun a ha => ?_⟩
        rw [List.mem_singleton] at ha
        subst ha
        exact hw
      · obtain ⟨s', hs'⟩ := paths_head (T := T) ls0
        have q1 : sq = [','] := by
          cases sq with
          | nil =>
            exfalso
            rcases hv with rfl | ⟨c, v', rfl, hc⟩
            · simp at e2
            · simp only [List.nil_append, List.cons_append, List.cons.injEq] at e2
              rw [e2.1] at hc
              exact absurd hc (by decide)
          | cons c sq =>
            simp only [List.cons_append, List.cons.injEq] at e2
            obtain ⟨rfl, e2⟩ := e2
            cases sq with
            | nil => rfl
            | cons d sq =>
              rw [hs'] at e2
              simp only [List.cons_append, List.cons.injEq] at e2
              have := hsq d (by simp)
              rw [e2.1] at this
              exact absurd this (by decide)
        subst q1
        simp only [List.cons_append, List.nil_append, List.cons.injEq, true_and] at e2
        obtain ⟨e3, e4, e5⟩ := rings_at hN ls v g2 ls0 (fun a ha => h a (by simp [ha])) h2 e2.symm
        refine ⟨?_, e4, fun a ha => ?_⟩
        · rw [e3]
          cases ls with
          | nil => exact absurd rfl ls0
          | cons q ls => simp [Str.join]
        · rcases List.mem_cons.1 ha with rfl | ha
          · exact hw
          · exact e5 a ha

/-- wide paths are matched by rings -/
theorem rings_match {N : Char → Bool} (hN : NumClass N) : ∀ ls : List (List (PointZ F)), (∀ l ∈ ls, ∀ p ∈ l, GoodPZ T p) → (∀ l ∈ ls, WideY T l) →
    Matches (.star (.seq (ringRe N) seps)) (Str.join ',' (ls.map (pathZText T))) [] := by
  have one : ∀ l : List (PointZ F), (∀ p ∈ l, GoodPZ T p) → WideY T l → Matches (ringRe N) (pathZText T l) [] := by
    intro l h hw
    have e : pathZText T l = [] ++ (['('] ++ ([] ++ (Str.join ',' (l.map (xyzText T)) ++ ([] ++ [')'])))) := rfl
    rw [e]
    exact .seq (g := []) (g' := []) .star_nil (.seq (g := []) (g' := []) (.chr (by decide)) (.seq (g := []) (g' := []) .star_nil
      (.seq (g := []) (g' := []) (terms_match hN l h hw) (.seq (g := []) (g' := []) .star_nil (.chr (by decide))))))
  intro ls
  induction ls with
  | nil => intro _ _; exact .star_nil
  | cons l ls ih =>
    intro h hw
    have ih := ih (fun a ha => h a (by simp [ha])) (fun a ha => hw a (by simp [ha]))
    have h1 := one l (h l (by simp)) (hw l (by simp))
    cases ls with
    | nil =>
      have := Matches.star_cons (Matches.seq h1 (b := seps) (v := []) (g' := []) .star_nil) (.star_nil (a := .seq (ringRe N) seps))
      simpa [Str.join] using this
    | cons q ls =>
      have hs : Matches seps [','] [] := star_matches (by simp)
      have := Matches.star_cons (Matches.seq h1 hs) ih
      simpa [Str.join] using this

/-- a polygon of the expression: a bracket, and a bracket or a blank -/
theorem polys_of {w : List Char} {g : Caps} (h : Matches polysRe w g) :
    ∃ m g', w = '(' :: (m ++ [')']) ∧ g = [w] ∧ Matches (.star (.seq (ringRe isNum) seps)) m g' := by
  unfold polysRe at h
  have hn := h
  cases h with
  | @cap _ _ g1 h =>
    have hg : g1 = [] := noCap_groups h rfl
    obtain ⟨o, w2, _, _, rfl, -, ho, k2⟩ := matches_seq h
    obtain ⟨m, c, g', _, rfl, -, hm, hc⟩ := matches_seq k2
    obtain ⟨rfl, -⟩ := matches_one ho
    obtain ⟨rfl, -⟩ := matches_one hc
    exact ⟨m, g', rfl, by rw [hg]; simp, hm⟩

theorem polys_none {s : List Char} (h : ∀ m t' g', s = '(' :: (m ++ ')' :: t') → Matches (.star (.seq (ringRe isNum) seps)) m g' → False) : ∀ k, polysRe.m s [] k = none := by
  intro k
  by_contra hne
  obtain ⟨x, hx⟩ := Option.ne_none_iff_exists'.1 hne
  obtain ⟨u, t', g', e, hm, -⟩ := m_sound _ _ _ _ _ hx
  obtain ⟨m, g', rfl, -, hm'⟩ := polys_of hm
  exact h m t' g' (by rw [e]; simp) hm'

/-- nothing is found in front of the next bracket -/
theorem polys_skip (t : List Char) : ∀ v : List Char, '(' ∉ v → polysRe.find (v ++ t) = polysRe.find t
  | [], _ => rfl
  | c :: v, h => by
    refine (find_next _ _ _ (polys_none fun m t' g' e _ => ?_)).trans (polys_skip t v fun hm => h (by simp [hm]))
    simp only [List.cons.injEq] at e
    exact h (by rw [e.1]; simp)

/-- nothing is found at a path -/
theorem polys_path {l : List (PointZ F)} (h0 : l ≠ []) (h : ∀ p ∈ l, GoodPZ T p) (t : List Char) : polysRe.find (pathZText T l ++ t) = polysRe.find t := by
  obtain ⟨c, u, ec, hc⟩ := (clean_pathZ h0 h).hd
  have e : pathZText T l ++ t = '(' :: (Str.join ',' (l.map (xyzText T)) ++ [')'] ++ t) := by simp [pathZText, paren]
  rw [e, find_next, polys_skip]
  · have := path_not_mem (T := T) h (d := '(') (by decide) (by decide) (by decide)
    simp [this]
  · apply polys_none
    intro m t' g' e hm
    rw [ec] at e
    simp only [List.cons_append, List.cons.injEq, true_and] at e
    rcases rings_head hm with rfl | ⟨d, m', rfl, hd⟩
    · simp only [List.nil_append, List.cons.injEq] at e
      rw [e.1] at hc
      exact absurd hc (by decide)
    · simp only [List.cons_append, List.cons.injEq] at e
      rw [e.1] at hc
      rcases hd with rfl | rfl <;> exact absurd hc (by decide)

theorem polys_paths (t : List Char) : ∀ ls : List (List (PointZ F)), (∀ l ∈ ls, l ≠ [] ∧ ∀ p ∈ l, GoodPZ T p) →
    polysRe.find (Str.join ',' (ls.map (pathZText T)) ++ t) = polysRe.find t
  | [], _ => rfl
  | l :: ls, h => by
    obtain ⟨l0, hl⟩ := h l (by simp)
    obtain ⟨s, es, hs⟩ := paths_tail (T := T) l ls t
    rw [es, polys_path l0 hl]
    rcases hs with ⟨-, rfl⟩ | ⟨-, rfl⟩
    · rfl
    · exact (polys_skip _ [','] (by decide)).trans (polys_paths t ls fun a ha => h a (by simp [ha]))

/-- a polygon with a ring that is not wide is passed over -/
theorem polys_narrow {rs : List (List (PointZ F))} (h0 : rs ≠ []) (h : ∀ l ∈ rs, l ≠ [] ∧ ∀ p ∈ l, GoodPZ T p) (hw : ¬ ∀ l ∈ rs, WideY T l) (t : List Char) :
    polysRe.find (polyZText T rs ++ t) = polysRe.find t := by
  have e : polyZText T rs ++ t = '(' :: (Str.join ',' (rs.map (pathZText T)) ++ ')' :: t) := by simp [polyZText, paren]
  rw [e, find_next, polys_paths _ _ h]
  · exact polys_skip t [')'] (by decide)
  · apply polys_none
    intro m t' g' e hm
    simp only [List.cons.injEq, true_and] at e
    exact hw (rings_at numClass_isNum rs m g' h0 h hm e).2.2

/-- a polygon of wide rings is found -/
theorem polys_wide {rs : List (List (PointZ F))} (h0 : rs ≠ []) (h : ∀ l ∈ rs, l ≠ [] ∧ ∀ p ∈ l, GoodPZ T p) (hw : ∀ l ∈ rs, WideY T l) (t : List Char) :
    polysRe.find (polyZText T rs ++ t) = some [polyZText T rs, polyZText T rs] := by
  apply find_here
  have hm : Matches polysRe (polyZText T rs) [polyZText T rs] := by
    have e : polyZText T rs = ['('] ++ (Str.join ',' (rs.map (pathZText T)) ++ [')']) := rfl
    have : Matches (.seq (one '(') (.seq (.star (.seq (ringRe isNum) seps)) (one ')'))) (polyZText T rs) [] := by
      rw [e]
      exact .seq (g := []) (g' := []) (.chr (by decide)) (.seq (g := []) (g' := []) (rings_match numClass_isNum rs (fun l hl => (h l hl).2) hw) (.chr (by decide)))
    exact .cap this
  generalize hk : (fun (rest : List Char) (g : Caps) => some (List.take ((polyZText T rs ++ t).length - rest.length) (polyZText T rs ++ t) :: g)) = k
  have hne := m_complete polysRe (by decide) _ _ hm t [] k (by rw [← hk]; simp)
  obtain ⟨x, hx⟩ := Option.ne_none_iff_exists'.1 hne
  rw [hx]
  obtain ⟨u, t', g', e, hmu, hk'⟩ := m_sound _ _ _ _ _ hx
  obtain ⟨m, g1, eu, eg, hm'⟩ := polys_of hmu
  have e2 : Str.join ',' (rs.map (pathZText T)) ++ ')' :: t = m ++ ')' :: t' := by
    rw [eu] at e
    simpa [polyZText, paren] using e
  obtain ⟨em, et, -⟩ := rings_at numClass_isNum rs m g1 h0 h hm' e2
  have eu' : u = polyZText T rs := by rw [eu, em]; rfl
  rw [← hk', eg, eu', et, ← hk]
  simp only [List.nil_append]
  rw [take_sub_length (u := polyZText T rs) (t := t) rfl]

/-- in the text of a polygon with its brackets, the first ring is found if it is wide -/
theorem rings_in_poly {l : List (PointZ F)} {ls : List (List (PointZ F))} (l0 : l ≠ []) (hl : ∀ p ∈ l, GoodPZ T p) (hw : WideY T l) :
    ringsRe.find (polyZText T (l :: ls)) = if ls = [] then some [pathZText T l, pathZText T l] else some [pathZText T l ++ [','], pathZText T l] := by
  obtain ⟨s, es, hs⟩ := paths_tail (T := T) l ls [')']
  have e : polyZText T (l :: ls) = '(' :: (pathZText T l ++ s) := by rw [← es]; rfl
  rw [e, find_next]
  · rcases hs with ⟨rfl, rfl⟩ | ⟨ls0, rfl⟩
    · rw [if_pos rfl]
      have := find_wide l0 hl hw (sq := []) (t := [')']) (by simp) (by intro c hc; simp at hc; subst hc; decide)
      simpa using this
    · rw [if_neg ls0]
      obtain ⟨s', hs'⟩ := paths_head (T := T) ls0
      exact find_wide l0 hl hw (sq := [',']) (by simp [isSep]) (by rw [hs']; intro c hc; simp at hc; subst hc; decide)
  · intro k
    by_contra hne
    obtain ⟨x, hx⟩ := Option.ne_none_iff_exists'.1 hne
    obtain ⟨u, t', g', e, hm, -⟩ := m_sound _ _ _ _ _ hx
    unfold ringsRe at hm
    obtain ⟨u, sq, g1, g2, rfl, -, k1, -⟩ := matches_seq hm
    cases k1 with
    | @cap _ _ g1 k1 =>
      obtain ⟨-, sp, s1, m, s2, g', rfl, hsp, hs1, hs2, hm'⟩ := ring_of k1
      cases sp with
      | cons c sp =>
        simp only [List.cons_append, List.cons.injEq] at e
        exact absurd (e.1.trans (hsp c (by simp))) (by decide)
      | nil =>
        have e2 : '(' :: (Str.join ',' (l.map (xyzText T)) ++ [')'] ++ s) = (s1 ++ (m ++ s2)) ++ ')' :: (sq ++ t') := by
          simp only [List.nil_append, List.cons_append, List.cons.injEq, true_and] at e
          simpa [pathZText, paren] using e
        have no : '(' ∉ s1 ++ (m ++ s2) := by
          simp only [List.mem_append, not_or]
          refine ⟨fun hc => absurd (hs1 _ hc) (by decide), fun hc => ?_, fun hc => absurd (hs2 _ hc) (by decide)⟩
          rcases pairs_chars hm' _ hc with k | k <;> exact absurd k (by decide)
        cases hq : s1 ++ (m ++ s2) with
        | nil => rw [hq] at e2; simp at e2
        | cons c q =>
          rw [hq] at e2 no
          simp only [List.cons_append, List.cons.injEq] at e2
          exact no (by rw [← e2.1]; simp)

theorem polygonZ_text (hT : Rejects T) {l r : List (PointZ F)} {ls : List (List (PointZ F))} (l0 : l ≠ []) (hl : ∀ p ∈ l, GoodPZ T p) (hw : WideY T l) (hr : ClosedUpZ l r) :
    PolygonFromWKT T (polyZText T (l :: ls)) = .ok (if ls = [] then some (.polygonZ [r, r]) else none) := by
  unfold PolygonFromWKT
  rw [rings_in_poly l0 hl hw]
  split_ifs with g
  · have e : parseAll (RingFromWKT T) ((some [pathZText T l, pathZText T l]).getD []) = .ok (some [.lineStringZ r, .lineStringZ r]) := by
      show parseAll (RingFromWKT T) [pathZText T l, pathZText T l] = _
      simp only [parseAll, ring_pathZ l0 hl (closedUpZ_toRingZ l0 hr)]
      rfl
    rw [e]
    rfl
  · rw [Option.getD_some, parseAll_bad (ring_commaZ hT l0 hl)]
    rfl

/-- the polygons in front of the first one with wide rings are passed over -/
theorem polys_init (t : List Char) : ∀ init : List (List (List (PointZ F))), (∀ rs ∈ init, rs ≠ [] ∧ (∀ l ∈ rs, l ≠ [] ∧ ∀ p ∈ l, GoodPZ T p) ∧ ¬ ∀ l ∈ rs, WideY T l) →
    polysRe.find ((init.map fun rs => polyZText T rs ++ [',']).flatten ++ t) = polysRe.find t
  | [], _ => rfl
  | rs :: init, h => by
    obtain ⟨h0, h1, h2⟩ := h rs (by simp)
    have e : (((rs :: init).map fun rs => polyZText T rs ++ [',']).flatten ++ t) = polyZText T rs ++ ([','] ++ ((init.map fun rs => polyZText T rs ++ [',']).flatten ++ t)) := by simp
    rw [e, polys_narrow h0 h1 h2, polys_skip _ [','] (by decide)]
    exact polys_init t init fun a ha => h a (by simp [ha])

theorem join_init (rs : List (List (PointZ F))) (tl : List (List (List (PointZ F)))) : ∀ init : List (List (List (PointZ F))),
    ∃ t, Str.join ',' ((init ++ rs :: tl).map (polyZText T)) = (init.map fun rs => polyZText T rs ++ [',']).flatten ++ (polyZText T rs ++ t) ∧ (tl = [] → t = [])
  | [] => by
    cases tl with
    | nil => exact ⟨[], by simp [Str.join], fun _ => rfl⟩
    | cons q tl => exact ⟨',' :: Str.join ',' ((q :: tl).map (polyZText T)), by simp [Str.join], fun h => by cases h⟩
  | q :: init => by
    obtain ⟨t, e, ht⟩ := join_init rs tl init
    obtain ⟨b, bs, eb⟩ : ∃ b bs, (init ++ rs :: tl) = b :: bs := by cases init <;> simp
    refine ⟨t, ?_, ht⟩
    have : Str.join ',' ((q :: init ++ rs :: tl).map (polyZText T)) = polyZText T q ++ ',' :: Str.join ',' ((init ++ rs :: tl).map (polyZText T)) := by
      rw [List.cons_append, List.map_cons, eb]; rfl
    rw [this, e]
    simp

theorem polys_piece {ps : List (List (List (PointZ F)))} (h0 : ps ≠ []) (h : ∀ rs ∈ ps, rs ≠ [] ∧ ∀ l ∈ rs, l ≠ [] ∧ ∀ p ∈ l, GoodPZ T p) :
    Piece (Str.join ',' (ps.map (polyZText T))) ∧ '\n' ∉ Str.join ',' (ps.map (polyZText T)) := by
  have h1 : ∀ rs ∈ ps, Piece (polyZText T rs) ∧ '\n' ∉ polyZText T rs := fun rs hrs =>
    ⟨piece_paren (by simpa using (h rs hrs).1) (map_piece fun l hl => (path_piece ((h rs hrs).2 l hl).1 ((h rs hrs).2 l hl).2).1),
      nl_paren (map_nl fun l hl => (path_piece ((h rs hrs).2 l hl).1 ((h rs hrs).2 l hl).2).2)⟩
  exact ⟨piece_join _ (by simpa using h0) (map_piece fun rs hrs => (h1 rs hrs).1), nl_join (map_nl fun rs hrs => (h1 rs hrs).2)⟩

/-- C164: a multipolygon with heights, written and read again. The first of its polygons whose rings are all wide is found; if it has one ring only, it comes back twice, with
its ring twice, closed; the other polygons are lost. If it has holes the text is rejected. -/
theorem C164_found (hT : Rejects T) (init tl : List (List (List (PointZ F)))) (l r : List (PointZ F)) (ls : List (List (PointZ F))) (hr : ClosedUpZ l r)
    (h : ∀ rs ∈ init ++ (l :: ls) :: tl, rs ≠ [] ∧ ∀ q ∈ rs, q ≠ [] ∧ ∀ p ∈ q, PointZReads T p)
    (hi : ∀ rs ∈ init, ¬ ∀ q ∈ rs, WideY T q) (hw : ∀ q ∈ l :: ls, WideY T q) :
    Decode T (Encode T (.multiPolygonZ (init ++ (l :: ls) :: tl))) = .ok (if ls = [] then some (.multiPolygonZ [[r, r], [r, r]]) else none) := by
  have hg : ∀ rs ∈ init ++ (l :: ls) :: tl, rs ≠ [] ∧ ∀ q ∈ rs, q ≠ [] ∧ ∀ p ∈ q, GoodPZ T p :=
    fun rs hrs => ⟨(h rs hrs).1, fun q hq => ⟨((h rs hrs).2 q hq).1, fun p hp => (((h rs hrs).2 q hq).2 p hp).good⟩⟩
  have hp := polys_piece (ps := init ++ (l :: ls) :: tl) (by simp) hg
  have e' : Decode T (Encode T (.multiPolygonZ (init ++ (l :: ls) :: tl))) = MultiPolygonFromWKT T (Str.join ',' ((init ++ (l :: ls) :: tl).map (polyZText T))) := decode_multiPolygon hp.1 hp.2
  obtain ⟨t, et, -⟩ := join_init (T := T) (l :: ls) tl init
  have hl := hg (l :: ls) (by simp)
  have ht := polygonZ_text hT (ls := ls) (hl.2 l (by simp)).1 (hl.2 l (by simp)).2 (hw l (by simp)) hr
  rw [e', et]
  unfold MultiPolygonFromWKT
  rw [polys_init _ init fun rs hrs => ⟨(hg rs (by simp [hrs])).1, (hg rs (by simp [hrs])).2, hi rs hrs⟩, polys_wide hl.1 hl.2 hw]
  split_ifs with g
  · have e : parseAll (PolygonFromWKT T) ((some [polyZText T (l :: ls), polyZText T (l :: ls)]).getD []) = .ok (some [.polygonZ [r, r], .polygonZ [r, r]]) := by
      show parseAll (PolygonFromWKT T) [polyZText T (l :: ls), polyZText T (l :: ls)] = _
      simp only [parseAll, ht, if_pos g]
      rfl
    rw [e]
    rfl
  · rw [if_neg g] at ht
    rw [Option.getD_some, parseAll_bad ht]
    rfl

/-- C164: if every polygon has a ring that is not wide, the text is rejected -/
theorem C164_none (ps : List (List (List (PointZ F)))) (h0 : ps ≠ []) (h : ∀ rs ∈ ps, rs ≠ [] ∧ ∀ q ∈ rs, q ≠ [] ∧ ∀ p ∈ q, PointZReads T p)
    (hi : ∀ rs ∈ ps, ¬ ∀ q ∈ rs, WideY T q) : Decode T (Encode T (.multiPolygonZ ps)) = .ok none := by
  have hg : ∀ rs ∈ ps, rs ≠ [] ∧ ∀ q ∈ rs, q ≠ [] ∧ ∀ p ∈ q, GoodPZ T p :=
    fun rs hrs => ⟨(h rs hrs).1, fun q hq => ⟨((h rs hrs).2 q hq).1, fun p hp => (((h rs hrs).2 q hq).2 p hp).good⟩⟩
  have hp := polys_piece h0 hg
  have e' : Decode T (Encode T (.multiPolygonZ ps)) = MultiPolygonFromWKT T (Str.join ',' (ps.map (polyZText T))) := decode_multiPolygon hp.1 hp.2
  obtain ⟨init, rs, rfl⟩ : ∃ init rs, ps = init ++ [rs] := ⟨ps.dropLast, ps.getLast h0, (List.dropLast_append_getLast h0).symm⟩
  obtain ⟨t, et, ht⟩ := join_init (T := T) rs [] init
  rw [ht rfl] at et
  rw [e', et]
  unfold MultiPolygonFromWKT
  rw [polys_init _ init fun rs hrs => ⟨(hg rs (by simp [hrs])).1, (hg rs (by simp [hrs])).2, hi rs (by simp [hrs])⟩,
    polys_narrow (hg rs (by simp)).1 (hg rs (by simp)).2 (hi rs (by simp))]
  have : polysRe.find [] = none := by decide
  rw [this]
  rfl

theorem closedUpZ_exists {l : List (PointZ F)} (h0 : l ≠ []) : ∃ r, ClosedUpZ l r := by
  cases l with
  | nil => exact absurd rfl h0
  | cons a rest =>
    by_cases h : Near a.X ((a :: rest).getLast (by simp)).X ∧ Near a.Y ((a :: rest).getLast (by simp)).Y ∧ Near a.Z ((a :: rest).getLast (by simp)).Z
    · exact ⟨_, a, _, rfl, List.getLast?_eq_some_getLast _, Or.inl ⟨h, rfl⟩⟩
    · exact ⟨_, a, _, rfl, List.getLast?_eq_some_getLast _, Or.inr ⟨h, rfl⟩⟩

/-- C164: no multipolygon with heights comes back as it was -/
theorem C164_never (hT : Rejects T) (ps : List (List (List (PointZ F)))) (h0 : ps ≠ []) (h : ∀ rs ∈ ps, rs ≠ [] ∧ ∀ q ∈ rs, q ≠ [] ∧ ∀ p ∈ q, PointZReads T p) :
    Decode T (Encode T (.multiPolygonZ ps)) ≠ .ok (some (.multiPolygonZ ps)) := by
  classical
  by_cases hi : ∀ rs ∈ ps, ¬ ∀ q ∈ rs, WideY T q
  · rw [C164_none ps h0 h hi]
    simp
  · have hf : (ps.find? fun rs => decide (∀ q ∈ rs, WideY T q)).isSome = true := by
      rw [List.find?_isSome]
      push Not at hi
      obtain ⟨rs, h1, h2⟩ := hi
      exact ⟨rs, h1, by simpa using h2⟩
    obtain ⟨rs, hrs⟩ := Option.isSome_iff_exists.1 hf
    obtain ⟨hw, init, tl, rfl, hn⟩ := List.find?_eq_some_iff_append.1 hrs
    cases rs with
    | nil => exact absurd rfl (h [] (by simp)).1
    | cons l ls =>
      obtain ⟨r, hr⟩ := closedUpZ_exists ((h (l :: ls) (by simp)).2 l (by simp)).1
      rw [C164_found hT init tl l r ls hr h (fun a ha => by simpa using hn a ha) (by simpa using hw)]
      split_ifs with g
      · intro e
        have e' : [[r, r], [r, r]] = init ++ (l :: ls) :: tl := by simpa using e
        have : (l :: ls) ∈ [[r, r], [r, r]] := by rw [e']; simp
        rw [g] at this
        simp at this
      · simp

/-- one polygon with heights is found twice, its ring twice in each -/
theorem C164_example : Decode intText (Encode intText (.multiPolygonZ [[ringZ, ringZ ++ [⟨.fin ((1 : ℤ) : ℚ), .fin ((2 : ℤ) : ℚ), .fin ((30 : ℤ) : ℚ)⟩]], [ringZ], [ringZ, ringZ]])) =
    .ok (some (.multiPolygonZ [[ringZ ++ [⟨.fin ((1 : ℤ) : ℚ), .fin ((23 : ℤ) : ℚ), .fin ((4 : ℤ) : ℚ)⟩], ringZ ++ [⟨.fin ((1 : ℤ) : ℚ), .fin ((23 : ℤ) : ℚ), .fin ((4 : ℤ) : ℚ)⟩]],
      [ringZ ++ [⟨.fin ((1 : ℤ) : ℚ), .fin ((23 : ℤ) : ℚ), .fin ((4 : ℤ) : ℚ)⟩], ringZ ++ [⟨.fin ((1 : ℤ) : ℚ), .fin ((23 : ℤ) : ℚ), .fin ((4 : ℤ) : ℚ)⟩]]])) := by
  have hq : ∀ p ∈ ringZ ++ [⟨.fin ((1 : ℤ) : ℚ), .fin ((2 : ℤ) : ℚ), .fin ((30 : ℤ) : ℚ)⟩], PointZReads intText p := by
    intro p hp
    rcases List.mem_append.1 hp with hp | hp
    · exact ringZ_reads p hp
    · rw [List.mem_singleton] at hp
      subst hp
      exact ⟨readsBack_int _, readsBack_int _, readsBack_int _⟩
  have hz : ringZ ≠ [] := by simp [ringZ]
  have := C164_found rejects_int [[ringZ, ringZ ++ [⟨.fin ((1 : ℤ) : ℚ), .fin ((2 : ℤ) : ℚ), .fin ((30 : ℤ) : ℚ)⟩]]] [[ringZ, ringZ]] ringZ _ [] ringZ_closed (by
    intro rs hrs
    simp only [List.cons_append, List.nil_append, List.mem_cons, List.not_mem_nil, or_false] at hrs
    rcases hrs with rfl | rfl | rfl
    · refine ⟨by simp, fun q h => ?_⟩
      simp only [List.mem_cons, List.not_mem_nil, or_false] at h
      rcases h with rfl | rfl
      · exact ⟨hz, ringZ_reads⟩
      · exact ⟨by simp, hq⟩
    · refine ⟨by simp, fun q h => ?_⟩
      rw [List.mem_singleton] at h
      subst h
      exact ⟨hz, ringZ_reads⟩
    · refine ⟨by simp, fun q h => ?_⟩
      simp only [List.mem_cons, List.not_mem_nil, or_false, or_self] at h
      subst h
      exact ⟨hz, ringZ_reads⟩) (by unfold WideY; decide +kernel) (by unfold WideY; decide +kernel)
  rw [if_pos rfl] at this
  exact this

/-- C54 is false: the text of a multipolygon without heights whose first polygon has a hole is rejected -/
theorem C54_multipolygon_holes_false (hT : Rejects T) (r q : List (Point F)) (rs : List (List (Point F))) (ps : List (List (List (Point F))))
    (h : ∀ rs' ∈ (r :: q :: rs) :: ps, ∀ s ∈ rs', ∀ p ∈ s, PointReads T p) : Decode T (Encode T (.multiPolygon ((r :: q :: rs) :: ps))) = .ok none := by
  have hg : ∀ rs' ∈ (r :: q :: rs) :: ps, ∀ s ∈ rs', ∀ p ∈ s, GoodP T p := fun rs' hrs s hs p hp => (h rs' hrs s hs p hp).good
  have e' : Decode T (Encode T (.multiPolygon ((r :: q :: rs) :: ps))) = MultiPolygonFromWKT T (Str.join ',' (((r :: q :: rs) :: ps).map (polyText T))) :=
    decode_multiPolygon (piece_join _ (by simp) (map_piece fun p q => piece_poly p (hg p q))) (nl_join (map_nl fun p q => nl_poly p (hg p q)))
  obtain ⟨t, et⟩ := join_polys (T := T) (r :: q :: rs) ps
  have h1 : PolygonFromWKT T (polyText T (r :: q :: rs)) = .ok none := by
    rw [poly_paren]
    rcases join_paths (T := T) r (q :: rs) with ⟨-, e2⟩ | ⟨t', e1, ⟨t'', e3⟩, -⟩
    · cases e2
    · rw [e1, List.append_assoc, List.append_assoc]
      exact poly_more hT (hg (r :: q :: rs) (by simp) r (by simp)) _ (by rw [e3]; simp; decide)
  rw [e', et]
  unfold MultiPolygonFromWKT
  rw [polys_find (r :: q :: rs) (hg (r :: q :: rs) (by simp)) t, Option.getD_some, parseAll_bad h1]
  rfl

/-- a triangle with a hole meets the hypotheses -/
example : Decode intText (Encode intText (.multiPolygon [[tri, tri], [tri]])) = .ok none :=
  C54_multipolygon_holes_false rejects_int tri tri [] [[tri]] (by
    intro rs hrs s hs p hp
    have : s = tri := by
      simp only [List.mem_cons, List.not_mem_nil, or_false] at hrs
      rcases hrs with rfl | rfl <;> simpa using hs
    subst this
    simp only [tri, List.mem_cons, List.not_mem_nil, or_false] at hp
    rcases hp with rfl | rfl | rfl | rfl <;> exact ⟨readsBack_int _, readsBack_int _⟩)

end GoGeo.Wkt
