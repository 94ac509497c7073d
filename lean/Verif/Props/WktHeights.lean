import Verif.Props.WktRings

/-!
# Lines and rings with heights through WKT: C163

The decoder looks for pairs of numbers in brackets. A position with a height, `x y z`, is three numbers; it is found only where `y` can be cut in two.
-/

namespace GoGeo.Regex

/-! ### the search finds a match if there is one -/

/-- no groups under stars -/
def flat : Re → Bool
  | .chr _ => true
  | .seq a b => flat a && flat b
  | .star a => Wkt.noCap a
  | .cap a => flat a

theorem flat_of_noCap : ∀ {r : Re}, Wkt.noCap r = true → flat r = true
  | .chr _, _ => rfl
  | .seq a b, h => by
    simp only [Wkt.noCap, Bool.and_eq_true] at h
    simp only [flat, Bool.and_eq_true]
    exact ⟨flat_of_noCap h.1, flat_of_noCap h.2⟩
  | .star a, h => h

theorem starM_complete {a : Re} (hn : Wkt.noCap a = true)
    (ha : ∀ u g', Matches a u g' → ∀ t g (k : Cont), k t (g ++ g') ≠ none → a.m (u ++ t) g k ≠ none) {u : List Char} {g' : Caps} (h : Matches (.star a) u g') :
    ∀ n t g (k : Cont), u.length ≤ n → k t (g ++ g') ≠ none → starM a.m n (u ++ t) g k ≠ none := by
  have stop : ∀ n s g (k : Cont), k s g ≠ none → starM a.m n s g k ≠ none := by
    intro n s g k hk
    cases n with
    | zero => exact hk
    | succ n =>
      rw [starM]
      split
      · simp
      · exact hk
  generalize hr : Re.star a = r at h
  induction h with
  | chr _ => cases hr
  | seq _ _ _ _ => cases hr
  | cap _ _ => cases hr
  | star_nil =>
    intro n t g k _ hk
    rw [List.append_nil] at hk
    exact stop n _ g k hk
  | @star_cons b u v g1 g2 h1 h2 _ ih =>
    cases hr
    intro n t g k hl hk
    have e1 := Wkt.noCap_groups h1 hn
    subst e1
    cases u with
    | nil => exact ih rfl n t g k (by simpa using hl) (by simpa using hk)
    | cons c u =>
      cases n with
      | zero => simp at hl
      | succ n =>
        have := ha (c :: u) [] h1 (v ++ t) g (fun r g' => if r.length < ((c :: u) ++ (v ++ t)).length then starM a.m n r g' k else none) (by
          rw [if_pos (by simp)]
          rw [List.append_nil]
          exact ih rfl n t g k (by simp at hl; omega) (by simpa using hk))
        rw [List.append_assoc, starM]
        split
        · simp
        · rename_i e
          exact absurd e this

theorem m_complete : ∀ (r : Re), flat r = true → ∀ u g', Matches r u g' → ∀ t g (k : Cont), k t (g ++ g') ≠ none → r.m (u ++ t) g k ≠ none
  | .chr p, _, u, g', h, t, g, k, hk => by
    cases h with
    | chr hp =>
      show (Re.chr p).m (_ :: t) g k ≠ none
      rw [chr_cons, if_pos hp]
      simpa using hk
  | .seq a b, hf, u, g', h, t, g, k, hk => by
    simp only [flat, Bool.and_eq_true] at hf
    cases h with
    | @seq _ _ u v g1 g2 h1 h2 =>
      rw [seq_m, List.append_assoc]
      refine m_complete a hf.1 u g1 h1 (v ++ t) g _ ?_
      exact m_complete b hf.2 v g2 h2 t (g ++ g1) k (by rwa [List.append_assoc])
  | .star a, hf, u, g', h, t, g, k, hk => by
    rw [star_m]
    exact starM_complete hf (m_complete a (flat_of_noCap hf)) h _ t g k (by simp) hk
  | .cap a, hf, u, g', h, t, g, k, hk => by
    cases h with
    | @cap _ _ g1 h1 =>
      rw [cap_m]
      refine m_complete a hf u g1 h1 t g _ ?_
      rw [take_sub_length rfl, List.append_assoc]
      exact hk

/-- `find` finds something if something matches -/
theorem find_complete {r : Re} (hf : flat r = true) {w : List Char} {g : Caps} (h : Matches r w g) (post : List Char) : ∀ pre, r.find (pre ++ (w ++ post)) ≠ none
  | [] => by
    have := m_complete r hf w g h post [] (fun rest g => some ((w ++ post).take ((w ++ post).length - rest.length) :: g)) (by simp)
    rw [List.nil_append, Re.find.eq_def]
    split
    · simp
    · rename_i e
      exact absurd e this
  | c :: pre => by
    rw [Re.find.eq_def]
    split
    · simp
    · exact find_complete hf h post pre

end GoGeo.Regex

namespace GoGeo.Wkt
open GoFloat Spec Regex

set_option linter.unusedSectionVars false

variable {F : Type} [GoFloat F] {T : NumText F}

/-! ### what the pairs match -/

theorem star_matches {p : Char → Bool} : ∀ {u : List Char}, (∀ c ∈ u, p c = true) → Matches (.star (.chr p)) u []
  | [], _ => .star_nil
  | c :: u, h => .star_cons (u := [c]) (g := []) (g' := []) (.chr (h c (by simp))) (star_matches fun d hd => h d (by simp [hd]))

theorem plus_matches {p : Char → Bool} {u : List Char} (h0 : u ≠ []) (h : ∀ c ∈ u, p c = true) : Matches (plus (.chr p)) u [] := by
  cases u with
  | nil => exact absurd rfl h0
  | cons c u => exact .seq (u := [c]) (g := []) (g' := []) (.chr (h c (by simp))) (star_matches fun d hd => h d (by simp [hd]))

theorem plus_of {p : Char → Bool} {u : List Char} {g : Caps} (h : Matches (plus (.chr p)) u g) : u ≠ [] ∧ ∀ c ∈ u, p c = true := by
  obtain ⟨a, b, _, _, rfl, -, h1, h2⟩ := matches_seq h
  cases h1 with
  | chr hp =>
    refine ⟨by simp, fun c hc => ?_⟩
    rcases List.mem_append.1 hc with hc | hc
    · rw [List.mem_singleton] at hc; subst hc; exact hp
    · exact star_all_of h2 c hc

/-- two numbers, one blank between them, and separators -/
theorem pair_matches {N : Char → Bool} {n1 n2 sq : List Char} (h1 : n1 ≠ []) (h2 : n2 ≠ []) (a1 : ∀ c ∈ n1, N c = true) (a2 : ∀ c ∈ n2, N c = true)
    (hs : ∀ c ∈ sq, isSep c = true) : Matches (pairRe N) (n1 ++ ([' '] ++ (n2 ++ sq))) [] := by
  have e : sq = sq ++ ([] : List Char) := by simp
  rw [e]
  exact .seq (u := []) (g := []) (g' := []) .star_nil (.seq (g := []) (g' := []) (plus_matches h1 a1) (.seq (g := []) (g' := []) (plus_matches (by simp) (by simp))
    (.seq (g := []) (g' := []) (plus_matches h2 a2) (.seq (g := []) (g' := []) (star_matches hs) .star_nil))))

theorem pair_of {N : Char → Bool} {u : List Char} {g : Caps} (h : Matches (pairRe N) u g) :
    ∃ sp n1 bl n2 sq, u = sp ++ (n1 ++ (bl ++ (n2 ++ sq))) ∧ (∀ c ∈ sp, c = ' ') ∧ (n1 ≠ [] ∧ ∀ c ∈ n1, N c = true) ∧ (bl ≠ [] ∧ ∀ c ∈ bl, c = ' ') ∧
      (n2 ≠ [] ∧ ∀ c ∈ n2, N c = true) ∧ ∀ c ∈ sq, isSep c = true := by
  obtain ⟨sp, w1, _, _, rfl, -, k1, k2⟩ := matches_seq h
  obtain ⟨n1, w2, _, _, rfl, -, k3, k4⟩ := matches_seq k2
  obtain ⟨bl, w3, _, _, rfl, -, k5, k6⟩ := matches_seq k4
  obtain ⟨n2, w4, _, _, rfl, -, k7, k8⟩ := matches_seq k6
  obtain ⟨sq, s2, _, _, rfl, -, k9, k10⟩ := matches_seq k8
  refine ⟨sp, n1, bl, n2, sq ++ s2, rfl, fun c hc => by simpa using star_all_of k1 c hc, plus_of k3, ⟨(plus_of k5).1, fun c hc => by simpa using (plus_of k5).2 c hc⟩, plus_of k7, ?_⟩
  intro c hc
  rcases List.mem_append.1 hc with hc | hc
  · exact star_all_of k9 c hc
  · have := star_all_of k10 c hc
    simp only [isSep, Bool.or_eq_true]
    exact Or.inr this

/-- the text behind a comma is matched by pairs of its own -/
theorem pairs_skip {N : Char → Bool} (hN : NumClass N) {w : List Char} {g : Caps} (h : Matches (.star (pairRe N)) w g) :
    ∀ tm rest, ',' ∉ tm → (∃ c rest', rest = c :: rest' ∧ N c = true) → w = tm ++ ',' :: rest → ∃ g', Matches (.star (pairRe N)) rest g' := by
  generalize hr : Re.star (pairRe N) = r at h
  induction h with
  | chr _ => cases hr
  | seq _ _ _ _ => cases hr
  | cap _ _ => cases hr
  | star_nil => intro tm rest _ _ e; simp at e
  | @star_cons a u v g1 g2 h1 h2 _ ih =>
    cases hr
    intro tm rest htm hrest e
    rcases List.append_eq_append_iff.1 e with ⟨a', rfl, e2⟩ | ⟨c', rfl, e2⟩
    · exact ih rfl a' rest (fun hm => htm (by simp [hm])) hrest e2
    · cases c' with
      | nil => exact ih rfl [] rest (by simp) hrest (by simpa using e2.symm)
      | cons d c' =>
        simp only [List.cons_append, List.cons.injEq] at e2
        obtain ⟨rfl, rfl⟩ := e2
        obtain ⟨sp, n1, bl, n2, sq, eu, hsp, hn1, hbl, hn2, hsq⟩ := pair_of h1
        have hc : ∀ c ∈ c', isSep c = true := by
          have eu' : tm ++ ',' :: c' = (sp ++ (n1 ++ (bl ++ n2))) ++ sq := by rw [eu]; simp
          have nc : ',' ∉ sp ++ (n1 ++ (bl ++ n2)) := by
            simp only [List.mem_append, not_or]
            refine ⟨fun hm => ?_, fun hm => ?_, fun hm => ?_, fun hm => ?_⟩
            · exact absurd (hsp _ hm) (by decide)
            · have := hn1.2 _ hm; rw [hN.comma] at this; cases this
            · exact absurd (hbl.2 _ hm) (by decide)
            · have := hn2.2 _ hm; rw [hN.comma] at this; cases this
          rcases List.append_eq_append_iff.1 eu' with ⟨a', e1, e2⟩ | ⟨b', e1, e2⟩
          · cases a' with
            | nil => intro c hc; exact hsq c (by rw [← (show ',' :: c' = sq by simpa using e2)]; simp [hc])
            | cons d a' =>
              simp only [List.cons_append, List.cons.injEq] at e2
              exact absurd (by rw [e1, ← e2.1]; simp) nc
          · intro c hc
            exact hsq c (by rw [e2]; simp [hc])
        obtain ⟨c, rest', er, hcN⟩ := hrest
        cases c' with
        | nil => exact ⟨_, h2⟩
        | cons d c' =>
          simp only [List.cons_append, List.cons.injEq] at er
          have := hc d (by simp)
          rw [er.1] at this
          simp only [isSep, Bool.or_eq_true, beq_iff_eq] at this
          rcases this with rfl | rfl
          · rw [hN.comma] at hcN; cases hcN
          · rw [hN.space] at hcN; cases hcN

theorem cut_unique {d : Char} {a b s t : List Char} (ha : d ∉ a) (hb : d ∉ b) (h : a ++ d :: s = b ++ d :: t) : a = b ∧ s = t := by
  rcases List.append_eq_append_iff.1 h with ⟨c, rfl, e⟩ | ⟨c, rfl, e⟩
  · cases c with
    | nil => simpa using e
    | cons x c =>
      simp only [List.cons_append, List.cons.injEq] at e
      exact absurd (by rw [e.1]; simp) hb
  · cases c with
    | nil => simpa using e.symm
    | cons x c =>
      simp only [List.cons_append, List.cons.injEq] at e
      exact absurd (by rw [e.1]; simp) ha

/-- leading blanks end where the first other character is -/
theorem blanks_unique : ∀ {a b s t : List Char}, (∀ c ∈ a, c = ' ') → (∀ c ∈ b, c = ' ') → (∃ c s', s = c :: s' ∧ c ≠ ' ') → (∃ c t', t = c :: t' ∧ c ≠ ' ') →
    a ++ s = b ++ t → s = t
  | [], [], _, _, _, _, _, _, h => h
  | [], d :: b, _, _, _, hb, ⟨c, s', e, hc⟩, _, h => by
    rw [e] at h
    simp only [List.nil_append, List.cons_append, List.cons.injEq] at h
    exact absurd (h.1.trans (hb d (by simp))) hc
  | d :: a, [], _, _, ha, _, _, ⟨c, t', e, hc⟩, h => by
    rw [e] at h
    simp only [List.nil_append, List.cons_append, List.cons.injEq] at h
    exact absurd (h.1.symm.trans (ha d (by simp))) hc
  | d :: a, d' :: b, _, _, ha, hb, hs, ht, h => by
    simp only [List.cons_append, List.cons.injEq] at h
    exact blanks_unique (fun c hc => ha c (by simp [hc])) (fun c hc => hb c (by simp [hc])) hs ht h.2

/-- three numbers, the second of one character, are not matched by pairs -/
theorem pairs_single {N : Char → Bool} (hN : NumClass N) {x z tl : List Char} {y : Char} (x0 : x ≠ []) (z0 : z ≠ []) (hx : ∀ c ∈ x, N c = true) (hy : N y = true)
    (hz : ∀ c ∈ z, N c = true) (ht : tl = [] ∨ ∃ tl', tl = ',' :: tl') {g : Caps} (h : Matches (.star (pairRe N)) (x ++ ' ' :: (y :: ' ' :: (z ++ tl))) g) : False := by
  have nsp : ∀ {c : Char}, N c = true → c ≠ ' ' := by rintro c hc rfl; rw [hN.space] at hc; cases hc
  have headN : ∀ {l s : List Char}, l ≠ [] → (∀ c ∈ l, N c = true) → ∃ c s', l ++ s = c :: s' ∧ c ≠ ' ' := by
    intro l s h0 h
    cases l with
    | nil => exact absurd rfl h0
    | cons c l => exact ⟨c, l ++ s, rfl, nsp (h c (by simp))⟩
  have noN : ∀ {l : List Char}, (∀ c ∈ l, N c = true) → ' ' ∉ l := fun h hm => nsp (h _ hm) rfl
  generalize hw : x ++ ' ' :: (y :: ' ' :: (z ++ tl)) = w at h
  cases h with
  | star_nil => simp at hw
  | @star_cons _ u v g1 g2 h1 h2 =>
    obtain ⟨sp, n1, bl, n2, sq, rfl, hsp, hn1, hbl, hn2, hsq⟩ := pair_of h1
    have e1 := blanks_unique (a := []) (by simp) hsp (headN (s := ' ' :: (y :: ' ' :: (z ++ tl))) x0 hx) (headN (s := bl ++ (n2 ++ sq) ++ v) hn1.1 hn1.2) (by rw [List.nil_append, hw]; simp)
    cases bl with
    | nil => exact absurd rfl hbl.1
    | cons b bl =>
      obtain rfl := hbl.2 b (by simp)
      have e2 := (cut_unique (noN hx) (noN hn1.2) (s := y :: ' ' :: (z ++ tl)) (t := bl ++ (n2 ++ (sq ++ v))) (by rw [e1]; simp)).2
      have e3 := blanks_unique (a := []) (b := bl) (s := y :: ' ' :: (z ++ tl)) (by simp) (fun c hc => hbl.2 c (by simp [hc])) ⟨y, _, rfl, nsp hy⟩ (headN (s := sq ++ v) hn2.1 hn2.2) (by simpa using e2)
      cases n2 with
      | nil => exact absurd rfl hn2.1
      | cons c n2 =>
        simp only [List.cons_append, List.cons.injEq] at e3
        obtain ⟨rfl, e3⟩ := e3
        have e4 : ∃ sp', (∀ c ∈ sp', c = ' ') ∧ v = sp' ++ (z ++ tl) := by
          cases n2 with
          | cons d n2 =>
            simp only [List.cons_append, List.cons.injEq] at e3
            exact absurd e3.1.symm (nsp (hn2.2 d (by simp)))
          | nil =>
            cases sq with
            | nil => exact ⟨[' '], by simp, by simpa using e3.symm⟩
            | cons d sq =>
              simp only [List.nil_append, List.cons_append, List.cons.injEq] at e3
              obtain ⟨-, e3⟩ := e3
              cases sq with
              | nil => exact ⟨[], by simp, by simpa using e3.symm⟩
              | cons d' sq =>
                cases z with
                | nil => exact absurd rfl z0
                | cons f z =>
                  simp only [List.cons_append, List.cons.injEq] at e3
                  have := hsq d' (by simp)
                  rw [← e3.1] at this
                  have hf := hz f (by simp)
                  simp only [isSep, Bool.or_eq_true, beq_iff_eq] at this
                  rcases this with rfl | rfl
                  · rw [hN.comma] at hf; cases hf
                  · rw [hN.space] at hf; cases hf
        obtain ⟨sp', hsp', ev⟩ := e4
        cases h2 with
        | star_nil =>
          cases z with
          | nil => exact absurd rfl z0
          | cons f z => simp at ev
        | @star_cons _ u' v' _ _ h3 h4 =>
          obtain ⟨sp2, m1, bl2, m2, sq2, rfl, hsp2, hm1, hbl2, hm2, hsq2⟩ := pair_of h3
          have e5 := blanks_unique hsp2 hsp' (headN (s := bl2 ++ (m2 ++ (sq2 ++ v'))) hm1.1 hm1.2) (headN (s := tl) z0 hz) (by rw [← ev]; simp)
          cases bl2 with
          | nil => exact absurd rfl hbl2.1
          | cons b bl2 =>
            obtain rfl := hbl2.2 b (by simp)
            rcases List.append_eq_append_iff.1 e5 with ⟨a', ez, e6⟩ | ⟨a', em, e6⟩
            · cases a' with
              | nil =>
                rcases ht with rfl | ⟨tl', rfl⟩
                · simp at e6
                · simp at e6
              | cons d a' =>
                simp only [List.cons_append, List.cons.injEq] at e6
                exact noN hz (by rw [ez, ← e6.1]; simp)
            · rcases ht with rfl | ⟨tl', rfl⟩
              · simp at e6
              · cases a' with
                | nil => simp at e6
                | cons d a' =>
                  simp only [List.cons_append, List.cons.injEq] at e6
                  have := hm1.2 ',' (by rw [em, e6.1]; simp)
                  rw [hN.comma] at this
                  cases this

/-! ### the text of a path with heights -/

theorem term_match {N : Char → Bool} (hN : NumClass N) {p : PointZ F} (h : GoodPZ T p) (h2 : 2 ≤ (T.fmt p.Y).length) {sq rest : List Char} (hs : ∀ c ∈ sq, isSep c = true)
    (hr : Matches (.star (pairRe N)) rest []) : Matches (.star (pairRe N)) (xyzText T p ++ (sq ++ rest)) [] := by
  obtain ⟨hx, hy, hz⟩ := h
  have ay : ∀ c ∈ T.fmt p.Y, N c = true := fun c hc => hN.num c (hy.ch c hc)
  unfold xyzText
  cases hY : T.fmt p.Y with
  | nil => rw [hY] at h2; simp at h2
  | cons c u =>
    rw [hY] at h2 ay
    have hu : u ≠ [] := by rintro rfl; simp at h2
    have m1 := pair_matches (N := N) (n1 := T.fmt p.X) (n2 := [c]) (sq := []) hx.ne (by simp) (fun d hd => hN.num d (hx.ch d hd)) (by simpa using ay c (by simp)) (by simp)
    have m2 := pair_matches (N := N) (n1 := u) (n2 := T.fmt p.Z) (sq := sq) hu hz.ne (fun d hd => ay d (by simp [hd])) (fun d hd => hN.num d (hz.ch d hd)) hs
    have := Matches.star_cons m1 (Matches.star_cons m2 hr)
    simpa using this

theorem terms_match {N : Char → Bool} (hN : NumClass N) : ∀ ps : List (PointZ F), (∀ p ∈ ps, GoodPZ T p) → (∀ p ∈ ps, 2 ≤ (T.fmt p.Y).length) →
    Matches (.star (pairRe N)) (Str.join ',' (ps.map (xyzText T))) []
  | [], _, _ => .star_nil
  | [p], h, h2 => by
    have := term_match hN (h p (by simp)) (h2 p (by simp)) (sq := []) (by simp) (.star_nil (a := pairRe N))
    simpa [Str.join] using this
  | p :: q :: ps, h, h2 => by
    have ih := terms_match hN (q :: ps) (fun a ha => h a (by simp [ha])) (fun a ha => h2 a (by simp [ha]))
    have := term_match hN (h p (by simp)) (h2 p (by simp)) (sq := [',']) (by simp [isSep]) ih
    simpa [Str.join] using this

theorem terms_of {N : Char → Bool} (hN : NumClass N) : ∀ (ps : List (PointZ F)) (g : Caps), (∀ p ∈ ps, GoodPZ T p) → Matches (.star (pairRe N)) (Str.join ',' (ps.map (xyzText T))) g →
    ∀ p ∈ ps, 2 ≤ (T.fmt p.Y).length
  | [], _, _, _ => by simp
  | p :: ps, g, h, hm => by
    have one : ∀ tl, (tl = [] ∨ ∃ tl', tl = ',' :: tl') → Matches (.star (pairRe N)) (xyzText T p ++ tl) g → 2 ≤ (T.fmt p.Y).length := by
      intro tl ht hm
      obtain ⟨hx, hy, hz⟩ := h p (by simp)
      by_contra hl
      have y0 := hy.ne
      cases hY : T.fmt p.Y with
      | nil => exact y0 hY
      | cons c u =>
        rw [hY] at hl
        have hu : u = [] := by
          cases u with
          | nil => rfl
          | cons d u => simp at hl
        subst hu
        unfold xyzText at hm
        rw [hY] at hm
        exact pairs_single hN hx.ne hz.ne (fun d hd => hN.num d (hx.ch d hd)) (hN.num c (hy.ch c (by rw [hY]; simp))) (fun d hd => hN.num d (hz.ch d hd)) ht (by simpa using hm)
    cases ps with
    | nil =>
      intro a ha
      rw [List.mem_singleton] at ha
      subst ha
      exact one [] (Or.inl rfl) (by simpa [Str.join] using hm)
    | cons q ps =>
      have hm' : Matches (.star (pairRe N)) (xyzText T p ++ ',' :: Str.join ',' ((q :: ps).map (xyzText T))) g := hm
      intro a ha
      rcases List.mem_cons.1 ha with rfl | ha
      · exact one _ (Or.inr ⟨_, rfl⟩) hm'
      · obtain ⟨c, u, e, hc⟩ := (clean_pathZ (ps := q :: ps) (by simp) fun b hb => h b (by simp [hb])).hd
        obtain ⟨g', hg'⟩ := pairs_skip hN hm' (xyzText T p) _ (xyz_not_mem (h p (by simp)) (by decide) (by decide)) ⟨c, u, e, hN.num c hc⟩ rfl
        exact terms_of hN (q :: ps) g' (fun b hb => h b (by simp [hb])) hg' a ha

/-- what a ring matches, with its pairs -/
theorem ring_of {N : Char → Bool} {w : List Char} {g : Caps} (h : Matches (ringRe N) w g) :
    g = [] ∧ ∃ sp s1 m s2 g', w = sp ++ '(' :: ((s1 ++ (m ++ s2)) ++ [')']) ∧ (∀ c ∈ sp, c = ' ') ∧ (∀ c ∈ s1, c = ' ') ∧ (∀ c ∈ s2, c = ' ') ∧
      Matches (.star (pairRe N)) m g' := by
  refine ⟨noCap_groups h rfl, ?_⟩
  obtain ⟨sp, w1, _, _, rfl, -, hsp, k1⟩ := matches_seq h
  obtain ⟨o, w2, _, _, rfl, -, ho, k2⟩ := matches_seq k1
  obtain ⟨s1, w4, _, _, rfl, -, h1, k3⟩ := matches_seq k2
  obtain ⟨m, w6, g', _, rfl, -, hm, k4⟩ := matches_seq k3
  obtain ⟨s2, w8, _, _, rfl, -, h2, k5⟩ := matches_seq k4
  obtain ⟨rfl, -⟩ := matches_one ho
  obtain ⟨rfl, -⟩ := matches_one k5
  exact ⟨sp, s1, m, s2, g', by simp, fun c hc => by simpa using star_all_of hsp c hc, fun c hc => by simpa using star_all_of h1 c hc, fun c hc => by simpa using star_all_of h2 c hc, hm⟩

/-- one pair of brackets can be found in one way -/
theorem brackets_unique {body pre sp mid sq : List Char} (ho : '(' ∉ body) (hc : ')' ∉ body) (h : '(' :: (body ++ [')']) = pre ++ (sp ++ '(' :: (mid ++ [')'])) ++ sq) :
    pre = [] ∧ sp = [] ∧ mid = body ∧ sq = [] := by
  have h' : '(' :: (body ++ [')']) = (pre ++ sp) ++ '(' :: (mid ++ ')' :: sq) := by rw [h]; simp
  have e0 : pre ++ sp = [] ∧ body ++ [')'] = mid ++ ')' :: sq := by
    cases hq : pre ++ sp with
    | nil => rw [hq] at h'; simpa using h'
    | cons d q =>
      rw [hq] at h'
      simp only [List.cons_append, List.cons.injEq] at h'
      have : '(' ∈ body ++ [')'] := by rw [h'.2]; simp
      simp at this
      exact absurd this ho
  obtain ⟨e1, e2⟩ := e0
  rw [List.append_eq_nil_iff] at e1
  refine ⟨e1.1, e1.2, ?_⟩
  rcases List.append_eq_append_iff.1 e2 with ⟨a', rfl, e3⟩ | ⟨a', rfl, e3⟩
  · cases a' with
    | nil => simp at e3; simp [e3]
    | cons d a' => simp at e3
  · cases a' with
    | nil => simp at e3; simp [e3]
    | cons d a' =>
      simp only [List.cons_append, List.cons.injEq] at e3
      exact absurd (by rw [← e3.1]; simp) hc

/-- the expression finds the path if all its second coordinates have two characters or more, else nothing -/
theorem find_pathZ (ps : List (PointZ F)) (h0 : ps ≠ []) (h : ∀ p ∈ ps, GoodPZ T p) :
    ringsRe.find (pathZText T ps) = if ∀ p ∈ ps, 2 ≤ (T.fmt p.Y).length then some [pathZText T ps, pathZText T ps] else none := by
  have hcl := clean_pathZ h0 h
  have nm : ∀ {d : Char}, isNum d = false → d ≠ ' ' → d ≠ ',' → d ∉ Str.join ',' (ps.map (xyzText T)) := by
    intro d hd hs hc hm
    rcases Str.mem_join hm with e | ⟨w, hw, hm⟩
    · exact hc e
    · obtain ⟨p, hp, rfl⟩ := List.mem_map.1 hw
      exact xyz_not_mem (h p hp) hd hs hm
  cases hf : ringsRe.find (pathZText T ps) with
  | none =>
    rw [if_neg]
    intro h2
    have hm : Matches (ringRe isNumE) (pathZText T ps) [] := by
      have e : pathZText T ps = [] ++ (['('] ++ ([] ++ (Str.join ',' (ps.map (xyzText T)) ++ ([] ++ [')'])))) := rfl
      rw [e]
      exact .seq (g := []) (g' := []) .star_nil (.seq (g := []) (g' := []) (.chr (by decide)) (.seq (g := []) (g' := []) .star_nil
        (.seq (g := []) (g' := []) (terms_match numClass_isNumE ps h h2) (.seq (g := []) (g' := []) .star_nil (.chr (by decide))))))
    have hm' : Matches ringsRe (pathZText T ps ++ []) ([pathZText T ps] ++ []) := .seq (.cap hm) .star_nil
    have := find_complete (r := ringsRe) (by decide) hm' [] []
    simp only [List.nil_append, List.append_nil] at this
    exact this hf
  | some x =>
    obtain ⟨pre, w, post, g, e, hm, rfl⟩ := find_sound _ _ _ hf
    obtain ⟨u, sq, g1, g2, rfl, rfl, k1, k2⟩ := matches_seq hm
    have eg : g2 = [] := noCap_groups k2 rfl
    subst eg
    cases k1 with
    | @cap _ _ g1 k1 =>
      obtain ⟨rfl, sp, s1, m, s2, g', rfl, -, hs1, hs2, hm'⟩ := ring_of k1
      have e' : '(' :: (Str.join ',' (ps.map (xyzText T)) ++ [')']) = pre ++ (sp ++ '(' :: ((s1 ++ (m ++ s2)) ++ [')'])) ++ (sq ++ post) := by
        show pathZText T ps = _
        rw [e]; simp
      obtain ⟨rfl, rfl, em, eq⟩ := brackets_unique (nm (by decide) (by decide) (by decide)) (nm (by decide) (by decide) (by decide)) e'
      rw [List.append_eq_nil_iff] at eq
      obtain ⟨rfl, rfl⟩ := eq
      have q1 : s1 = [] := by
        cases s1 with
        | nil => rfl
        | cons c s1 =>
          obtain ⟨d, v, ev, hd⟩ := hcl.hd
          rw [ev] at em
          simp only [List.cons_append, List.cons.injEq] at em
          rw [← em.1, hs1 c (by simp)] at hd
          exact absurd hd (by decide)
      subst q1
      have q2 : s2 = [] := by
        rcases List.eq_nil_or_concat s2 with h | ⟨t, c, h⟩
        · exact h
        · rw [List.concat_eq_append] at h
          obtain ⟨d, v, ev, hd⟩ := hcl.lst
          rw [ev, h, List.nil_append, ← List.append_assoc] at em
          have := (List.append_inj' em rfl).2
          simp at this
          rw [← this, hs2 c (by rw [h]; simp)] at hd
          exact absurd hd (by decide)
      subst q2
      have em' : m = Str.join ',' (ps.map (xyzText T)) := by simpa using em
      subst em'
      rw [if_pos (terms_of numClass_isNumE ps g' h hm')]
      simp [pathZText, paren]

theorem line_pathZ {ps : List (PointZ F)} (h0 : ps ≠ []) (h : ∀ p ∈ ps, GoodPZ T p) : LineStringFromWKT T (pathZText T ps) = .ok (some (.lineStringZ ps)) :=
  line_of_unparenZ h0 h _ (unparen_paren (clean_pathZ h0 h))

theorem ring_pathZ {ps r : List (PointZ F)} (h0 : ps ≠ []) (h : ∀ p ∈ ps, GoodPZ T p) (hr : toRingZ ps = .ok r) : RingFromWKT T (pathZText T ps) = .ok (some (.lineStringZ r)) := by
  unfold RingFromWKT
  rw [line_pathZ h0 h]
  show (do let r ← toRingZ ps; Except.ok (some (Geometry.lineStringZ r)) : Go (Option (Geometry F))) = _
  rw [hr]
  rfl

theorem multiLineZ_body {l : List (PointZ F)} (h0 : l ≠ []) (h : ∀ p ∈ l, GoodPZ T p) :
    MultiLineStringFromWKT T (pathZText T l) = .ok (if ∀ p ∈ l, 2 ≤ (T.fmt p.Y).length then some (.multiLineStringZ [l, l]) else none) := by
  unfold MultiLineStringFromWKT
  rw [find_pathZ l h0 h]
  split_ifs with g
  · have e : parseAll (LineStringFromWKT T) ((some [pathZText T l, pathZText T l]).getD []) = .ok (some [.lineStringZ l, .lineStringZ l]) := by
      show parseAll (LineStringFromWKT T) [pathZText T l, pathZText T l] = _
      simp only [parseAll, line_pathZ h0 h]
      rfl
    rw [e]
    rfl
  · rfl

theorem polygonZ_body {l r : List (PointZ F)} (h0 : l ≠ []) (h : ∀ p ∈ l, GoodPZ T p) (hr : toRingZ l = .ok r) :
    PolygonFromWKT T (pathZText T l) = .ok (if ∀ p ∈ l, 2 ≤ (T.fmt p.Y).length then some (.polygonZ [r, r]) else none) := by
  unfold PolygonFromWKT
  rw [find_pathZ l h0 h]
  split_ifs with g
  · have e : parseAll (RingFromWKT T) ((some [pathZText T l, pathZText T l]).getD []) = .ok (some [.lineStringZ r, .lineStringZ r]) := by
      show parseAll (RingFromWKT T) [pathZText T l, pathZText T l] = _
      simp only [parseAll, ring_pathZ h0 h hr]
      rfl
    rw [e]
    rfl
  · rfl

theorem closedUpZ_unique {l r r' : List (PointZ F)} (h : ClosedUpZ l r) (h' : ClosedUpZ l r') : r = r' := by
  obtain ⟨a, b, ha, hb, k⟩ := h
  obtain ⟨a', b', ha', hb', k'⟩ := h'
  rw [ha] at ha'; rw [hb] at hb'
  cases ha'; cases hb'
  rcases k with ⟨k, rfl⟩ | ⟨k, rfl⟩ <;> rcases k' with ⟨k', rfl⟩ | ⟨k', rfl⟩ 
  · rfl
  · exact absurd k k'
  · exact absurd k' k
  · rfl

theorem closedUpZ_toRingZ {l r : List (PointZ F)} (h0 : l ≠ []) (hr : ClosedUpZ l r) : toRingZ l = .ok r := by
  cases hc : toRingZ l with
  | error x =>
    cases l with
    | nil => exact absurd rfl h0
    | cons a rest =>
      have hc' : (if a.Equal ((a :: rest).getLast (by simp)) = true then Except.ok (a :: rest) else Except.ok (a :: rest ++ [a]) : Go (List (PointZ F))) = .error x := hc
      split_ifs at hc'
  | ok r' => rw [closedUpZ_unique hr (toRingZ_closedUp hc)]

theorem path_piece {l : List (PointZ F)} (h0 : l ≠ []) (h : ∀ p ∈ l, GoodPZ T p) : Piece (pathZText T l) ∧ '\n' ∉ pathZText T l :=
  ⟨piece_paren (by simpa using h0) (map_piece fun p hp => piece_xyz (h p hp)), nl_paren (map_nl fun p hp => nl_xyz (h p hp))⟩

/-- C163: one line with heights, written as a multiline and read again. It is rejected if the text of some second coordinate is a single character; else it comes back twice. -/
theorem C163_multiLineZ (l : List (PointZ F)) (h0 : l ≠ []) (h : ∀ p ∈ l, PointZReads T p) :
    Decode T (Encode T (.multiLineStringZ [l])) = .ok (if ∀ p ∈ l, 2 ≤ (T.fmt p.Y).length then some (.multiLineStringZ [l, l]) else none) := by
  have hg : ∀ p ∈ l, GoodPZ T p := fun p hp => (h p hp).good
  have hp := path_piece h0 hg
  show Decode T ("MULTILINESTRING".toList ++ '(' :: (pathZText T l ++ [')'])) = _
  rw [decode_multiLine hp.1 hp.2, multiLineZ_body h0 hg]

/-- C163: one ring with heights, written as a polygon and read again. It is rejected if the text of some second coordinate is a single character; else it comes back,
closed, and once more as a hole. -/
theorem C163_polygonZ (l r : List (PointZ F)) (hr : ClosedUpZ l r) (h : ∀ p ∈ l, PointZReads T p) :
    Decode T (Encode T (.polygonZ [l])) = .ok (if ∀ p ∈ l, 2 ≤ (T.fmt p.Y).length then some (.polygonZ [r, r]) else none) := by
  have hg : ∀ p ∈ l, GoodPZ T p := fun p hp => (h p hp).good
  have h0 : l ≠ [] := by
    rintro rfl
    obtain ⟨a, b, ha, -⟩ := hr
    cases ha
  have hp := path_piece h0 hg
  have ht := closedUpZ_toRingZ h0 hr
  show Decode T ("POLYGON".toList ++ '(' :: (pathZText T l ++ [')'])) = _
  rw [decode_polygon hp.1 hp.2, polygonZ_body h0 hg ht]

/-- a ring with heights, not closed, its second coordinates of two digits -/
def ringZ : List (PointZ (XR ℚ)) :=
  [⟨.fin ((1 : ℤ) : ℚ), .fin ((23 : ℤ) : ℚ), .fin ((4 : ℤ) : ℚ)⟩, ⟨.fin ((5 : ℤ) : ℚ), .fin ((67 : ℤ) : ℚ), .fin ((8 : ℤ) : ℚ)⟩, ⟨.fin ((9 : ℤ) : ℚ), .fin ((10 : ℤ) : ℚ), .fin ((11 : ℤ) : ℚ)⟩]

theorem ringZ_reads : ∀ p ∈ ringZ, PointZReads intText p := by
  intro p hp
  simp only [ringZ, List.mem_cons, List.not_mem_nil, or_false] at hp
  rcases hp with rfl | rfl | rfl <;> exact ⟨readsBack_int _, readsBack_int _, readsBack_int _⟩

theorem ringZ_closed : ClosedUpZ ringZ (ringZ ++ [⟨.fin ((1 : ℤ) : ℚ), .fin ((23 : ℤ) : ℚ), .fin ((4 : ℤ) : ℚ)⟩]) :=
  ⟨_, _, rfl, rfl, Or.inr ⟨fun h => absurd h.1 (by unfold Spec.Near; decide +kernel), rfl⟩⟩

/-- it meets the hypotheses, and it comes back twice -/
theorem C163_example : Decode intText (Encode intText (.polygonZ [ringZ])) =
    .ok (some (.polygonZ [ringZ ++ [⟨.fin ((1 : ℤ) : ℚ), .fin ((23 : ℤ) : ℚ), .fin ((4 : ℤ) : ℚ)⟩], ringZ ++ [⟨.fin ((1 : ℤ) : ℚ), .fin ((23 : ℤ) : ℚ), .fin ((4 : ℤ) : ℚ)⟩]])) := by
  rw [C163_polygonZ ringZ _ ringZ_closed ringZ_reads, if_pos]
  decide +kernel

/-- one coordinate of a single digit is enough to have it rejected -/
theorem C163_example_digit : Decode intText (Encode intText (.multiLineStringZ [ringZ ++ [⟨.fin ((1 : ℤ) : ℚ), .fin ((2 : ℤ) : ℚ), .fin ((30 : ℤ) : ℚ)⟩]])) = .ok none := by
  rw [C163_multiLineZ _ (by simp) ?_, if_neg]
  · decide +kernel
  · intro p hp
    rcases List.mem_append.1 hp with hp | hp
    · exact ringZ_reads p hp
    · rw [List.mem_singleton] at hp
      subst hp
      exact ⟨readsBack_int _, readsBack_int _, readsBack_int _⟩

end GoGeo.Wkt
