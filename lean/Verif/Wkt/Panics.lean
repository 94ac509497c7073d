import Verif.Wkt.Lemmas
import Verif.Spec.Text

/-! # Where the WKT decoder can panic -/

set_option linter.unusedSectionVars false

namespace GoGeo.Wkt
open Regex

variable {F : Type} [GoFloat F] {T : NumText F}

/-! ### cutting and stripping -/

def isDelim (c : Char) : Prop := c = ',' ∨ c = '(' ∨ c = ')'

theorem cut_cons (c : Char) (s : List Char) : (isDelim c ∧ cut (c :: s) = [] :: cut s) ∨ (¬ isDelim c ∧ ∃ w ws, cut s = w :: ws ∧ cut (c :: s) = (c :: w) :: ws) ∨ (¬ isDelim c ∧ cut s = []) := by
  by_cases h : isDelim c
  · exact Or.inl ⟨h, by rw [cut]; exact if_pos h⟩
  · cases e : cut s with
    | nil => exact Or.inr (Or.inr ⟨h, rfl⟩)
    | cons w ws => exact Or.inr (Or.inl ⟨h, w, ws, rfl, by rw [cut, if_neg (show ¬ (c = ',' ∨ c = '(' ∨ c = ')') from h), e]⟩)

theorem cut_ne_nil (s : List Char) : cut s ≠ [] := by
  cases s with
  | nil => simp [cut]
  | cons c s =>
    unfold cut
    split_ifs
    · simp
    · split <;> simp

theorem cut_delim_cons {c : Char} (h : isDelim c) (s : List Char) : cut (c :: s) = [] :: cut s := by rw [cut]; exact if_pos h

theorem cut_other {c : Char} (h : ¬ isDelim c) (s : List Char) : ∃ w ws, cut s = w :: ws ∧ cut (c :: s) = (c :: w) :: ws := by
  rcases cut_cons c s with h' | h' | h'
  · exact absurd h'.1 h
  · exact h'.2
  · exact absurd h'.2 (cut_ne_nil s)

theorem cut_delim {d : Char} (hd : isDelim d) (b : List Char) : ∀ a : List Char, cut (a ++ d :: b) = cut a ++ cut b
  | [] => by rw [List.nil_append, cut_delim_cons hd]; rfl
  | c :: a => by
    have ih := cut_delim hd b a
    by_cases h : isDelim c
    · rw [List.cons_append, cut_delim_cons h, cut_delim_cons h, ih]; rfl
    · obtain ⟨w, ws, e1, e2⟩ := cut_other h a
      obtain ⟨w', ws', e3, e4⟩ := cut_other h (a ++ d :: b)
      rw [ih, e1, List.cons_append] at e3
      cases e3
      rw [List.cons_append, e4, e2]; rfl

theorem cut_word : ∀ {w : List Char}, (∀ c ∈ w, ¬ isDelim c) → cut w = [w]
  | [], _ => rfl
  | c :: w, h => by
    obtain ⟨x, xs, e1, e2⟩ := cut_other (h c (by simp)) w
    rw [cut_word fun d hd => h d (by simp [hd])] at e1
    cases e1; exact e2

theorem strip_eq (s : List Char) : strip s = Str.trim isWs s := rfl

theorem ws_not_delim {c : Char} (h : isWs c = true) : ¬ isDelim c := by
  rintro (rfl | rfl | rfl) <;> revert h <;> decide

theorem strip_left {u : List Char} (hu : ∀ c ∈ u, isWs c = true) (w : List Char) : strip (u ++ w) = strip w := by
  rw [strip_eq, strip_eq]
  unfold Str.trim Str.trimLeft
  congr 1
  induction u with
  | nil => rfl
  | cons c u ih =>
    rw [List.cons_append, List.dropWhile_cons, if_pos (hu c (by simp))]
    exact ih fun d hd => hu d (by simp [hd])

theorem dropWhile_all {p : Char → Bool} : ∀ {u : List Char}, (∀ c ∈ u, p c = true) → ∀ s, (u ++ s).dropWhile p = s.dropWhile p
  | [], _, s => rfl
  | c :: u, h, s => by
    rw [List.cons_append, List.dropWhile_cons, if_pos (h c (by simp))]
    exact dropWhile_all (fun d hd => h d (by simp [hd])) s

theorem trimRight_append {p : Char → Bool} {u : List Char} (hu : ∀ c ∈ u, p c = true) (w : List Char) : Str.trimRight p (w ++ u) = Str.trimRight p w := by
  unfold Str.trimRight
  rw [List.reverse_append, dropWhile_all (fun c hc => hu c (List.mem_reverse.mp hc))]

theorem strip_right {u : List Char} (hu : ∀ c ∈ u, isWs c = true) (w : List Char) : strip (w ++ u) = strip w := by
  rw [strip_eq, strip_eq]
  unfold Str.trim
  have : ∃ u', (∀ c ∈ u', isWs c = true) ∧ Str.trimLeft isWs (w ++ u) = Str.trimLeft isWs w ++ u' := by
    unfold Str.trimLeft
    induction w with
    | nil =>
      refine ⟨[], by simp, ?_⟩
      have := dropWhile_all hu []
      simpa using this
    | cons c w ih =>
      by_cases h : isWs c = true
      · rw [List.cons_append, List.dropWhile_cons, if_pos h, List.dropWhile_cons, if_pos h]; exact ih
      · rw [List.cons_append, List.dropWhile_cons, if_neg h, List.dropWhile_cons, if_neg h]
        exact ⟨u, hu, rfl⟩
  obtain ⟨u', hu', e⟩ := this
  rw [e, trimRight_append hu']

theorem strip_ws {u : List Char} (hu : ∀ c ∈ u, isWs c = true) : strip u = [] := by
  have := strip_left hu []
  rw [List.append_nil] at this
  rw [this]; rfl

/-- the stripped parts of a text -/
def parts (s : List Char) : List (List Char) := (cut s).map strip

theorem parts_wsLeft {u : List Char} (hu : ∀ c ∈ u, isWs c = true) (s : List Char) : parts (u ++ s) = parts s := by
  have : ∃ w ws, cut s = w :: ws ∧ cut (u ++ s) = (u ++ w) :: ws := by
    induction u with
    | nil =>
      cases e : cut s with
      | nil => exact absurd e (cut_ne_nil s)
      | cons w ws => exact ⟨w, ws, rfl, e⟩
    | cons c u ih =>
      obtain ⟨w, ws, e1, e2⟩ := ih fun d hd => hu d (by simp [hd])
      obtain ⟨x, xs, e3, e4⟩ := cut_other (ws_not_delim (hu c (by simp))) (u ++ s)
      rw [e2] at e3; cases e3
      exact ⟨w, ws, e1, by rw [List.cons_append, e4]; rfl⟩
  obtain ⟨w, ws, e1, e2⟩ := this
  unfold parts
  rw [e1, e2, List.map_cons, List.map_cons, strip_left hu]

theorem parts_wsRight {u : List Char} (hu : ∀ c ∈ u, isWs c = true) (s : List Char) : parts (s ++ u) = parts s := by
  have : ∃ l x, cut s = l ++ [x] ∧ cut (s ++ u) = l ++ [x ++ u] := by
    induction s with
    | nil => exact ⟨[], [], rfl, cut_word fun c hc => ws_not_delim (hu c hc)⟩
    | cons c s ih =>
      obtain ⟨l, x, e1, e2⟩ := ih
      by_cases h : isDelim c
      · exact ⟨[] :: l, x, by rw [cut_delim_cons h, e1]; rfl, by rw [List.cons_append, cut_delim_cons h, e2]; rfl⟩
      · obtain ⟨w, ws, e3, e4⟩ := cut_other h s
        obtain ⟨w', ws', e5, e6⟩ := cut_other h (s ++ u)
        rw [e1] at e3; rw [e2] at e5
        rw [List.cons_append, e4, e6]
        cases l with
        | nil =>
          simp only [List.nil_append, List.cons.injEq] at e3 e5
          refine ⟨[], c :: x, ?_, ?_⟩
          · rw [← e3.1, ← e3.2]; rfl
          · rw [← e5.1, ← e5.2]; rfl
        | cons y l =>
          simp only [List.cons_append, List.cons.injEq] at e3 e5
          refine ⟨(c :: y) :: l, x, ?_, ?_⟩
          · rw [← e3.1, ← e3.2]; rfl
          · rw [← e5.1, ← e5.2]; rfl
  obtain ⟨l, x, e1, e2⟩ := this
  unfold parts
  rw [e1, e2, List.map_append, List.map_append, List.map_singleton, List.map_singleton, strip_right hu]

theorem parts_unspace (s : List Char) : parts (Str.unspace s) = parts s := by
  have : ∀ s : List Char, ∃ w ws ws', cut s = w :: ws ∧ cut (Str.unspace s) = w :: ws' ∧ ws.map strip = ws'.map strip := by
    intro s
    induction s using Str.unspace.induct with
    | case1 s ih =>
      obtain ⟨w, ws, ws', e1, e2, e3⟩ := ih
      obtain ⟨x, xs, e4, e5⟩ := cut_other (c := ' ') (by simp [isDelim]) s
      rw [e1] at e4; cases e4
      refine ⟨[], (' ' :: w) :: ws, w :: ws', ?_, ?_, ?_⟩
      · rw [cut_delim_cons (Or.inl rfl), e5]
      · rw [Str.unspace, cut_delim_cons (Or.inl rfl), e2]
      · rw [List.map_cons, List.map_cons, e3]
        have := strip_left (u := [' ']) (by simp; decide) w
        rw [← this]; rfl
    | case2 c s hne ih =>
      obtain ⟨w, ws, ws', e1, e2, e3⟩ := ih
      have eu : Str.unspace (c :: s) = c :: Str.unspace s := by rw [Str.unspace]; exact hne
      by_cases h : isDelim c
      · exact ⟨[], w :: ws, w :: ws', by rw [cut_delim_cons h, e1], by rw [eu, cut_delim_cons h, e2], by rw [List.map_cons, List.map_cons, e3]⟩
      · obtain ⟨x, xs, e4, e5⟩ := cut_other h s
        obtain ⟨y, ys, e6, e7⟩ := cut_other h (Str.unspace s)
        rw [e1] at e4; rw [e2] at e6; cases e4; cases e6
        exact ⟨c :: w, ws, ws', e5, by rw [eu]; exact e7, e3⟩
    | case3 => exact ⟨[], [], [], rfl, rfl, rfl⟩
  obtain ⟨w, ws, ws', e1, e2, e3⟩ := this s
  unfold parts
  rw [e1, e2, List.map_cons, List.map_cons, e3]

/-- trimming is removing something at both ends -/
theorem trim_split (p : Char → Bool) (s : List Char) : ∃ a b, s = a ++ (Str.trim p s ++ b) ∧ (∀ c ∈ a, p c = true) ∧ ∀ c ∈ b, p c = true := by
  have hl : s = s.takeWhile p ++ Str.trimLeft p s := (List.takeWhile_append_dropWhile).symm
  have hr : ∀ x : List Char, x = Str.trimRight p x ++ (x.reverse.takeWhile p).reverse := fun x => by
    unfold Str.trimRight
    rw [← List.reverse_append, List.takeWhile_append_dropWhile, List.reverse_reverse]
  refine ⟨s.takeWhile p, ((Str.trimLeft p s).reverse.takeWhile p).reverse, ?_, fun c hc => List.mem_takeWhile_imp hc, fun c hc => List.mem_takeWhile_imp (List.mem_reverse.mp hc)⟩
  unfold Str.trim
  rw [← hr, ← hl]

theorem space_ws {c : Char} (h : (c == ' ') = true) : isWs c = true := by
  simp at h; subst h; decide

theorem parts_trim (s : List Char) : parts (Str.trim (· == ' ') s) = parts s := by
  obtain ⟨a, b, e, ha, hb⟩ := trim_split (· == ' ') s
  conv_rhs => rw [e]
  rw [parts_wsLeft fun c hc => space_ws (ha c hc), parts_wsRight fun c hc => space_ws (hb c hc)]

theorem strip_of_trim (hT : Rejects T) {t : List Char} (h : T.parse (Str.trim (· == ' ') t) ≠ none) : strip t = Str.trim (· == ' ') t := by
  obtain ⟨a, b, e, ha, hb⟩ := trim_split (· == ' ') t
  conv_lhs => rw [e]
  rw [strip_left fun c hc => space_ws (ha c hc), strip_right fun c hc => space_ws (hb c hc), strip_eq]
  apply Str.trim_id
  intro c hc
  by_contra hw
  apply h
  apply hT.other _ c hc
  simp only [Bool.not_eq_false, isWs, Bool.or_eq_true, beq_iff_eq] at hw
  unfold notInNumber; tauto

theorem cut_split (m : List Char) : cut m = (Str.split ',' m).flatMap cut := by
  induction m with
  | nil => rfl
  | cons c m ih =>
    by_cases hc : c = ','
    · subst hc
      rw [cut_delim_cons (Or.inl rfl), Str.split, if_pos rfl, ih]; rfl
    · obtain ⟨w, ws, e⟩ : ∃ w ws, Str.split ',' m = w :: ws := by
        cases e : Str.split ',' m with
        | nil => exact absurd e (Str.split_ne_nil _ _)
        | cons w ws => exact ⟨w, ws, rfl⟩
      have e' : Str.split ',' (c :: m) = (c :: w) :: ws := by rw [Str.split, if_neg hc, e]
      rw [e', List.flatMap_cons]
      rw [e, List.flatMap_cons] at ih
      by_cases h : isDelim c
      · rw [cut_delim_cons h, cut_delim_cons h, ih]; rfl
      · obtain ⟨x, xs, e1, e2⟩ := cut_other h m
        obtain ⟨y, ys, e3, e4⟩ := cut_other h w
        rw [ih, e3, List.cons_append] at e1
        cases e1
        rw [e2, e4]; rfl

theorem cut_of_split {m t : List Char} (h : t ∈ Str.split ',' m) {x : List Char} (hx : x ∈ cut t) : x ∈ cut m := by
  rw [cut_split]; exact List.mem_flatMap.mpr ⟨t, h, hx⟩

theorem unparen_split (v : List Char) : ∃ a b, v = a ++ (unparen v ++ b) ∧ (∀ c ∈ a, c = '(') ∧ ∀ c ∈ b, c = ')' := by
  have hl : v = v.takeWhile (· == '(') ++ Str.trimLeft (· == '(') v := (List.takeWhile_append_dropWhile).symm
  have hr : ∀ x : List Char, x = Str.trimRight (· == ')') x ++ (x.reverse.takeWhile (· == ')')).reverse := fun x => by
    unfold Str.trimRight
    rw [← List.reverse_append, List.takeWhile_append_dropWhile, List.reverse_reverse]
  refine ⟨v.takeWhile (· == '('), ((Str.trimLeft (· == '(') v).reverse.takeWhile (· == ')')).reverse, ?_, fun c hc => by simpa using List.mem_takeWhile_imp hc, fun c hc => by simpa using List.mem_takeWhile_imp (List.mem_reverse.mp hc)⟩
  unfold unparen
  rw [← hr, ← hl]

theorem cut_delims {a b : List Char} (ha : ∀ c ∈ a, isDelim c) (hb : ∀ c ∈ b, isDelim c) {m x : List Char} (hx : x ∈ cut m) : x ∈ cut (a ++ (m ++ b)) := by
  have h1 : x ∈ cut (m ++ b) := by
    cases b with
    | nil => rwa [List.append_nil]
    | cons d b => rw [cut_delim (hb d (by simp))]; simp [hx]
  induction a with
  | nil => exact h1
  | cons d a ih =>
    rw [List.cons_append, cut_delim_cons (ha d (by simp))]
    exact List.mem_cons_of_mem _ (ih fun c hc => ha c (by simp [hc]))

theorem cut_of_unparen {v x : List Char} (h : x ∈ cut (unparen v)) : x ∈ cut v := by
  obtain ⟨a, b, e, ha, hb⟩ := unparen_split v
  rw [e]
  exact cut_delims (fun c hc => Or.inr (Or.inl (ha c hc))) (fun c hc => Or.inr (Or.inr (hb c hc))) h

/-! ### panics of the parsers -/

/-- some part of the text is a number -/
def Lone (T : NumText F) (s : List Char) : Prop := ∃ w ∈ parts s, T.parse w ≠ none

theorem split_single {sep : Char} : ∀ {u w : List Char}, Str.split sep u = [w] → u = w
  | [], w, h => by simp [Str.split] at h; exact h.symm
  | c :: u, w, h => by
    rw [Str.split] at h
    split_ifs at h with hc
    · simp at h; exact absurd h.2 (Str.split_ne_nil _ _)
    · cases e : Str.split sep u with
      | nil => exact absurd e (Str.split_ne_nil _ _)
      | cons x xs =>
        rw [e] at h
        simp at h
        obtain ⟨rfl, rfl⟩ := h
        rw [split_single e]

theorem parsePos_error {u : List Char} {e : Panic} (h : parsePos T (Str.split ' ' u) = .error e) : e = .index ∧ T.parse u ≠ none := by
  unfold parsePos at h
  rcases hs : Str.split ' ' u with _ | ⟨s0, _ | ⟨s1, _ | ⟨s2, _ | ⟨s3, rest⟩⟩⟩⟩
  · exact absurd hs (Str.split_ne_nil _ _)
  · rw [hs] at h
    simp only [List.getElem?_cons_zero] at h
    cases hp : T.parse s0 with
    | none => rw [hp] at h; cases h
    | some x =>
      rw [hp] at h
      simp at h
      rw [split_single hs]
      exact ⟨h.symm, by rw [hp]; simp⟩
  all_goals
    rw [hs] at h
    simp only [List.getElem?_cons_zero, List.getElem?_cons_succ] at h
    repeat' split at h
    all_goals cases h

theorem parseTerms_error {f : List Char → List Char} {e : Panic} : ∀ {ts : List (List Char)}, parseTerms T f ts = .error e → ∃ t ∈ ts, parsePos T (Str.split ' ' (f t)) = .error e
  | [], h => by cases h
  | t :: ts, h => by
    rw [parseTerms] at h
    cases hp : parsePos T (Str.split ' ' (f t)) with
    | error x => rw [hp] at h; cases h; exact ⟨t, by simp, hp⟩
    | ok o =>
      rw [hp] at h
      cases o with
      | none => cases h
      | some p =>
        cases hq : parseTerms T f ts with
        | error x =>
          have h' : (do
              match ← parseTerms T f ts with
              | none => .ok none
              | some ps => .ok (some (p :: ps)) : Go (Option (List (Pos F)))) = .error e := h
          rw [hq] at h'
          cases h'
          obtain ⟨t', ht', hx⟩ := parseTerms_error hq
          exact ⟨t', by simp [ht'], hx⟩
        | ok o =>
          have h' : (do
              match ← parseTerms T f ts with
              | none => .ok none
              | some ps => .ok (some (p :: ps)) : Go (Option (List (Pos F)))) = .error e := h
          rw [hq] at h'
          cases o <;> cases h'

theorem not_delim_of_parse (hT : Rejects T) {w : List Char} (h : T.parse w ≠ none) : ∀ c ∈ w, ¬ isDelim c := fun c hc hd => by
  apply h; apply hT.other _ c hc
  unfold notInNumber; rcases hd with h | h | h <;> simp [h]

/-- the texts that are tried: trimmed terms -/
theorem lone_of_trim (hT : Rejects T) {t v : List Char} (h : T.parse (Str.trim (· == ' ') t) ≠ none) (hv : ∀ x ∈ cut t, x ∈ cut v) : Lone T v := by
  obtain ⟨a, b, e, ha, hb⟩ := trim_split (· == ' ') t
  have hd : ∀ c ∈ t, ¬ isDelim c := by
    intro c hc
    rw [e, List.mem_append, List.mem_append] at hc
    rcases hc with hc | hc | hc
    · exact ws_not_delim (space_ws (ha c hc))
    · exact not_delim_of_parse hT h c hc
    · exact ws_not_delim (space_ws (hb c hc))
  refine ⟨strip t, List.mem_map.mpr ⟨t, hv t (by rw [cut_word hd]; simp), rfl⟩, ?_⟩
  rwa [strip_of_trim hT h]

theorem point_panic (hT : Rejects T) {v : List Char} {e : Panic} (h : PointFromWKT T v = .error e) : e = .index ∧ Lone T v := by
  unfold PointFromWKT at h
  cases hp : parsePos T (Str.split ' ' (Str.trim (· == ' ') v)) with
  | error x =>
    rw [hp] at h; cases h
    obtain ⟨h1, h2⟩ := parsePos_error hp
    exact ⟨h1, lone_of_trim hT h2 fun x hx => hx⟩
  | ok o =>
    rw [hp] at h
    rcases o with _ | (p | p | p) <;> cases h

theorem line_panic (hT : Rejects T) {v : List Char} {e : Panic} (h : LineStringFromWKT T v = .error e) : e = .index ∧ Lone T v := by
  unfold LineStringFromWKT at h
  cases hp : parseTerms T (Str.trim (· == ' ')) (Str.split ',' (unparen v)) with
  | error x =>
    rw [hp] at h; cases h
    obtain ⟨t, ht, hx⟩ := parseTerms_error hp
    obtain ⟨h1, h2⟩ := parsePos_error hx
    exact ⟨h1, lone_of_trim hT h2 fun x hx => cut_of_unparen (cut_of_split ht hx)⟩
  | ok o =>
    rw [hp] at h
    cases o with
    | none => cases h
    | some ps =>
      have h' : (if ps.filterMap Pos.ls ≠ [] then .ok (some (.lineString (ps.filterMap Pos.ls)))
        else if ps.filterMap Pos.z ≠ [] then .ok (some (.lineStringZ (ps.filterMap Pos.z))) else .ok none : Go (Option (Geometry F))) = .error e := h
      split_ifs at h'

theorem multiPoint_panic (hT : Rejects T) {v : List Char} {e : Panic} (h : MultiPointFromWKT T v = .error e) : e = .index ∧ Lone T v := by
  unfold MultiPointFromWKT at h
  cases hp : parseTerms T unparen (Str.split ',' (Str.trim (· == ' ') (unparen v))) with
  | error x =>
    rw [hp] at h; cases h
    obtain ⟨t, ht, hx⟩ := parseTerms_error hp
    obtain ⟨h1, h2⟩ := parsePos_error hx
    refine ⟨h1, ?_⟩
    have hw : unparen t ∈ cut (Str.trim (· == ' ') (unparen v)) := cut_of_split ht (cut_of_unparen (by rw [cut_word (not_delim_of_parse hT h2)]; simp))
    have hs : strip (unparen t) ∈ parts (Str.trim (· == ' ') (unparen v)) := List.mem_map.mpr ⟨_, hw, rfl⟩
    rw [parts_trim] at hs
    obtain ⟨x, hx, ex⟩ := List.mem_map.mp hs
    refine ⟨strip (unparen t), List.mem_map.mpr ⟨x, cut_of_unparen hx, ex⟩, ?_⟩
    have : strip (unparen t) = unparen t := by
      rw [strip_eq]
      apply Str.trim_id
      intro c hc
      by_contra hw
      apply h2
      apply hT.other _ c hc
      simp only [Bool.not_eq_false, isWs, Bool.or_eq_true, beq_iff_eq] at hw
      unfold notInNumber; tauto
    rwa [this]
  | ok o =>
    rw [hp] at h
    cases o with
    | none => cases h
    | some ps =>
      have h' : (if ps.filterMap Pos.mp ≠ [] then .ok (some (.multiPoint (ps.filterMap Pos.mp)))
        else if ps.filterMap Pos.z ≠ [] then .ok (some (.multiPointZ (ps.filterMap Pos.z))) else .ok none : Go (Option (Geometry F))) = .error e := h
      split_ifs at h'

theorem parseAll_error {f : List Char → Go (Option (Geometry F))} {e : Panic} : ∀ {ts : List (List Char)}, parseAll f ts = .error e → ∃ t ∈ ts, f t = .error e
  | [], h => by cases h
  | t :: ts, h => by
    rw [parseAll] at h
    cases hp : f t with
    | error x => rw [hp] at h; cases h; exact ⟨t, by simp, hp⟩
    | ok o =>
      rw [hp] at h
      cases o with
      | none => cases h
      | some p =>
        have h' : (do
            match ← parseAll f ts with
            | none => .ok none
            | some ps => .ok (some (p :: ps)) : Go (Option (List (Geometry F)))) = .error e := h
        cases hq : parseAll f ts with
        | error x =>
          rw [hq] at h'
          cases h'
          obtain ⟨t', ht', hx⟩ := parseAll_error hq
          exact ⟨t', by simp [ht'], hx⟩
        | ok o =>
          rw [hq] at h'
          cases o <;> cases h'

/-! ### what the expressions match -/

def noCap : Re → Bool
  | .chr _ => true
  | .seq a b => noCap a && noCap b
  | .star a => noCap a
  | .cap _ => false

theorem noCap_groups {r : Re} {u : List Char} {g : Caps} (h : Matches r u g) (hr : noCap r = true) : g = [] := by
  induction h with
  | chr _ => rfl
  | seq _ _ ih1 ih2 => simp [noCap] at hr; rw [ih1 hr.1, ih2 hr.2]; rfl
  | star_nil => rfl
  | star_cons _ _ ih1 ih2 => rw [ih1 hr, ih2 hr]; rfl
  | cap _ _ => simp [noCap] at hr

theorem star_all_of {p : Char → Bool} {u : List Char} {g : Caps} (h : Matches (.star (.chr p)) u g) : ∀ c ∈ u, p c = true := by
  generalize hr : Re.star (.chr p) = r at h
  induction h with
  | chr _ => cases hr
  | seq _ _ _ _ => cases hr
  | star_nil => simp
  | star_cons h1 _ _ ih2 =>
    cases hr
    cases h1
    intro c hc
    rcases List.mem_append.mp hc with hc | hc
    · simp at hc; subst hc; assumption
    · exact ih2 rfl c hc
  | cap _ _ => cases hr

theorem matches_seq {a b : Re} {w : List Char} {g : Caps} (h : Matches (.seq a b) w g) : ∃ u v g1 g2, w = u ++ v ∧ g = g1 ++ g2 ∧ Matches a u g1 ∧ Matches b v g2 := by
  cases h with
  | seq h1 h2 => exact ⟨_, _, _, _, rfl, rfl, h1, h2⟩

theorem matches_one {c : Char} {w : List Char} {g : Caps} (h : Matches (one c) w g) : w = [c] ∧ g = [] := by
  unfold one at h
  cases h with
  | chr h => simp at h; subst h; exact ⟨rfl, rfl⟩

/-- the text of a ring: spaces, and something in brackets -/
theorem ring_matches {N : Char → Bool} {w : List Char} {g : Caps} (h : Matches (ringRe N) w g) : g = [] ∧ ∃ sp mid, w = sp ++ '(' :: (mid ++ [')']) ∧ ∀ c ∈ sp, isWs c = true := by
  refine ⟨noCap_groups h rfl, ?_⟩
  obtain ⟨sp, w1, _, _, rfl, -, hsp, k1⟩ := matches_seq h
  obtain ⟨o, w2, _, _, rfl, -, ho, k2⟩ := matches_seq k1
  obtain ⟨w3, w4, _, _, rfl, -, -, k3⟩ := matches_seq k2
  obtain ⟨w5, w6, _, _, rfl, -, -, k4⟩ := matches_seq k3
  obtain ⟨w7, w8, _, _, rfl, -, -, k5⟩ := matches_seq k4
  obtain ⟨rfl, -⟩ := matches_one ho
  obtain ⟨rfl, -⟩ := matches_one k5
  refine ⟨sp, w3 ++ (w5 ++ w7), by simp, fun c hc => space_ws (star_all_of hsp c hc)⟩

theorem rings_matches {w : List Char} {g : Caps} (h : Matches ringsRe w g) :
    ∃ sp mid sq, w = sp ++ '(' :: (mid ++ ')' :: sq) ∧ g = [sp ++ '(' :: (mid ++ [')'])] ∧ (∀ c ∈ sp, isWs c = true) ∧ ∀ c ∈ sq, c = ',' ∨ c = ' ' := by
  unfold ringsRe at h
  obtain ⟨u, sq, g1, g2, rfl, rfl, h1, h2⟩ := matches_seq h
  cases h1 with
  | cap h1 =>
    obtain ⟨rfl, sp, mid, rfl, hsp⟩ := ring_matches h1
    have e : g2 = [] := noCap_groups h2 rfl
    subst e
    exact ⟨sp, mid, sq, by simp, by simp, hsp, fun c hc => by simpa using star_all_of h2 c hc⟩

theorem polys_matches {w : List Char} {g : Caps} (h : Matches polysRe w g) : ∃ mid, w = '(' :: (mid ++ [')']) ∧ g = [w] := by
  unfold polysRe at h
  cases h with
  | cap h1 =>
    have e := noCap_groups h1 rfl
    obtain ⟨o, w2, _, _, rfl, -, ho, k1⟩ := matches_seq h1
    obtain ⟨w3, w4, _, _, rfl, -, -, k2⟩ := matches_seq k1
    obtain ⟨rfl, -⟩ := matches_one ho
    obtain ⟨rfl, -⟩ := matches_one k2
    exact ⟨w3, rfl, by rw [e]; rfl⟩

theorem wkt_matches {w : List Char} {g : Caps} (h : Matches wktRe w g) :
    ∃ tag ws1 ws2 body ws3, w = tag ++ (ws1 ++ '(' :: (ws2 ++ (body ++ (ws3 ++ [')'])))) ∧ g = [tag, body] ∧ (∀ c ∈ ws2, isWs c = true) ∧ ∀ c ∈ ws3, isWs c = true := by
  unfold wktRe at h
  obtain ⟨tag, w1, g1, g1', rfl, rfl, htag, k1⟩ := matches_seq h
  obtain ⟨ws1, w2, g2, g2', rfl, rfl, hws1, k2⟩ := matches_seq k1
  obtain ⟨o, w3, g3, g3', rfl, rfl, ho, k3⟩ := matches_seq k2
  obtain ⟨ws2, w4, g4, g4', rfl, rfl, hws2, k4⟩ := matches_seq k3
  obtain ⟨body, w5, g5, g5', rfl, rfl, hbody, k5⟩ := matches_seq k4
  obtain ⟨ws3, w6, g6, g6', rfl, rfl, hws3, k6⟩ := matches_seq k5
  obtain ⟨rfl, rfl⟩ := matches_one ho
  obtain ⟨rfl, rfl⟩ := matches_one k6
  have e2 : g2 = [] := noCap_groups hws1 rfl
  have e4 : g4 = [] := noCap_groups hws2 rfl
  have e6 : g6 = [] := noCap_groups hws3 rfl
  subst e2 e4 e6
  cases htag with
  | cap htag =>
    cases hbody with
    | cap hbody =>
      rw [noCap_groups htag rfl, noCap_groups hbody rfl]
      exact ⟨tag, ws1, ws2, body, ws3, by simp, by simp, star_all_of hws2, star_all_of hws3⟩

/-! ### parts of matches -/

/-- every part of `v` that is a number is a part of `s` -/
def Sub (v s : List Char) : Prop := ∀ w ∈ parts v, w = [] ∨ w ∈ parts s

theorem Sub.trans {a b c : List Char} (h1 : Sub a b) (h2 : Sub b c) : Sub a c := fun w hw => by
  rcases h1 w hw with h | h
  · exact Or.inl h
  · exact h2 w h

theorem Sub.lone (hT : Rejects T) {v s : List Char} (h : Sub v s) (hl : Lone T v) : Lone T s := by
  obtain ⟨w, hw, hp⟩ := hl
  rcases h w hw with rfl | h
  · exact absurd hT.empty hp
  · exact ⟨w, h, hp⟩

theorem parts_delim {d : Char} (hd : isDelim d) (a b : List Char) : parts (a ++ d :: b) = parts a ++ parts b := by
  unfold parts; rw [cut_delim hd, List.map_append]

theorem parts_seps {sq : List Char} (h : ∀ c ∈ sq, c = ',' ∨ c = ' ') : ∀ w ∈ parts sq, w = [] := by
  have : ∀ sq : List Char, (∀ c ∈ sq, c = ',' ∨ c = ' ') → ∀ w ∈ cut sq, ∀ c ∈ w, isWs c = true := by
    intro sq
    induction sq with
    | nil => intro _ w hw; simp [cut] at hw; subst hw; simp
    | cons c sq ih =>
      intro h w hw
      have ih := ih fun d hd => h d (by simp [hd])
      rcases h c (by simp) with rfl | rfl
      · rw [cut_delim_cons (Or.inl rfl)] at hw
        rcases List.mem_cons.mp hw with rfl | hw
        · simp
        · exact ih w hw
      · obtain ⟨x, xs, e1, e2⟩ := cut_other (c := ' ') (by simp [isDelim]) sq
        rw [e2] at hw
        rcases List.mem_cons.mp hw with rfl | hw
        · intro d hd
          rcases List.mem_cons.mp hd with rfl | hd
          · decide
          · exact ih x (by rw [e1]; simp) d hd
        · exact ih w (by rw [e1]; simp [hw])
  intro w hw
  obtain ⟨x, hx, rfl⟩ := List.mem_map.mp hw
  exact strip_ws (this sq h x hx)

theorem sub_ring {pre sp mid sq post sq' : List Char} (hsp : ∀ c ∈ sp, isWs c = true) (hsq : ∀ c ∈ sq, c = ',' ∨ c = ' ') :
    Sub (sp ++ '(' :: (mid ++ ')' :: sq)) (pre ++ (sp ++ '(' :: (mid ++ ')' :: sq')) ++ post) := by
  intro w hw
  have e : pre ++ (sp ++ '(' :: (mid ++ ')' :: sq')) ++ post = (pre ++ sp) ++ '(' :: (mid ++ ')' :: (sq' ++ post)) := by simp
  rw [e, parts_delim (Or.inr (Or.inl rfl)), parts_delim (Or.inr (Or.inr rfl))]
  rw [parts_delim (Or.inr (Or.inl rfl)), parts_delim (Or.inr (Or.inr rfl))] at hw
  rcases List.mem_append.mp hw with hw | hw
  · left
    unfold parts at hw
    rw [cut_word fun c hc => ws_not_delim (hsp c hc)] at hw
    simp at hw; rw [hw, strip_ws hsp]
  · rcases List.mem_append.mp hw with hw | hw
    · right; simp [hw]
    · left; exact parts_seps hsq w hw

/-- what `FindStringSubmatch` gives to the loops over rings -/
theorem rings_sub {s v : List Char} (h : v ∈ (ringsRe.find s).getD []) : Sub v s ∧ v <:+: s := by
  cases hf : ringsRe.find s with
  | none => rw [hf] at h; simp at h
  | some x =>
    rw [hf] at h
    obtain ⟨pre, w, post, g, rfl, hm, rfl⟩ := find_sound _ _ _ hf
    obtain ⟨sp, mid, sq, rfl, rfl, hsp, hsq⟩ := rings_matches hm
    simp only [Option.getD_some, List.mem_cons, List.not_mem_nil, or_false] at h
    rcases h with rfl | rfl
    · exact ⟨sub_ring hsp hsq, ⟨pre, post, rfl⟩⟩
    · exact ⟨sub_ring hsp (by simp), ⟨pre, sq ++ post, by simp⟩⟩

theorem polys_sub {s v : List Char} (h : v ∈ (polysRe.find s).getD []) : Sub v s ∧ v <:+: s := by
  cases hf : polysRe.find s with
  | none => rw [hf] at h; simp at h
  | some x =>
    rw [hf] at h
    obtain ⟨pre, w, post, g, rfl, hm, rfl⟩ := find_sound _ _ _ hf
    obtain ⟨mid, rfl, rfl⟩ := polys_matches hm
    simp only [Option.getD_some, List.mem_cons, List.not_mem_nil, or_false, or_self] at h
    subst h
    exact ⟨sub_ring (sp := []) (sq := []) (sq' := []) (by simp) (by simp), ⟨pre, post, rfl⟩⟩

/-- the body of a WKT text -/
theorem wkt_sub {s x tag body : List Char} (hf : wktRe.find s = some [x, tag, body]) : Sub body s ∧ body <:+: s := by
  obtain ⟨pre, w, post, g, rfl, hm, e⟩ := find_sound _ _ _ hf
  obtain ⟨tag', ws1, ws2, body', ws3, rfl, rfl, h2, h3⟩ := wkt_matches hm
  simp only [List.cons.injEq, and_true] at e
  obtain ⟨-, -, rfl⟩ := e
  refine ⟨fun w hw => Or.inr ?_, ⟨pre ++ tag' ++ ws1 ++ '(' :: ws2, ws3 ++ ')' :: post, by simp⟩⟩
  have e1 : pre ++ (tag' ++ (ws1 ++ '(' :: (ws2 ++ (body ++ (ws3 ++ [')']))))) ++ post = (pre ++ tag' ++ ws1) ++ '(' :: ((ws2 ++ (body ++ ws3)) ++ ')' :: post) := by simp
  rw [e1, parts_delim (Or.inr (Or.inl rfl)), parts_delim (Or.inr (Or.inr rfl)), parts_wsLeft h2, parts_wsRight h3]
  simp [hw]

/-- a part of `s` is a line of one position -/
def OnePos (T : NumText F) (s : List Char) : Prop := ∃ v p, v <:+: s ∧ LineStringFromWKT T v = .ok (some (.lineString [p]))

theorem ring_panic (hT : Rejects T) {v : List Char} {e : Panic} (h : RingFromWKT T v = .error e) :
    (e = .index ∧ Lone T v) ∨ (e = .nilDeref ∧ OnePos T v) := by
  unfold RingFromWKT at h
  cases hl : LineStringFromWKT T v with
  | error x =>
    rw [hl] at h; cases h
    exact Or.inl (line_panic hT hl)
  | ok o =>
    rw [hl] at h
    rcases o with _ | g
    · cases h
    · cases g with
      | lineString l =>
        have h' : (do let r ← toRing l; Except.ok (some (Geometry.lineString r)) : Go (Option (Geometry F))) = .error e := h
        unfold toRing at h'
        cases hc : closeRing l with
        | some r => rw [hc] at h'; cases h'
        | none =>
          rw [hc] at h'
          cases h'
          right
          refine ⟨rfl, ?_⟩
          match l with
          | [] =>
            exfalso
            unfold LineStringFromWKT at hl
            cases hp : parseTerms T (Str.trim (· == ' ')) (Str.split ',' (unparen v)) with
            | error x => rw [hp] at hl; cases hl
            | ok o =>
              rw [hp] at hl
              cases o with
              | none => cases hl
              | some ps =>
                have h' : (if ps.filterMap Pos.ls ≠ [] then .ok (some (.lineString (ps.filterMap Pos.ls)))
                  else if ps.filterMap Pos.z ≠ [] then .ok (some (.lineStringZ (ps.filterMap Pos.z))) else .ok none : Go (Option (Geometry F))) = .ok (some (.lineString [])) := hl
                split_ifs at h' with h1 h2
                · simp only [Except.ok.injEq, Option.some.injEq, Geometry.lineString.injEq] at h'
                  exact h1 h'
                · cases h'
                · cases h'
          | [p] => exact ⟨v, p, List.infix_refl _, hl⟩
          | a :: b :: l => simp only [closeRing] at hc; split_ifs at hc
      | lineStringZ l =>
        have h' : (do let r ← toRingZ l; Except.ok (some (Geometry.lineStringZ r)) : Go (Option (Geometry F))) = .error e := h
        cases l with
        | nil =>
          exfalso
          unfold LineStringFromWKT at hl
          cases hp : parseTerms T (Str.trim (· == ' ')) (Str.split ',' (unparen v)) with
          | error x => rw [hp] at hl; cases hl
          | ok o =>
            rw [hp] at hl
            cases o with
            | none => cases hl
            | some ps =>
              have h' : (if ps.filterMap Pos.ls ≠ [] then .ok (some (.lineString (ps.filterMap Pos.ls)))
                else if ps.filterMap Pos.z ≠ [] then .ok (some (.lineStringZ (ps.filterMap Pos.z))) else .ok none : Go (Option (Geometry F))) = .ok (some (.lineStringZ [])) := hl
              split_ifs at h' with h1 h2
              · cases h'
              · simp only [Except.ok.injEq, Option.some.injEq, Geometry.lineStringZ.injEq] at h'
                exact h2 h'
              · cases h'
        | cons a l =>
          unfold toRingZ at h'
          simp only at h'
          split_ifs at h' <;> cases h'
      | _ => cases h

theorem multiLine_panic (hT : Rejects T) {v : List Char} {e : Panic} (h : MultiLineStringFromWKT T v = .error e) : e = .index ∧ Lone T v := by
  unfold MultiLineStringFromWKT at h
  cases hp : parseAll (LineStringFromWKT T) ((ringsRe.find v).getD []) with
  | error x =>
    rw [hp] at h; cases h
    obtain ⟨t, ht, hx⟩ := parseAll_error hp
    obtain ⟨h1, h2⟩ := line_panic hT hx
    exact ⟨h1, (rings_sub ht).1.lone hT h2⟩
  | ok o =>
    rw [hp] at h
    cases o with
    | none => cases h
    | some gs =>
      have h' : (if gs.filterMap asLine ≠ [] then .ok (some (.multiLineString (gs.filterMap asLine)))
        else if gs.filterMap asLineZ ≠ [] then .ok (some (.multiLineStringZ (gs.filterMap asLineZ))) else .ok none : Go (Option (Geometry F))) = .error e := h
      split_ifs at h'

theorem polygon_panic (hT : Rejects T) {v : List Char} {e : Panic} (h : PolygonFromWKT T v = .error e) :
    (e = .index ∧ Lone T v) ∨ (e = .nilDeref ∧ OnePos T v) := by
  unfold PolygonFromWKT at h
  cases hp : parseAll (RingFromWKT T) ((ringsRe.find v).getD []) with
  | error x =>
    rw [hp] at h; cases h
    obtain ⟨t, ht, hx⟩ := parseAll_error hp
    rcases ring_panic hT hx with ⟨h1, h2⟩ | ⟨h1, u, p, hu, h2⟩
    · exact Or.inl ⟨h1, (rings_sub ht).1.lone hT h2⟩
    · exact Or.inr ⟨h1, u, p, hu.trans (rings_sub ht).2, h2⟩
  | ok o =>
    rw [hp] at h
    cases o with
    | none => cases h
    | some gs =>
      have h' : (if gs.filterMap asLine ≠ [] then .ok (some (.polygon (gs.filterMap asLine)))
        else if gs.filterMap asLineZ ≠ [] then .ok (some (.polygonZ (gs.filterMap asLineZ))) else .ok none : Go (Option (Geometry F))) = .error e := h
      split_ifs at h'

theorem multiPolygon_panic (hT : Rejects T) {v : List Char} {e : Panic} (h : MultiPolygonFromWKT T v = .error e) :
    (e = .index ∧ Lone T v) ∨ (e = .nilDeref ∧ OnePos T v) := by
  unfold MultiPolygonFromWKT at h
  cases hp : parseAll (PolygonFromWKT T) ((polysRe.find v).getD []) with
  | error x =>
    rw [hp] at h; cases h
    obtain ⟨t, ht, hx⟩ := parseAll_error hp
    rcases polygon_panic hT hx with ⟨h1, h2⟩ | ⟨h1, u, p, hu, h2⟩
    · exact Or.inl ⟨h1, (polys_sub ht).1.lone hT h2⟩
    · exact Or.inr ⟨h1, u, p, hu.trans (polys_sub ht).2, h2⟩
  | ok o =>
    rw [hp] at h
    cases o with
    | none => cases h
    | some gs =>
      have h' : (if gs.filterMap asPoly ≠ [] then .ok (some (.multiPolygon (gs.filterMap asPoly)))
        else if gs.filterMap asPolyZ ≠ [] then .ok (some (.multiPolygonZ (gs.filterMap asPolyZ))) else .ok none : Go (Option (Geometry F))) = .error e := h
      split_ifs at h'

theorem decode_panic (hT : Rejects T) {s : List Char} {e : Panic} (h : Decode T s = .error e) :
    (e = .index ∧ Lone T s) ∨ (e = .nilDeref ∧ OnePos T (Str.unspace (Str.trim (· == ' ') s))) := by
  unfold Decode at h
  split at h
  · rename_i x tag body hf
    obtain ⟨hs, hi⟩ := wkt_sub hf
    have hs' : Sub body s := fun w hw => by
      have := hs w hw
      rwa [parts_unspace, parts_trim] at this
    have key : ∀ {e : Panic}, ((e = .index ∧ Lone T body) ∨ (e = .nilDeref ∧ OnePos T body)) → ((e = .index ∧ Lone T s) ∨ (e = .nilDeref ∧ OnePos T (Str.unspace (Str.trim (· == ' ') s)))) := by
      rintro e (⟨h1, h2⟩ | ⟨h1, u, p, hu, h2⟩)
      · exact Or.inl ⟨h1, hs'.lone hT h2⟩
      · exact Or.inr ⟨h1, u, p, hu.trans hi, h2⟩
    split_ifs at h
    · exact key (multiPolygon_panic hT h)
    · exact key (polygon_panic hT h)
    · exact key (Or.inl (multiLine_panic hT h))
    · exact key (Or.inl (line_panic hT h))
    · exact key (Or.inl (multiPoint_panic hT h))
    · exact key (Or.inl (point_panic hT h))
  · cases h

end GoGeo.Wkt
