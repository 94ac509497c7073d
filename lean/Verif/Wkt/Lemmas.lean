import Verif.Wkt.Model
import Mathlib.Data.List.TakeWhile

/-! # Lemmas about the WKT codec -/

set_option linter.unusedSectionVars false

namespace GoGeo.Wkt
open Regex

variable {F : Type} [GoFloat F] {T : NumText F}

/-- `x` is written with the characters of a plain decimal number and reads back as itself -/
structure Good (T : NumText F) (x : F) : Prop where
  rt : T.parse (T.fmt x) = some x
  ne : T.fmt x ≠ []
  ch : ∀ c ∈ T.fmt x, isNum c = true

/-! ### characters -/

/-- the text starts and ends with a character of a number -/
structure Clean (w : List Char) : Prop where
  hd : ∃ c u, w = c :: u ∧ isNum c = true
  lst : ∃ c u, w = u ++ [c] ∧ isNum c = true

theorem Clean.ne {w : List Char} (h : Clean w) : w ≠ [] := by
  obtain ⟨c, u, rfl, -⟩ := h.hd; simp

theorem clean_of_all {w : List Char} (h0 : w ≠ []) (h : ∀ c ∈ w, isNum c = true) : Clean w := by
  constructor
  · cases w with
    | nil => exact absurd rfl h0
    | cons c u => exact ⟨c, u, rfl, h c (by simp)⟩
  · exact ⟨w.getLast h0, w.dropLast, (List.dropLast_append_getLast h0).symm, h _ (List.getLast_mem h0)⟩

theorem Clean.mid {u v : List Char} (hu : Clean u) (hv : Clean v) (m : List Char) : Clean (u ++ m ++ v) := by
  obtain ⟨c, u', rfl, hc⟩ := hu.hd
  obtain ⟨d, v', rfl, hd⟩ := hv.lst
  exact ⟨⟨c, u' ++ m ++ (v' ++ [d]), by simp, hc⟩, ⟨d, c :: u' ++ m ++ v', by simp, hd⟩⟩

theorem Clean.sep {u v : List Char} (hu : Clean u) (hv : Clean v) (c : Char) : Clean (u ++ c :: v) := by
  have := hu.mid hv [c]; simpa using this

theorem clean_join (sep : Char) : ∀ ws : List (List Char), ws ≠ [] → (∀ w ∈ ws, Clean w) → Clean (Str.join sep ws)
  | [], h, _ => absurd rfl h
  | [w], _, h => h w (by simp)
  | w :: v :: ws, _, h => Clean.sep (h w (by simp)) (clean_join sep (v :: ws) (by simp) fun x hx => h x (by simp [hx])) sep

theorem Clean.head {w : List Char} (h : Clean w) (c : Char) (hc : w.head? = some c) : isNum c = true := by
  obtain ⟨d, u, rfl, hd⟩ := h.hd
  simp at hc; subst hc; exact hd

theorem Clean.last {w : List Char} (h : Clean w) (c : Char) (hc : w.getLast? = some c) : isNum c = true := by
  obtain ⟨d, u, rfl, hd⟩ := h.lst
  simp at hc; subst hc; exact hd

theorem isNum_ne {c d : Char} (hc : isNum c = true) (hd : isNum d = false) : (c == d) = false := by
  rw [beq_eq_false_iff_ne]; rintro rfl; rw [hc] at hd; cases hd

theorem trim_clean {w : List Char} (h : Clean w) (d : Char) (hd : isNum d = false) : Str.trim (· == d) w = w := by
  unfold Str.trim
  rw [Str.trimLeft_id _ w fun c hc => isNum_ne (h.head c hc) hd, Str.trimRight_id _ w fun c hc => isNum_ne (h.last c hc) hd]

theorem unparen_clean {w : List Char} (h : Clean w) : unparen w = w := by
  unfold unparen
  rw [Str.trimLeft_id _ w fun c hc => isNum_ne (h.head c hc) (by decide), Str.trimRight_id _ w fun c hc => isNum_ne (h.last c hc) (by decide)]

theorem unparen_paren {w : List Char} (h : Clean w) : unparen ('(' :: (w ++ [')'])) = w := by
  obtain ⟨c, u, e, hc⟩ := h.hd
  have e1 : Str.trimLeft (· == '(') ('(' :: (w ++ [')'])) = w ++ [')'] := by
    have := Str.trimLeft_id (· == '(') (w ++ [')']) fun d hd => by
      rw [e] at hd; simp at hd; subst hd; exact isNum_ne hc (by decide)
    unfold Str.trimLeft at this ⊢
    rw [List.dropWhile_cons, if_pos (by simp), this]
  have e2 : Str.trimRight (· == ')') (w ++ [')']) = w := by
    have := Str.trimRight_id (· == ')') w fun d hd => isNum_ne (h.last d hd) (by decide)
    unfold Str.trimRight at this ⊢
    rw [List.reverse_append, List.reverse_singleton, List.singleton_append, List.dropWhile_cons, if_pos (by simp), this]
  unfold unparen
  rw [e1, e2]

theorem Good.clean {x : F} (h : Good T x) : Clean (T.fmt x) := clean_of_all h.ne h.ch

theorem Good.not_mem {x : F} (h : Good T x) {d : Char} (hd : isNum d = false) : d ∉ T.fmt x := fun hm => by
  rw [h.ch d hm] at hd; cases hd

/-- all coordinates of a point are good -/
def GoodP (T : NumText F) (p : Point F) : Prop := Good T p.X ∧ Good T p.Y
def GoodPZ (T : NumText F) (p : PointZ F) : Prop := Good T p.X ∧ Good T p.Y ∧ Good T p.Z

theorem clean_xy {p : Point F} (h : GoodP T p) : Clean (xyText T p) := h.1.clean.sep h.2.clean ' '
theorem clean_xyz {p : PointZ F} (h : GoodPZ T p) : Clean (xyzText T p) := h.1.clean.sep (h.2.1.clean.sep h.2.2.clean ' ') ' '

theorem xy_not_mem {p : Point F} (h : GoodP T p) {d : Char} (hd : isNum d = false) (hs : d ≠ ' ') : d ∉ xyText T p := by
  unfold xyText
  simp only [List.mem_append, List.mem_cons, not_or]
  exact ⟨h.1.not_mem hd, hs, h.2.not_mem hd⟩

theorem xyz_not_mem {p : PointZ F} (h : GoodPZ T p) {d : Char} (hd : isNum d = false) (hs : d ≠ ' ') : d ∉ xyzText T p := by
  unfold xyzText
  simp only [List.mem_append, List.mem_cons, not_or]
  exact ⟨h.1.not_mem hd, hs, h.2.1.not_mem hd, hs, h.2.2.not_mem hd⟩

theorem split_xy {p : Point F} (h : GoodP T p) : Str.split ' ' (xyText T p) = [T.fmt p.X, T.fmt p.Y] := by
  unfold xyText
  rw [Str.split_append ' ' _ _ (h.1.not_mem (by decide)), Str.split_word ' ' _ (h.2.not_mem (by decide))]

theorem split_xyz {p : PointZ F} (h : GoodPZ T p) : Str.split ' ' (xyzText T p) = [T.fmt p.X, T.fmt p.Y, T.fmt p.Z] := by
  unfold xyzText
  rw [Str.split_append ' ' _ _ (h.1.not_mem (by decide)), Str.split_append ' ' _ _ (h.2.1.not_mem (by decide)), Str.split_word ' ' _ (h.2.2.not_mem (by decide))]

theorem parsePos_xy {p : Point F} (h : GoodP T p) : parsePos T [T.fmt p.X, T.fmt p.Y] = .ok (some (.xy p)) := by
  simp [parsePos, h.1.rt, h.2.rt]

theorem parsePos_xyz {p : PointZ F} (h : GoodPZ T p) : parsePos T [T.fmt p.X, T.fmt p.Y, T.fmt p.Z] = .ok (some (.xyz p)) := by
  simp [parsePos, h.1.rt, h.2.1.rt, h.2.2.rt]

theorem parseTerms_xy (strip : List Char → List Char) (hs : ∀ w, Clean w → strip w = w) : ∀ ps : List (Point F), (∀ p ∈ ps, GoodP T p) →
    parseTerms T strip (ps.map (xyText T)) = .ok (some (ps.map Pos.xy))
  | [], _ => rfl
  | p :: ps, h => by
    have hp := h p (by simp)
    rw [List.map_cons, parseTerms, hs _ (clean_xy hp), split_xy hp, parsePos_xy hp, parseTerms_xy strip hs ps fun q hq => h q (by simp [hq])]
    rfl

theorem parseTerms_xyz (strip : List Char → List Char) (hs : ∀ w, Clean w → strip w = w) : ∀ ps : List (PointZ F), (∀ p ∈ ps, GoodPZ T p) →
    parseTerms T strip (ps.map (xyzText T)) = .ok (some (ps.map Pos.xyz))
  | [], _ => rfl
  | p :: ps, h => by
    have hp := h p (by simp)
    rw [List.map_cons, parseTerms, hs _ (clean_xyz hp), split_xyz hp, parsePos_xyz hp, parseTerms_xyz strip hs ps fun q hq => h q (by simp [hq])]
    rfl

theorem filterMap_xy_ls (ps : List (Point F)) : (ps.map Pos.xy).filterMap Pos.ls = ps := by
  rw [List.filterMap_map]; exact List.filterMap_some
theorem filterMap_xy_mp (ps : List (Point F)) : (ps.map Pos.xy).filterMap Pos.mp = ps := by
  rw [List.filterMap_map]; exact List.filterMap_some
theorem filterMap_xyz_ls (ps : List (PointZ F)) : (ps.map Pos.xyz).filterMap Pos.ls = [] := by
  induction ps <;> simp_all [Pos.ls]
theorem filterMap_xyz_mp (ps : List (PointZ F)) : (ps.map Pos.xyz).filterMap Pos.mp = [] := by
  induction ps <;> simp_all [Pos.mp]
theorem filterMap_xyz_z (ps : List (PointZ F)) : (ps.map Pos.xyz).filterMap Pos.z = ps := by
  rw [List.filterMap_map]; exact List.filterMap_some

/-- the terms of a path -/
theorem clean_path {ps : List (Point F)} (h0 : ps ≠ []) (h : ∀ p ∈ ps, GoodP T p) : Clean (Str.join ',' (ps.map (xyText T))) :=
  clean_join ',' _ (by simpa using h0) fun w hw => by
    obtain ⟨p, hp, rfl⟩ := List.mem_map.mp hw; exact clean_xy (h p hp)

theorem clean_pathZ {ps : List (PointZ F)} (h0 : ps ≠ []) (h : ∀ p ∈ ps, GoodPZ T p) : Clean (Str.join ',' (ps.map (xyzText T))) :=
  clean_join ',' _ (by simpa using h0) fun w hw => by
    obtain ⟨p, hp, rfl⟩ := List.mem_map.mp hw; exact clean_xyz (h p hp)

theorem split_path {ps : List (Point F)} (h0 : ps ≠ []) (h : ∀ p ∈ ps, GoodP T p) : Str.split ',' (Str.join ',' (ps.map (xyText T))) = ps.map (xyText T) :=
  Str.split_join ',' _ (by simpa using h0) fun w hw => by
    obtain ⟨p, hp, rfl⟩ := List.mem_map.mp hw; exact xy_not_mem (h p hp) (by decide) (by decide)

theorem split_pathZ {ps : List (PointZ F)} (h0 : ps ≠ []) (h : ∀ p ∈ ps, GoodPZ T p) : Str.split ',' (Str.join ',' (ps.map (xyzText T))) = ps.map (xyzText T) :=
  Str.split_join ',' _ (by simpa using h0) fun w hw => by
    obtain ⟨p, hp, rfl⟩ := List.mem_map.mp hw; exact xyz_not_mem (h p hp) (by decide) (by decide)

theorem line_of_unparen {ps : List (Point F)} (h0 : ps ≠ []) (h : ∀ p ∈ ps, GoodP T p) (s : List Char) (hs : unparen s = Str.join ',' (ps.map (xyText T))) :
    LineStringFromWKT T s = .ok (some (.lineString ps)) := by
  unfold LineStringFromWKT
  rw [hs, split_path h0 h, parseTerms_xy _ (fun w hw => trim_clean hw ' ' (by decide)) ps h]
  show (if _ then _ else _) = _
  rw [filterMap_xy_ls, if_pos h0]

theorem line_of_unparenZ {ps : List (PointZ F)} (h0 : ps ≠ []) (h : ∀ p ∈ ps, GoodPZ T p) (s : List Char) (hs : unparen s = Str.join ',' (ps.map (xyzText T))) :
    LineStringFromWKT T s = .ok (some (.lineStringZ ps)) := by
  unfold LineStringFromWKT
  rw [hs, split_pathZ h0 h, parseTerms_xyz _ (fun w hw => trim_clean hw ' ' (by decide)) ps h]
  show (if _ then _ else if _ then _ else _) = _
  rw [filterMap_xyz_ls, if_neg (by simp), filterMap_xyz_z, if_pos h0]

theorem line_body {ps : List (Point F)} (h0 : ps ≠ []) (h : ∀ p ∈ ps, GoodP T p) : LineStringFromWKT T (Str.join ',' (ps.map (xyText T))) = .ok (some (.lineString ps)) :=
  line_of_unparen h0 h _ (unparen_clean (clean_path h0 h))

theorem line_paren {ps : List (Point F)} (h0 : ps ≠ []) (h : ∀ p ∈ ps, GoodP T p) : LineStringFromWKT T (pathText T ps) = .ok (some (.lineString ps)) :=
  line_of_unparen h0 h _ (unparen_paren (clean_path h0 h))

theorem line_bodyZ {ps : List (PointZ F)} (h0 : ps ≠ []) (h : ∀ p ∈ ps, GoodPZ T p) : LineStringFromWKT T (Str.join ',' (ps.map (xyzText T))) = .ok (some (.lineStringZ ps)) :=
  line_of_unparenZ h0 h _ (unparen_clean (clean_pathZ h0 h))

theorem multiPoint_body {ps : List (Point F)} (h0 : ps ≠ []) (h : ∀ p ∈ ps, GoodP T p) : MultiPointFromWKT T (Str.join ',' (ps.map (xyText T))) = .ok (some (.multiPoint ps)) := by
  unfold MultiPointFromWKT
  rw [unparen_clean (clean_path h0 h), trim_clean (clean_path h0 h) ' ' (by decide), split_path h0 h, parseTerms_xy _ (fun w hw => unparen_clean hw) ps h]
  show (if _ then _ else _) = _
  rw [filterMap_xy_mp, if_pos h0]

theorem multiPoint_bodyZ {ps : List (PointZ F)} (h0 : ps ≠ []) (h : ∀ p ∈ ps, GoodPZ T p) : MultiPointFromWKT T (Str.join ',' (ps.map (xyzText T))) = .ok (some (.multiPointZ ps)) := by
  unfold MultiPointFromWKT
  rw [unparen_clean (clean_pathZ h0 h), trim_clean (clean_pathZ h0 h) ' ' (by decide), split_pathZ h0 h, parseTerms_xyz _ (fun w hw => unparen_clean hw) ps h]
  show (if _ then _ else if _ then _ else _) = _
  rw [filterMap_xyz_mp, if_neg (by simp), filterMap_xyz_z, if_pos h0]

theorem point_body {p : Point F} (h : GoodP T p) : PointFromWKT T (xyText T p) = .ok (some (.point p)) := by
  unfold PointFromWKT
  rw [trim_clean (clean_xy h) ' ' (by decide), split_xy h, parsePos_xy h]; rfl

theorem point_bodyZ {p : PointZ F} (h : GoodPZ T p) : PointFromWKT T (xyzText T p) = .ok (some (.pointZ p)) := by
  unfold PointFromWKT
  rw [trim_clean (clean_xyz h) ' ' (by decide), split_xyz h, parsePos_xyz h]; rfl

/-! ### the outer expression -/

theorem one_m (c : Char) (s : List Char) (g : Caps) (k : Cont) : (one c).m (c :: s) g k = k s g := by simp [one, Re.m]
theorem one_fail (c : Char) (s : List Char) (g : Caps) (k : Cont) (h : ∀ d, s.head? = some d → d ≠ c) : (one c).m s g k = none := by
  unfold one
  cases s with
  | nil => rfl
  | cons d s => rw [chr_cons, if_neg (by simpa using h d rfl)]

theorem body_m (body : List Char) (g : Caps) (k : Cont) (X : Caps) (h0 : body ≠ []) (hn : '\n' ∉ body) (hk0 : ∀ g, k [] g = none) (hk : k [')'] g = some X) :
    bodyRe.m (body ++ [')']) g k = some X := by
  unfold bodyRe
  rw [seq_m]
  set s := body ++ [')'] with hs
  have hsplit : s = s.takeWhile (fun c => c == '(') ++ s.dropWhile (fun c => c == '(') := (List.takeWhile_append_dropWhile).symm
  have key : ∀ r, r <:+ s → 2 ≤ r.length → (Re.seq (plus (.chr fun c => c != '\n')) (.star (one ')'))).m r g k = some X := by
    intro r hr hl
    obtain ⟨r0, er, h1⟩ : ∃ r0, r = r0 ++ [')'] ∧ r0 <:+ body := by
      obtain ⟨p, hp⟩ := hr
      have hne : r ≠ [] := by rintro rfl; simp at hl
      have e := List.dropLast_append_getLast hne
      have hp' : (p ++ r.dropLast) ++ [r.getLast hne] = body ++ [')'] := by rw [List.append_assoc, e, hp]
      have := List.append_inj' hp' rfl
      have e2 : r.getLast hne = ')' := by simpa using this.2
      exact ⟨r.dropLast, by rw [← e2, e], ⟨p, this.1⟩⟩
    subst er
    cases r0 with
    | nil => simp at hl
    | cons c r1 =>
      have hc : ∀ d ∈ c :: r1, d ≠ '\n' := fun d hd e => hn (h1.subset (e ▸ hd))
      rw [seq_m, plus, seq_m, List.cons_append, chr_cons]
      rw [if_pos (by simp [hc c (by simp)])]
      have hd := star_chr (fun c => c != '\n') (r1 ++ [')']) [] g (fun r g' => (Re.star (one ')')).m r g' k)
        (by intro d hd; rw [List.mem_append, List.mem_singleton] at hd; rcases hd with h | rfl
            · simp [hc d (by simp [h])]
            · decide) (by simp)
      rw [List.append_nil] at hd
      rw [hd, greedy_snoc]
      · apply greedy_all
        have := star_chr (· == ')') [')'] [] g k (by simp) (by simp)
        show (Re.star (one ')')).m [')'] g k = some X
        unfold one
        rw [List.append_nil] at this
        rw [this]
        simp [greedy, hk0, hk]
      · show (Re.star (one ')')).m [] g k = none
        unfold one
        rw [star_none _ _ _ _ (by simp), hk0]
  have short : ∀ r, r <:+ s → r.length < 2 → (Re.seq (plus (.chr fun c => c != '\n')) (.star (one ')'))).m r g k = none := by
    intro r hr hl
    match r, hl with
    | [], _ => simp [Re.m, plus]
    | [c], _ =>
      rw [seq_m, plus, seq_m, chr_cons]
      split_ifs
      · rw [star_none _ _ _ _ (by simp)]
        unfold one
        rw [star_none _ _ _ _ (by simp), hk0]
      · rfl
  have hl : 2 ≤ s.length := by
    rw [hs, List.length_append, List.length_singleton]
    have := List.length_pos_iff.mpr h0
    omega
  rw [hsplit]
  unfold one
  rw [star_chr _ _ _ _ _ (fun c hc => List.mem_takeWhile_imp hc) (fun c hc => by
    have := List.head?_dropWhile_not (fun c => c == '(') s
    rw [hc] at this; simpa using this)]
  apply greedy_const
  · intro r hr
    rw [← hsplit] at hr
    by_cases h2 : 2 ≤ r.length
    · exact Or.inr (key r hr h2)
    · exact Or.inl (short r hr (by omega))
  · rw [← hsplit]
    exact key s (List.suffix_refl _) hl

/-- what the expression of `Decode` finds in `TAG (body)` -/
theorem wktRe_find' (tag sp body : List Char) (h0 : tag ≠ []) (ht : ∀ c ∈ tag, isAZ c = true) (hsp : ∀ c ∈ sp, isWs c = true) (hb0 : body ≠ []) (hn : '\n' ∉ body)
    (hw : ∀ c, body.head? = some c → isWs c = false) :
    wktRe.find (tag ++ (sp ++ '(' :: (body ++ [')']))) = some [tag ++ (sp ++ '(' :: (body ++ [')'])), tag, body] := by
  apply find_here
  unfold wktRe
  rw [seq_m, cap_m]
  apply plus_all _ _ _ _ _ h0 ht (by
    intro c hc
    cases sp with
    | nil => simp at hc; subst hc; decide
    | cons d sp =>
      simp at hc; subst hc
      have := hsp d (by simp)
      simp only [isWs, Bool.or_eq_true, beq_iff_eq] at this
      rcases this with (((rfl | rfl) | rfl) | rfl) | rfl <;> decide)
  rw [take_sub_length (t := sp ++ '(' :: (body ++ [')'])) (u := tag) rfl]
  rw [seq_m, ws]
  apply star_all _ sp _ _ _ hsp (by simp; decide)
  rw [seq_m, one_m, seq_m, star_none _ _ _ _ (by
    intro c hc
    cases body with
    | nil => exact absurd rfl hb0
    | cons d b => simp at hc; subst hc; exact hw d rfl), seq_m, cap_m]
  apply body_m body _ _ _ hb0 hn
  · intro g
    rw [seq_m, star_none _ _ _ _ (by simp)]
    rfl
  · rw [take_sub_length (t := [')']) (u := body) rfl, seq_m, star_none _ _ _ _ (by simp; decide), one_m]
    simp

/-- what the expression of `Decode` finds in `TAG(body)` -/
theorem wktRe_find (tag body : List Char) (h0 : tag ≠ []) (ht : ∀ c ∈ tag, isAZ c = true) (hb0 : body ≠ []) (hn : '\n' ∉ body)
    (hw : ∀ c, body.head? = some c → isWs c = false) :
    wktRe.find (tag ++ '(' :: (body ++ [')'])) = some [tag ++ '(' :: (body ++ [')']), tag, body] :=
  wktRe_find' tag [] body h0 ht (by simp) hb0 hn hw

/-- appending to the left leaves `unspace` alone -/
def Stable (w : List Char) : Prop := ∀ s, Str.unspace (w ++ s) = w ++ Str.unspace s

theorem unspace_cons {c : Char} (hc : c ≠ ',') (s : List Char) : Str.unspace (c :: s) = c :: Str.unspace s := by
  cases s with
  | nil => rw [Str.unspace]; simp
  | cons d s =>
    rw [Str.unspace]
    intro s' e _; exact absurd e hc

theorem unspace_comma {d : Char} (hd : d ≠ ' ') (s : List Char) : Str.unspace (',' :: d :: s) = ',' :: Str.unspace (d :: s) := by
  rw [Str.unspace]
  intro s' _ e; cases e; exact absurd rfl hd

theorem stable_of_not_mem : ∀ {w : List Char}, ',' ∉ w → Stable w
  | [], _ => fun s => rfl
  | c :: w, h => fun s => by
    rw [List.mem_cons, not_or] at h
    rw [List.cons_append, unspace_cons (Ne.symm h.1), stable_of_not_mem h.2 s, List.cons_append]

theorem Stable.append {u v : List Char} (hu : Stable u) (hv : Stable v) : Stable (u ++ v) := fun s => by
  rw [List.append_assoc, hu, hv, List.append_assoc]

theorem Stable.comma {v : List Char} (hv : Stable v) (h : ∃ d u, v = d :: u ∧ d ≠ ' ') : Stable (',' :: v) := fun s => by
  obtain ⟨d, u, rfl, hd⟩ := h
  rw [List.cons_append, List.cons_append, unspace_comma hd, ← List.cons_append, hv]
  rfl

/-- a piece of a list -/
def Piece (w : List Char) : Prop := Stable w ∧ ∃ d u, w = d :: u ∧ isWs d = false ∧ d ≠ ' '

theorem piece_join : ∀ ws : List (List Char), ws ≠ [] → (∀ w ∈ ws, Piece w) → Piece (Str.join ',' ws)
  | [], h, _ => absurd rfl h
  | [w], _, h => h w (by simp)
  | w :: v :: ws, _, h => by
    have ih := piece_join (v :: ws) (by simp) fun x hx => h x (by simp [hx])
    have hw := h w (by simp)
    refine ⟨hw.1.append (ih.1.comma ?_), ?_⟩
    · obtain ⟨d, u, e, -, hd⟩ := ih.2; exact ⟨d, u, e, hd⟩
    · obtain ⟨d, u, e, hd⟩ := hw.2
      exact ⟨d, u ++ ',' :: Str.join ',' (v :: ws), by rw [e]; rfl, hd⟩

theorem piece_paren {ws : List (List Char)} (h : ws ≠ []) (hw : ∀ w ∈ ws, Piece w) : Piece (paren ws) := by
  have ih := piece_join ws h hw
  refine ⟨?_, '(', _, rfl, by decide, by decide⟩
  have : paren ws = ['('] ++ (Str.join ',' ws ++ [')']) := rfl
  rw [this]
  exact (stable_of_not_mem (by decide)).append (ih.1.append (stable_of_not_mem (by decide)))

theorem piece_of_clean {w : List Char} (h : Clean w) (hm : ',' ∉ w) : Piece w := by
  obtain ⟨c, u, e, hc⟩ := h.hd
  refine ⟨stable_of_not_mem hm, c, u, e, ?_, ?_⟩
  · unfold isWs
    simp only [isNum_ne hc (d := ' ') (by decide), isNum_ne hc (d := '\t') (by decide), isNum_ne hc (d := '\n') (by decide), isNum_ne hc (d := '\r') (by decide), isNum_ne hc (d := '\x0c') (by decide), Bool.or_false]
  · rintro rfl; revert hc; decide

theorem piece_xy {p : Point F} (h : GoodP T p) : Piece (xyText T p) := piece_of_clean (clean_xy h) (xy_not_mem h (by decide) (by decide))
theorem piece_xyz {p : PointZ F} (h : GoodPZ T p) : Piece (xyzText T p) := piece_of_clean (clean_xyz h) (xyz_not_mem h (by decide) (by decide))

/-- the steps of `Decode` up to the dispatch -/
theorem decode_find (tag body : List Char) (h0 : tag ≠ []) (ht : ∀ c ∈ tag, isAZ c = true) (hb : Piece body) (hn : '\n' ∉ body) :
    wktRe.find (Str.unspace (Str.trim (· == ' ') (tag ++ '(' :: (body ++ [')'])))) = some [tag ++ '(' :: (body ++ [')']), tag, body] := by
  have haz : ∀ c ∈ tag, c ≠ ' ' ∧ c ≠ ',' := fun c hc => by
    have := ht c hc
    refine ⟨?_, ?_⟩ <;> rintro rfl <;> revert this <;> decide
  have e1 : Str.trim (· == ' ') (tag ++ '(' :: (body ++ [')'])) = tag ++ '(' :: (body ++ [')']) := by
    unfold Str.trim
    rw [Str.trimLeft_id, Str.trimRight_id]
    · intro c hc
      have : (tag ++ '(' :: (body ++ [')'])) = (tag ++ '(' :: body) ++ [')'] := by simp
      rw [this, List.getLast?_append] at hc
      simp at hc; subst hc; decide
    · intro c hc
      cases tag with
      | nil => exact absurd rfl h0
      | cons d t => simp at hc; subst hc; simpa using (haz d (by simp)).1
  have e2 : Str.unspace (tag ++ '(' :: (body ++ [')'])) = tag ++ '(' :: (body ++ [')']) := by
    have : Stable (tag ++ (['('] ++ (body ++ [')']))) :=
      (stable_of_not_mem fun h => (haz ',' h).2 rfl).append ((stable_of_not_mem (by decide)).append (hb.1.append (stable_of_not_mem (by decide))))
    have := this []
    simpa [Str.unspace] using this
  rw [e1, e2]
  obtain ⟨d, u, e, hd, -⟩ := hb.2
  exact wktRe_find tag body h0 ht (by rw [e]; simp) hn (by intro c hc; rw [e] at hc; simp at hc; subst hc; exact hd)

theorem nl_xy {p : Point F} (h : GoodP T p) : '\n' ∉ xyText T p := xy_not_mem h (by decide) (by decide)
theorem nl_xyz {p : PointZ F} (h : GoodPZ T p) : '\n' ∉ xyzText T p := xyz_not_mem h (by decide) (by decide)
theorem nl_join {ws : List (List Char)} (h : ∀ w ∈ ws, '\n' ∉ w) : '\n' ∉ Str.join ',' ws := fun hm => by
  rcases Str.mem_join hm with e | ⟨w, hw, hc⟩
  · revert e; decide
  · exact h w hw hc
theorem nl_paren {ws : List (List Char)} (h : ∀ w ∈ ws, '\n' ∉ w) : '\n' ∉ paren ws := by
  unfold paren
  simp only [List.mem_cons, List.mem_append, not_or, List.not_mem_nil, not_false_eq_true, and_true]
  exact ⟨by decide, nl_join h, by decide⟩

theorem map_piece {α : Type} {f : α → List Char} {l : List α} (h : ∀ a ∈ l, Piece (f a)) : ∀ w ∈ l.map f, Piece w := by
  intro w hw; obtain ⟨a, ha, rfl⟩ := List.mem_map.mp hw; exact h a ha
theorem map_nl {α : Type} {f : α → List Char} {l : List α} (h : ∀ a ∈ l, '\n' ∉ f a) : ∀ w ∈ l.map f, '\n' ∉ w := by
  intro w hw; obtain ⟨a, ha, rfl⟩ := List.mem_map.mp hw; exact h a ha

end GoGeo.Wkt
