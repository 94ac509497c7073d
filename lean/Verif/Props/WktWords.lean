import Verif.Props.Wkt64
import Verif.Spec.Words

/-!
# Points, lines and multipoints of arbitrary words: C118
-/

set_option linter.unusedSectionVars false

namespace GoGeo
open Wkt GoFloat

variable {F : Type} [GoFloat F] {T : NumText F}

/-- first and last character are not special -/
structure Tidy (w : List Char) : Prop where
  hd : ∃ c u, w = c :: u ∧ ¬ notInNumber c
  lst : ∃ c u, w = u ++ [c] ∧ ¬ notInNumber c

theorem Word.tidy {w : List Char} (h : Word w) : Tidy w := by
  obtain ⟨h0, h⟩ := h
  constructor
  · cases w with
    | nil => exact absurd rfl h0
    | cons c u => exact ⟨c, u, rfl, h c (by simp)⟩
  · exact ⟨w.getLast h0, w.dropLast, (List.dropLast_append_getLast h0).symm, h _ (List.getLast_mem h0)⟩

theorem Tidy.sep {u v : List Char} (hu : Tidy u) (hv : Tidy v) (c : Char) : Tidy (u ++ c :: v) := by
  obtain ⟨a, u', rfl, ha⟩ := hu.hd
  obtain ⟨d, v', rfl, hd⟩ := hv.lst
  exact ⟨⟨a, u' ++ c :: (v' ++ [d]), by simp, ha⟩, ⟨d, a :: (u' ++ c :: v'), by simp, hd⟩⟩

theorem tidy_join (sep : Char) : ∀ ws : List (List Char), ws ≠ [] → (∀ w ∈ ws, Tidy w) → Tidy (Str.join sep ws)
  | [], h, _ => absurd rfl h
  | [w], _, h => h w (by simp)
  | w :: v :: ws, _, h => (h w (by simp)).sep (tidy_join sep (v :: ws) (by simp) fun x hx => h x (by simp [hx])) sep

theorem Tidy.ends {w : List Char} (h : Tidy w) (d : Char) (hd : notInNumber d) :
    (∀ c, w.head? = some c → (c == d) = false) ∧ ∀ c, w.getLast? = some c → (c == d) = false := by
  obtain ⟨a, u, e, ha⟩ := h.hd
  obtain ⟨b, v, e', hb⟩ := h.lst
  constructor
  · intro c hc
    rw [e] at hc; simp at hc; subst hc
    rw [beq_eq_false_iff_ne]; rintro rfl; exact ha hd
  · intro c hc
    rw [e'] at hc; simp at hc; subst hc
    rw [beq_eq_false_iff_ne]; rintro rfl; exact hb hd

theorem Tidy.trim {w : List Char} (h : Tidy w) : Str.trim (· == ' ') w = w := by
  obtain ⟨a, b⟩ := h.ends ' ' (by simp [notInNumber])
  unfold Str.trim
  rw [Str.trimLeft_id _ w a, Str.trimRight_id _ w b]

theorem Tidy.unparen {w : List Char} (h : Tidy w) : Wkt.unparen w = w := by
  unfold Wkt.unparen
  rw [Str.trimLeft_id _ w (h.ends '(' (by simp [notInNumber])).1, Str.trimRight_id _ w (h.ends ')' (by simp [notInNumber])).2]

theorem fields_tidy {ws : List (List Char)} (h : Fields ws) : Tidy (Str.join ' ' ws) := tidy_join ' ' ws h.1 fun w hw => (h.2 w hw).tidy

theorem fields_not_mem {ws : List (List Char)} (h : Fields ws) {d : Char} (hd : notInNumber d) (hs : d ≠ ' ') : d ∉ Str.join ' ' ws := fun hm => by
  rcases Str.mem_join hm with e | ⟨w, hw, hc⟩
  · exact hs e
  · exact (h.2 w hw).2 d hc hd

theorem fields_split {ws : List (List Char)} (h : Fields ws) : Str.split ' ' (Str.join ' ' ws) = ws :=
  Str.split_join ' ' ws h.1 fun w hw hm => (h.2 w hw).2 ' ' hm (by simp [notInNumber])

theorem fields_piece {ws : List (List Char)} (h : Fields ws) : Piece (Str.join ' ' ws) := by
  obtain ⟨c, u, e, hc⟩ := (fields_tidy h).hd
  refine ⟨stable_of_not_mem (fields_not_mem h (by simp [notInNumber]) (by decide)), c, u, e, ?_, fun hs => hc (by simp [notInNumber, hs])⟩
  unfold notInNumber at hc
  simp only [not_or] at hc
  simp [isWs, hc]

theorem words_piece {ps : List (List (List Char))} (h0 : ps ≠ []) (h : ∀ p ∈ ps, Fields p) :
    Piece (Str.join ',' (ps.map (Str.join ' '))) ∧ '\n' ∉ Str.join ',' (ps.map (Str.join ' ')) ∧ Tidy (Str.join ',' (ps.map (Str.join ' '))) ∧
      Str.split ',' (Str.join ',' (ps.map (Str.join ' '))) = ps.map (Str.join ' ') :=
  ⟨piece_join _ (by simpa using h0) (map_piece fun p hp => fields_piece (h p hp)),
    nl_join (map_nl fun p hp => fields_not_mem (h p hp) (by simp [notInNumber]) (by decide)),
    tidy_join _ _ (by simpa using h0) fun w hw => by obtain ⟨p, hp, rfl⟩ := List.mem_map.1 hw; exact fields_tidy (h p hp),
    Str.split_join ',' _ (by simpa using h0) fun w hw => by
      obtain ⟨p, hp, rfl⟩ := List.mem_map.1 hw; exact fields_not_mem (h p hp) (by simp [notInNumber]) (by decide)⟩

/-- how the fields of a position and the result of reading them are related -/
def PosRel (T : NumText F) (ws : List (List Char)) : Pos F → Prop
  | .xy p => IsXY T ws p ∧ ws.length = 2
  | .xyz p => IsXYZ T ws p
  | .other p => IsXY T ws p ∧ 4 ≤ ws.length

theorem PosRel.readable {ws : List (List Char)} {q : Pos F} (h : PosRel T ws q) : ReadablePos T ws := by
  cases q with
  | xy p => exact .inl ⟨p, h.1⟩
  | xyz p => exact .inr ⟨p, h⟩
  | other p => exact .inl ⟨p, h.1⟩

theorem not_lone_of_readable {ws : List (List Char)} (h : ReadablePos T ws) : ¬ LonePos T ws := by
  rintro ⟨w, x, rfl, -⟩
  rcases h with ⟨p, a, b, r, e, -⟩ | ⟨p, a, b, c, e, -⟩ <;> simp at e

theorem parsePos_words {ws : List (List Char)} (h0 : ws ≠ []) :
    (LonePos T ws ∧ parsePos T ws = .error .index) ∨ (¬ LonePos T ws ∧ ¬ ReadablePos T ws ∧ parsePos T ws = .ok none) ∨
      ∃ q, PosRel T ws q ∧ parsePos T ws = .ok (some q) := by
  match ws, h0 with
  | [a], _ =>
    cases ha : T.parse a with
    | some x => exact .inl ⟨⟨a, x, rfl, ha⟩, by simp [parsePos, ha]⟩
    | none =>
      refine .inr (.inl ⟨?_, ?_, by simp [parsePos, ha]⟩)
      · rintro ⟨w, x, e, hx⟩
        cases e; rw [ha] at hx; cases hx
      · rintro (⟨p, _, _, r, e, -⟩ | ⟨p, _, _, c, e, -⟩) <;> simp at e
  | [a, b], _ =>
    cases ha : T.parse a with
    | none =>
      refine .inr (.inl ⟨fun ⟨w, x, e, _⟩ => by simp at e, ?_, by simp [parsePos, ha]⟩)
      rintro (⟨p, _, _, r, e, -, h, -⟩ | ⟨p, _, _, c, e, -⟩)
      · cases e; rw [ha] at h; cases h
      · simp at e
    | some x =>
      cases hb : T.parse b with
      | none =>
        refine .inr (.inl ⟨fun ⟨w, x, e, _⟩ => by simp at e, ?_, by simp [parsePos, ha, hb]⟩)
        rintro (⟨p, _, _, r, e, -, -, h⟩ | ⟨p, _, _, c, e, -⟩)
        · cases e; rw [hb] at h; cases h
        · simp at e
      | some y => exact .inr (.inr ⟨.xy ⟨x, y⟩, ⟨⟨a, b, [], rfl, by simp, ha, hb⟩, rfl⟩, by simp [parsePos, ha, hb]⟩)
  | [a, b, c], _ =>
    have nl : ¬ LonePos T [a, b, c] := fun ⟨w, x, e, _⟩ => by simp at e
    cases ha : T.parse a with
    | none =>
      refine .inr (.inl ⟨nl, ?_, by simp [parsePos, ha]⟩)
      rintro (⟨p, _, _, r, e, -, h, -⟩ | ⟨p, _, _, c, e, h, -⟩) <;> cases e <;> rw [ha] at h <;> cases h
    | some x =>
      cases hb : T.parse b with
      | none =>
        refine .inr (.inl ⟨nl, ?_, by simp [parsePos, ha, hb]⟩)
        rintro (⟨p, _, _, r, e, -, -, h⟩ | ⟨p, _, _, c, e, -, h, -⟩) <;> cases e <;> rw [hb] at h <;> cases h
      | some y =>
        cases hc : T.parse c with
        | none =>
          refine .inr (.inl ⟨nl, ?_, by simp [parsePos, ha, hb, hc]⟩)
          rintro (⟨p, _, _, r, e, h, -⟩ | ⟨p, _, _, c, e, -, -, h⟩)
          · cases e; exact h rfl
          · cases e; rw [hc] at h; cases h
        | some z => exact .inr (.inr ⟨.xyz ⟨x, y, z⟩, ⟨a, b, c, rfl, ha, hb, hc⟩, by simp [parsePos, ha, hb, hc]⟩)
  | a :: b :: c :: d :: r, _ =>
    have nl : ¬ LonePos T (a :: b :: c :: d :: r) := fun ⟨w, x, e, _⟩ => by simp at e
    cases ha : T.parse a with
    | none =>
      refine .inr (.inl ⟨nl, ?_, by simp [parsePos, ha]⟩)
      rintro (⟨p, _, _, r, e, -, h, -⟩ | ⟨p, _, _, c, e, h, -⟩) <;> cases e
      rw [ha] at h; cases h
    | some x =>
      cases hb : T.parse b with
      | none =>
        refine .inr (.inl ⟨nl, ?_, by simp [parsePos, ha, hb]⟩)
        rintro (⟨p, _, _, r, e, -, -, h⟩ | ⟨p, _, _, c, e, -, h, -⟩) <;> cases e
        rw [hb] at h; cases h
      | some y => exact .inr (.inr ⟨.other ⟨x, y⟩, ⟨⟨a, b, c :: d :: r, rfl, by simp, ha, hb⟩, by simp⟩, by simp [parsePos, ha, hb]⟩)

/-- the first position that cannot be read is a single number -/
def Stops (T : NumText F) (ps : List (List (List Char))) : Prop := ∃ pre q post, ps = pre ++ q :: post ∧ (∀ p ∈ pre, ReadablePos T p) ∧ LonePos T q

theorem stops_cons {p : List (List Char)} {ps : List (List (List Char))} : Stops T (p :: ps) ↔ LonePos T p ∨ (ReadablePos T p ∧ Stops T ps) := by
  constructor
  · rintro ⟨pre, q, post, e, h1, h2⟩
    cases pre with
    | nil => simp at e; exact .inl (e.1 ▸ h2)
    | cons a pre =>
      simp at e
      exact .inr ⟨e.1 ▸ h1 a (by simp), pre, q, post, e.2, fun x hx => h1 x (by simp [hx]), h2⟩
  · rintro (h | ⟨h, pre, q, post, rfl, h1, h2⟩)
    · exact ⟨[], p, ps, rfl, by simp, h⟩
    · refine ⟨p :: pre, q, post, rfl, ?_, h2⟩
      intro x hx
      rcases List.mem_cons.1 hx with rfl | hx
      · exact h
      · exact h1 x hx

theorem parseTerms_words (strip : List Char → List Char) (hs : ∀ w, Tidy w → strip w = w) : ∀ ps : List (List (List Char)), (∀ p ∈ ps, Fields p) →
    (Stops T ps ∧ parseTerms T strip (ps.map (Str.join ' ')) = .error .index) ∨
    (¬ Stops T ps ∧ ¬ (∀ p ∈ ps, ReadablePos T p) ∧ parseTerms T strip (ps.map (Str.join ' ')) = .ok none) ∨
    ∃ qs, List.Forall₂ (PosRel T) ps qs ∧ parseTerms T strip (ps.map (Str.join ' ')) = .ok (some qs)
  | [], _ => .inr (.inr ⟨[], .nil, rfl⟩)
  | p :: ps, h => by
    have hp := h p (by simp)
    rw [List.map_cons, parseTerms, hs _ (fields_tidy hp), fields_split hp, stops_cons]
    rcases parsePos_words (T := T) hp.1 with ⟨a, e⟩ | ⟨a, b, e⟩ | ⟨q, a, e⟩
    · exact .inl ⟨.inl a, by rw [e]; rfl⟩
    · refine .inr (.inl ⟨?_, fun hr => b (hr p (by simp)), by rw [e]; rfl⟩)
      rintro (h | h)
      · exact a h
      · exact b h.1
    · have nl := not_lone_of_readable a.readable
      rcases parseTerms_words strip hs ps (fun x hx => h x (by simp [hx])) with ⟨c, e'⟩ | ⟨c, d, e'⟩ | ⟨qs, c, e'⟩
      · exact .inl ⟨.inr ⟨a.readable, c⟩, by rw [e, e']; rfl⟩
      · refine .inr (.inl ⟨?_, fun hr => d fun x hx => hr x (by simp [hx]), by rw [e, e']; rfl⟩)
        rintro (h | h)
        · exact nl h
        · exact c h.2
      · exact .inr (.inr ⟨q :: qs, .cons a c, by rw [e, e']; rfl⟩)

theorem isXY_det {ws : List (List Char)} {p q : Point F} (hp : IsXY T ws p) (hq : IsXY T ws q) : p = q := by
  obtain ⟨a, b, r, rfl, -, h1, h2⟩ := hp
  obtain ⟨a', b', r', e, -, h3, h4⟩ := hq
  cases e
  rw [h1] at h3; rw [h2] at h4
  cases p; cases q; simp_all

theorem isXYZ_det {ws : List (List Char)} {p q : PointZ F} (hp : IsXYZ T ws p) (hq : IsXYZ T ws q) : p = q := by
  obtain ⟨a, b, r, rfl, h1, h2, h3⟩ := hp
  obtain ⟨a', b', r', e, h4, h5, h6⟩ := hq
  cases e
  rw [h1] at h4; rw [h2] at h5; rw [h3] at h6
  cases p; cases q; simp_all

theorem isXY_len {ws : List (List Char)} {p : Point F} (h : IsXY T ws p) : ws.length ≠ 3 := by
  obtain ⟨a, b, r, rfl, h, -⟩ := h
  simp; omega

theorem isXYZ_len {ws : List (List Char)} {p : PointZ F} (h : IsXYZ T ws p) : ws.length = 3 := by
  obtain ⟨a, b, r, rfl, -⟩ := h
  rfl

theorem det_all {α β : Type} {R : α → β → Prop} (hR : ∀ a x y, R a x → R a y → x = y) : ∀ {l : List α} {m n : List β}, List.Forall₂ R l m → List.Forall₂ R l n → m = n
  | _, _, _, .nil, .nil => rfl
  | _, _, _, .cons a h, .cons b k => by rw [hR _ _ _ a b, det_all hR h k]

theorem rel_ls : ∀ {ps : List (List (List Char))} {qs : List (Pos F)}, List.Forall₂ (PosRel T) ps qs →
    List.Forall₂ (IsXY T) (ps.filter fun p => p.length = 2) (qs.filterMap Pos.ls)
  | _, _, .nil => .nil
  | p :: ps, q :: qs, .cons h hs => by
    have ih := rel_ls hs
    cases q with
    | xy x => rw [List.filter_cons_of_pos (by simpa using h.2)]; exact .cons h.1 ih
    | xyz x => rw [List.filter_cons_of_neg (by simpa using by rw [isXYZ_len h]; omega)]; exact ih
    | other x => rw [List.filter_cons_of_neg (by have := h.2; simpa using by omega)]; exact ih

theorem rel_mp : ∀ {ps : List (List (List Char))} {qs : List (Pos F)}, List.Forall₂ (PosRel T) ps qs →
    List.Forall₂ (IsXY T) (ps.filter fun p => p.length ≠ 3) (qs.filterMap Pos.mp)
  | _, _, .nil => .nil
  | p :: ps, q :: qs, .cons h hs => by
    have ih := rel_mp hs
    cases q with
    | xy x => rw [List.filter_cons_of_pos (by have := h.2; simpa using by omega)]; exact .cons h.1 ih
    | xyz x => rw [List.filter_cons_of_neg (by simpa using isXYZ_len h)]; exact ih
    | other x => rw [List.filter_cons_of_pos (by have := h.2; simpa using by omega)]; exact .cons h.1 ih

theorem rel_z : ∀ {ps : List (List (List Char))} {qs : List (Pos F)}, List.Forall₂ (PosRel T) ps qs →
    List.Forall₂ (IsXYZ T) (ps.filter fun p => p.length = 3) (qs.filterMap Pos.z)
  | _, _, .nil => .nil
  | p :: ps, q :: qs, .cons h hs => by
    have ih := rel_z hs
    cases q with
    | xy x => rw [List.filter_cons_of_neg (by have := h.2; simpa using by omega)]; exact ih
    | xyz x => rw [List.filter_cons_of_pos (by simpa using isXYZ_len h)]; exact .cons h ih
    | other x => rw [List.filter_cons_of_neg (by have := h.2; simpa using by omega)]; exact ih

theorem rel_readable {ps : List (List (List Char))} {qs : List (Pos F)} (h : List.Forall₂ (PosRel T) ps qs) : ∀ p ∈ ps, ReadablePos T p := by
  induction h with
  | nil => simp
  | cons a _ ih =>
    intro p hp
    rcases List.mem_cons.1 hp with rfl | hp
    · exact a.readable
    · exact ih p hp

theorem not_stops {ps : List (List (List Char))} (h : ∀ p ∈ ps, ReadablePos T p) : ¬ Stops T ps := by
  rintro ⟨pre, q, post, rfl, -, h2⟩
  exact not_lone_of_readable (h q (by simp)) h2

/-- **C118 (points).** `POINT(…)` with any words: two numbers give a point, three a point with Z; with four or more fields only the first two are looked at.
A single number panics, and everything else is an error. -/
theorem C118_point (ws : List (List Char)) (h : Fields ws) :
    (∀ g, Decode T (wordsText "POINT" [ws]) = .ok (some g) ↔ (∃ p, g = .point p ∧ IsXY T ws p) ∨ ∃ p, g = .pointZ p ∧ IsXYZ T ws p) ∧
    ∀ e, Decode T (wordsText "POINT" [ws]) = .error e ↔ e = .index ∧ LonePos T ws := by
  have hd : Decode T (wordsText "POINT" [ws]) = PointFromWKT T (Str.join ' ' ws) :=
    decode_point (fields_piece h) (fields_not_mem h (by simp [notInNumber]) (by decide))
  rw [hd]
  unfold PointFromWKT
  rw [(fields_tidy h).trim, fields_split h]
  rcases parsePos_words (T := T) h.1 with ⟨a, e⟩ | ⟨a, b, e⟩ | ⟨q, a, e⟩ <;> rw [e]
  · constructor
    · intro g
      refine ⟨fun hh => (by cases hh), ?_⟩
      rintro (⟨p, -, hp⟩ | ⟨p, -, hp⟩)
      · exact absurd a (not_lone_of_readable (.inl ⟨p, hp⟩))
      · exact absurd a (not_lone_of_readable (.inr ⟨p, hp⟩))
    · intro e'
      exact ⟨fun hh => by cases hh; exact ⟨rfl, a⟩, fun hh => by rw [hh.1]; rfl⟩
  · constructor
    · intro g
      refine ⟨fun hh => (by cases hh), ?_⟩
      rintro (⟨p, -, hp⟩ | ⟨p, -, hp⟩)
      · exact absurd (.inl ⟨p, hp⟩) b
      · exact absurd (.inr ⟨p, hp⟩) b
    · intro e'
      exact ⟨fun hh => (by cases hh), fun hh => absurd hh.2 a⟩
  · have nl := not_lone_of_readable a.readable
    refine ⟨fun g => ?_, fun e' => ⟨fun hh => (by cases q <;> cases hh), fun hh => absurd hh.2 nl⟩⟩
    cases q with
    | xy p =>
      constructor
      · intro hh; cases hh; exact .inl ⟨p, rfl, a.1⟩
      · rintro (⟨q, rfl, hq⟩ | ⟨q, rfl, hq⟩)
        · rw [isXY_det hq a.1]; rfl
        · exact absurd (isXYZ_len hq) (isXY_len a.1)
    | xyz p =>
      constructor
      · intro hh; cases hh; exact .inr ⟨p, rfl, a⟩
      · rintro (⟨q, rfl, hq⟩ | ⟨q, rfl, hq⟩)
        · exact absurd (isXYZ_len a) (isXY_len hq)
        · rw [isXYZ_det hq a]; rfl
    | other p =>
      constructor
      · intro hh; cases hh; exact .inl ⟨p, rfl, a.1⟩
      · rintro (⟨q, rfl, hq⟩ | ⟨q, rfl, hq⟩)
        · rw [isXY_det hq a.1]; rfl
        · exact absurd (isXYZ_len hq) (isXY_len a.1)

/-- the common part of lines and multipoints -/
theorem words_result {ps : List (List (List Char))} {qs : List (Pos F)} (hr : List.Forall₂ (PosRel T) ps qs) (f : Pos F → Option (Point F)) (keep : List (List Char) → Bool)
    (hf : List.Forall₂ (IsXY T) (ps.filter keep) (qs.filterMap f)) (A : List (Point F) → Geometry F) (B : List (PointZ F) → Geometry F) (g : Geometry F) :
    (if qs.filterMap f ≠ [] then (.ok (some (A (qs.filterMap f))) : Go (Option (Geometry F)))
      else if qs.filterMap Pos.z ≠ [] then .ok (some (B (qs.filterMap Pos.z))) else .ok none) = .ok (some g) ↔
    (∃ l, g = A l ∧ l ≠ [] ∧ List.Forall₂ (IsXY T) (ps.filter keep) l) ∨
      ∃ l, g = B l ∧ l ≠ [] ∧ (∀ p ∈ ps, keep p = false) ∧ List.Forall₂ (IsXYZ T) (ps.filter fun p => p.length = 3) l := by
  have hz := rel_z hr
  have k : qs.filterMap f = [] ↔ ∀ p ∈ ps, keep p = false := by
    have := hf.length_eq
    rw [← List.length_eq_zero_iff, ← this, List.length_eq_zero_iff, List.filter_eq_nil_iff]
    simp
  by_cases h1 : qs.filterMap f = []
  · rw [if_neg (by simpa using h1)]
    have h1' := k.1 h1
    rw [h1] at hf
    by_cases h2 : qs.filterMap Pos.z = []
    · rw [if_neg (by simpa using h2)]
      rw [h2] at hz
      refine ⟨fun hh => (by cases hh), ?_⟩
      rintro (⟨l, -, h, hl⟩ | ⟨l, -, h, -, hl⟩)
      · exact absurd (det_all (R := IsXY T) (fun _ _ _ => isXY_det) hl hf) h
      · exact absurd (det_all (R := IsXYZ T) (fun _ _ _ => isXYZ_det) hl hz) h
    · rw [if_pos h2]
      constructor
      · intro hh; cases hh; exact .inr ⟨_, rfl, h2, h1', hz⟩
      · rintro (⟨l, -, h, hl⟩ | ⟨l, rfl, h, -, hl⟩)
        · exact absurd (det_all (R := IsXY T) (fun _ _ _ => isXY_det) hl hf) h
        · rw [det_all (R := IsXYZ T) (fun _ _ _ => isXYZ_det) hl hz]
  · rw [if_pos h1]
    constructor
    · intro hh; cases hh; exact .inl ⟨_, rfl, h1, hf⟩
    · rintro (⟨l, rfl, h, hl⟩ | ⟨l, -, h, hk, -⟩)
      · rw [det_all (R := IsXY T) (fun _ _ _ => isXY_det) hl hf]
      · exact absurd (k.2 hk) h1

/-- **C118 (lines).** `LINESTRING(…)` with any words: if all positions can be read, the line consists of those with two fields; if there are none of these, of those with
three (and if there are none of these either, the text is rejected). `Decode` panics exactly if the first position that cannot be read is a single number;
everything else is an error. -/
theorem C118_line (ps : List (List (List Char))) (h0 : ps ≠ []) (h : ∀ p ∈ ps, Fields p) :
    (∀ g, Decode T (wordsText "LINESTRING" ps) = .ok (some g) ↔ (∀ p ∈ ps, ReadablePos T p) ∧
      ((∃ l, g = .lineString l ∧ l ≠ [] ∧ List.Forall₂ (IsXY T) (ps.filter fun p => p.length = 2) l) ∨
        ∃ l, g = .lineStringZ l ∧ l ≠ [] ∧ (∀ p ∈ ps, p.length ≠ 2) ∧ List.Forall₂ (IsXYZ T) (ps.filter fun p => p.length = 3) l)) ∧
    ∀ e, Decode T (wordsText "LINESTRING" ps) = .error e ↔
      e = .index ∧ ∃ pre q post, ps = pre ++ q :: post ∧ (∀ p ∈ pre, ReadablePos T p) ∧ LonePos T q := by
  obtain ⟨hp, hn, ht, hs⟩ := words_piece h0 h
  have hd : Decode T (wordsText "LINESTRING" ps) = LineStringFromWKT T (Str.join ',' (ps.map (Str.join ' '))) := decode_line hp hn
  rw [hd]
  unfold LineStringFromWKT
  rw [ht.unparen, hs]
  rcases parseTerms_words (T := T) _ (fun w hw => Tidy.trim hw) ps h with ⟨a, e⟩ | ⟨a, b, e⟩ | ⟨qs, a, e⟩ <;> rw [e]
  · exact ⟨fun g => ⟨fun hh => (by cases hh), fun hh => absurd a (not_stops hh.1)⟩, fun e' => ⟨fun hh => by cases hh; exact ⟨rfl, a⟩, fun hh => by rw [hh.1]; rfl⟩⟩
  · exact ⟨fun g => ⟨fun hh => (by cases hh), fun hh => absurd hh.1 b⟩, fun e' => ⟨fun hh => (by cases hh), fun hh => absurd hh.2 a⟩⟩
  · have hr := rel_readable a
    constructor
    · intro g
      rw [and_iff_right hr]
      have := words_result a Pos.ls _ (rel_ls a) .lineString .lineStringZ g
      simp only [decide_eq_false_iff_not] at this
      exact this
    · intro e'
      refine ⟨fun hh => ?_, fun hh => absurd hh.2 (not_stops hr)⟩
      change (if qs.filterMap Pos.ls ≠ [] then (.ok (some (.lineString (qs.filterMap Pos.ls))) : Go (Option (Geometry F)))
        else if qs.filterMap Pos.z ≠ [] then .ok (some (.lineStringZ (qs.filterMap Pos.z))) else .ok none) = .error e' at hh
      split_ifs at hh

/-- **C118 (multipoints).** As for lines; here positions of four or more fields count as positions of two. -/
theorem C118_multiPoint (ps : List (List (List Char))) (h0 : ps ≠ []) (h : ∀ p ∈ ps, Fields p) :
    (∀ g, Decode T (wordsText "MULTIPOINT" ps) = .ok (some g) ↔ (∀ p ∈ ps, ReadablePos T p) ∧
      ((∃ l, g = .multiPoint l ∧ l ≠ [] ∧ List.Forall₂ (IsXY T) (ps.filter fun p => p.length ≠ 3) l) ∨
        ∃ l, g = .multiPointZ l ∧ l ≠ [] ∧ (∀ p ∈ ps, p.length = 3) ∧ List.Forall₂ (IsXYZ T) (ps.filter fun p => p.length = 3) l)) ∧
    ∀ e, Decode T (wordsText "MULTIPOINT" ps) = .error e ↔
      e = .index ∧ ∃ pre q post, ps = pre ++ q :: post ∧ (∀ p ∈ pre, ReadablePos T p) ∧ LonePos T q := by
  obtain ⟨hp, hn, ht, hs⟩ := words_piece h0 h
  have hd : Decode T (wordsText "MULTIPOINT" ps) = MultiPointFromWKT T (Str.join ',' (ps.map (Str.join ' '))) := decode_multiPoint hp hn
  rw [hd]
  unfold MultiPointFromWKT
  rw [ht.unparen, ht.trim, hs]
  rcases parseTerms_words (T := T) _ (fun w hw => Tidy.unparen hw) ps h with ⟨a, e⟩ | ⟨a, b, e⟩ | ⟨qs, a, e⟩ <;> rw [e]
  · exact ⟨fun g => ⟨fun hh => (by cases hh), fun hh => absurd a (not_stops hh.1)⟩, fun e' => ⟨fun hh => by cases hh; exact ⟨rfl, a⟩, fun hh => by rw [hh.1]; rfl⟩⟩
  · exact ⟨fun g => ⟨fun hh => (by cases hh), fun hh => absurd hh.1 b⟩, fun e' => ⟨fun hh => (by cases hh), fun hh => absurd hh.2 a⟩⟩
  · have hr := rel_readable a
    constructor
    · intro g
      rw [and_iff_right hr]
      have := words_result a Pos.mp _ (rel_mp a) .multiPoint .multiPointZ g
      simp only [decide_eq_false_iff_not, not_not] at this
      exact this
    · intro e'
      refine ⟨fun hh => ?_, fun hh => absurd hh.2 (not_stops hr)⟩
      change (if qs.filterMap Pos.mp ≠ [] then (.ok (some (.multiPoint (qs.filterMap Pos.mp))) : Go (Option (Geometry F)))
        else if qs.filterMap Pos.z ≠ [] then .ok (some (.multiPointZ (qs.filterMap Pos.z))) else .ok none) = .error e' at hh
      split_ifs at hh

/-- **C118 is false**: after two numbers any two or more words are accepted, `POINT(1 2 foo bar)` for instance; in a line such a position is left out. -/
theorem C118_junk_false (a b : List Char) (x y : F) (ha : T.parse a = some x) (hb : T.parse b = some y) (wa : Word a) (wb : Word b) (junk : List (List Char))
    (hj : ∀ w ∈ junk, Word w) (h2 : 2 ≤ junk.length) :
    Decode T (wordsText "POINT" [a :: b :: junk]) = .ok (some (.point ⟨x, y⟩)) ∧
      Decode T (wordsText "LINESTRING" [[a, b], a :: b :: junk, [b, a]]) = .ok (some (.lineString [⟨x, y⟩, ⟨y, x⟩])) := by
  have hf : Fields (a :: b :: junk) := ⟨by simp, fun w hw => by
    simp only [List.mem_cons] at hw
    rcases hw with rfl | rfl | hw
    · exact wa
    · exact wb
    · exact hj w hw⟩
  have f1 : Fields [a, b] := ⟨by simp, by simp [wa, wb]⟩
  have f2 : Fields [b, a] := ⟨by simp, by simp [wa, wb]⟩
  have i0 : IsXY T (a :: b :: junk) ⟨x, y⟩ := ⟨a, b, junk, rfl, by omega, ha, hb⟩
  have i1 : IsXY T [a, b] ⟨x, y⟩ := ⟨a, b, [], rfl, by simp, ha, hb⟩
  have i2 : IsXY T [b, a] ⟨y, x⟩ := ⟨b, a, [], rfl, by simp, hb, ha⟩
  refine ⟨((C118_point _ hf).1 _).2 (.inl ⟨_, rfl, i0⟩), ((C118_line _ (by simp) ?_).1 _).2 ⟨?_, .inl ⟨_, rfl, by simp, ?_⟩⟩⟩
  · simp [hf, f1, f2]
  · simp only [List.mem_cons, List.not_mem_nil, or_false]
    rintro p (rfl | rfl | rfl)
    · exact .inl ⟨_, i1⟩
    · exact .inl ⟨_, i0⟩
    · exact .inl ⟨_, i2⟩
  · rw [List.filter_cons_of_pos (by simp), List.filter_cons_of_neg (by simp; rintro rfl; simp at h2), List.filter_cons_of_pos (by simp)]
    exact .cons i1 (.cons i2 .nil)

/-! ### C53 once more -/

/-- the number is written as a word that reads back -/
def Writable (T : NumText F) (x : F) : Prop := T.parse (T.fmt x) = some x ∧ Word (T.fmt x)

theorem writable_xy {p : Point F} (h : Writable T p.X ∧ Writable T p.Y) : Fields [T.fmt p.X, T.fmt p.Y] ∧ IsXY T [T.fmt p.X, T.fmt p.Y] p :=
  ⟨⟨by simp, by simp [h.1.2, h.2.2]⟩, _, _, [], rfl, by simp, h.1.1, h.2.1⟩

theorem writable_xyz {p : PointZ F} (h : Writable T p.X ∧ Writable T p.Y ∧ Writable T p.Z) :
    Fields [T.fmt p.X, T.fmt p.Y, T.fmt p.Z] ∧ IsXYZ T [T.fmt p.X, T.fmt p.Y, T.fmt p.Z] p :=
  ⟨⟨by simp, by simp [h.1.2, h.2.1.2, h.2.2.2]⟩, _, _, _, rfl, h.1.1, h.2.1.1, h.2.2.1⟩

theorem forall₂_map {α β : Type} {R : β → α → Prop} {f : α → β} : ∀ {l : List α}, (∀ a ∈ l, R (f a) a) → List.Forall₂ R (l.map f) l
  | [], _ => .nil
  | a :: l, h => .cons (h a (by simp)) (forall₂_map fun b hb => h b (by simp [hb]))

/-- **C53.** Decoding the text of a point, line or multipoint gives it back if its coordinates are written as words that read back. -/
theorem C53_words (g : Geometry F) (h : SimpleWith (Writable T) g) : Decode T (Encode T g) = .ok (some g) := by
  have m2 : ∀ ps : List (Point F), Str.join ',' (ps.map (xyText T)) = Str.join ',' ((ps.map fun p => [T.fmt p.X, T.fmt p.Y]).map (Str.join ' ')) := fun ps => by
    rw [List.map_map]; rfl
  have m3 : ∀ ps : List (PointZ F), Str.join ',' (ps.map (xyzText T)) = Str.join ',' ((ps.map fun p => [T.fmt p.X, T.fmt p.Y, T.fmt p.Z]).map (Str.join ' ')) := fun ps => by
    rw [List.map_map]; rfl
  have k2 : ∀ {ps : List (Point F)}, (∀ p ∈ ps, Writable T p.X ∧ Writable T p.Y) → (∀ p ∈ ps.map fun p => [T.fmt p.X, T.fmt p.Y], Fields p) ∧
      (∀ p ∈ ps.map fun p => [T.fmt p.X, T.fmt p.Y], ReadablePos T p) ∧ List.Forall₂ (IsXY T) (ps.map fun p => [T.fmt p.X, T.fmt p.Y]) ps := fun {ps} h => by
    refine ⟨?_, ?_, forall₂_map fun p hp => (writable_xy (h p hp)).2⟩ <;> intro q hq <;> obtain ⟨p, hp, rfl⟩ := List.mem_map.1 hq
    · exact (writable_xy (h p hp)).1
    · exact .inl ⟨p, (writable_xy (h p hp)).2⟩
  have k3 : ∀ {ps : List (PointZ F)}, (∀ p ∈ ps, Writable T p.X ∧ Writable T p.Y ∧ Writable T p.Z) → (∀ p ∈ ps.map fun p => [T.fmt p.X, T.fmt p.Y, T.fmt p.Z], Fields p) ∧
      (∀ p ∈ ps.map fun p => [T.fmt p.X, T.fmt p.Y, T.fmt p.Z], ReadablePos T p) ∧
      List.Forall₂ (IsXYZ T) (ps.map fun p => [T.fmt p.X, T.fmt p.Y, T.fmt p.Z]) ps := fun {ps} h => by
    refine ⟨?_, ?_, forall₂_map fun p hp => (writable_xyz (h p hp)).2⟩ <;> intro q hq <;> obtain ⟨p, hp, rfl⟩ := List.mem_map.1 hq
    · exact (writable_xyz (h p hp)).1
    · exact .inr ⟨p, (writable_xyz (h p hp)).2⟩
  cases g with
  | point p => exact ((C118_point _ (writable_xy h).1).1 _).2 (.inl ⟨p, rfl, (writable_xy h).2⟩)
  | pointZ p => exact ((C118_point _ (writable_xyz h).1).1 _).2 (.inr ⟨p, rfl, (writable_xyz h).2⟩)
  | lineString ps =>
    obtain ⟨a, b, c⟩ := k2 h.2
    have e : Encode T (.lineString ps) = wordsText "LINESTRING" (ps.map fun p => [T.fmt p.X, T.fmt p.Y]) := by unfold wordsText; rw [← m2]; rfl
    rw [e]
    refine ((C118_line _ (by simpa using h.1) a).1 _).2 ⟨b, .inl ⟨ps, rfl, h.1, ?_⟩⟩
    rwa [List.filter_eq_self.2 fun q hq => by obtain ⟨p, -, rfl⟩ := List.mem_map.1 hq; simp]
  | lineStringZ ps =>
    obtain ⟨a, b, c⟩ := k3 h.2
    have e : Encode T (.lineStringZ ps) = wordsText "LINESTRING" (ps.map fun p => [T.fmt p.X, T.fmt p.Y, T.fmt p.Z]) := by unfold wordsText; rw [← m3]; rfl
    rw [e]
    refine ((C118_line _ (by simpa using h.1) a).1 _).2 ⟨b, .inr ⟨ps, rfl, h.1, ?_, ?_⟩⟩
    · intro q hq; obtain ⟨p, -, rfl⟩ := List.mem_map.1 hq; simp
    rwa [List.filter_eq_self.2 fun q hq => by obtain ⟨p, -, rfl⟩ := List.mem_map.1 hq; simp]
  | multiPoint ps =>
    obtain ⟨a, b, c⟩ := k2 h.2
    have e : Encode T (.multiPoint ps) = wordsText "MULTIPOINT" (ps.map fun p => [T.fmt p.X, T.fmt p.Y]) := by unfold wordsText; rw [← m2]; rfl
    rw [e]
    refine ((C118_multiPoint _ (by simpa using h.1) a).1 _).2 ⟨b, .inl ⟨ps, rfl, h.1, ?_⟩⟩
    rwa [List.filter_eq_self.2 fun q hq => by obtain ⟨p, -, rfl⟩ := List.mem_map.1 hq; simp]
  | multiPointZ ps =>
    obtain ⟨a, b, c⟩ := k3 h.2
    have e : Encode T (.multiPointZ ps) = wordsText "MULTIPOINT" (ps.map fun p => [T.fmt p.X, T.fmt p.Y, T.fmt p.Z]) := by unfold wordsText; rw [← m3]; rfl
    rw [e]
    refine ((C118_multiPoint _ (by simpa using h.1) a).1 _).2 ⟨b, .inr ⟨ps, rfl, h.1, ?_, ?_⟩⟩
    · intro q hq; obtain ⟨p, -, rfl⟩ := List.mem_map.1 hq; simp
    rwa [List.filter_eq_self.2 fun q hq => by obtain ⟨p, -, rfl⟩ := List.mem_map.1 hq; simp]
  | _ => exact absurd h (by simp [SimpleWith])

/-- the model of `float64` has one NaN -/
theorem eq_nan {x : Float} (h : x.toModel.unpack = .notANumber) : x = nan := by
  have key : ∀ y : Float, y.toModel.unpack = .notANumber → y.toModel.toBits.toBitVec = Float.Model.UnpackedFloat.packedNaN Float.Model.Format.binary64 := fun y hy => by
    have h2 : Float.Model.UnpackedFloat.unpack Float.Model.Format.binary64 y.toModel.toBits.toBitVec = .notANumber := hy
    rw [F64.unpack_eq] at h2
    split at h2
    · rename_i h3
      split at h2
      · cases h2
      · rename_i h4
        exact y.toModel.valid.eq_packedNaN h3 h4
    · split at h2
      · split at h2 <;> cases h2
      · cases h2
  exact F64.float_bits_ext ((key x h).trans (key nan rfl).symm)

theorem writable_float (x : Float) : Writable Strconv.float64Text x := by
  have word : ∀ {w : List Char}, w ≠ [] → (∀ c ∈ w, (c == ' ' || c == '\t' || c == '\n' || c == '\r' || c == '\x0c' || c == ',' || c == '(' || c == ')') = false) → Word w := fun h0 h =>
    ⟨h0, fun c hc hn => by
      have := h c hc
      unfold notInNumber at hn
      rcases hn with rfl | rfl | rfl | rfl | rfl | rfl | rfl | rfl <;> simp at this⟩
  have fin : (∃ q, F64.valF x = .fin q) → Writable Strconv.float64Text x := fun hx => by
    have hr := Strconv.readsBack_float x hx
    refine ⟨hr.parse_fmt, hr.ne, fun c hc hn => ?_⟩
    rcases hr.plain c hc with h | h | h <;> unfold notInNumber at hn <;> rcases hn with rfl | rfl | rfl | rfl | rfl | rfl | rfl | rfl <;> revert h <;> decide
  cases hu : x.toModel.unpack with
  | notANumber =>
    have e : Strconv.float64Text.fmt x = ['N', 'a', 'N'] := by
      show Strconv.formatFloat x = _
      unfold Strconv.formatFloat; simp only [hu]
    refine ⟨?_, by rw [e]; exact word (by simp) (by decide)⟩
    rw [e, eq_nan hu]
    rfl
  | infinity s =>
    cases s with
    | positive =>
      have e : Strconv.float64Text.fmt x = ['+', 'I', 'n', 'f'] := by
        show Strconv.formatFloat x = _
        unfold Strconv.formatFloat; simp only [hu]
      refine ⟨?_, by rw [e]; exact word (by simp) (by decide)⟩
      rw [e, F64.float_ext_inf hu (g := inf) rfl]
      rfl
    | negative =>
      have e : Strconv.float64Text.fmt x = ['-', 'I', 'n', 'f'] := by
        show Strconv.formatFloat x = _
        unfold Strconv.formatFloat; simp only [hu]
      refine ⟨?_, by rw [e]; exact word (by simp) (by decide)⟩
      rw [e, F64.float_ext_inf hu (g := -inf) rfl]
      rfl
  | zero s => exact fin ⟨0, by unfold F64.valF; rw [hu]; rfl⟩
  | finite s m e h =>
    cases s with
    | positive => exact fin ⟨_, by unfold F64.valF; rw [hu]; rfl⟩
    | negative => exact fin ⟨_, by unfold F64.valF; rw [hu]; rfl⟩

/-- **C53 for `float64`, without exception**: decoding the text of any point, any not empty line and any not empty multipoint gives it back, also with coordinates that are
infinite or NaN. -/
theorem C53_float64_all (g : Geometry Float) (h : SimpleWith (fun _ => True) g) : Decode Strconv.float64Text (Encode Strconv.float64Text g) = .ok (some g) := by
  apply C53_words
  cases g with
  | point p => exact ⟨writable_float _, writable_float _⟩
  | pointZ p => exact ⟨writable_float _, writable_float _, writable_float _⟩
  | lineString ps => exact ⟨h.1, fun p _ => ⟨writable_float _, writable_float _⟩⟩
  | lineStringZ ps => exact ⟨h.1, fun p _ => ⟨writable_float _, writable_float _, writable_float _⟩⟩
  | multiPoint ps => exact ⟨h.1, fun p _ => ⟨writable_float _, writable_float _⟩⟩
  | multiPointZ ps => exact ⟨h.1, fun p _ => ⟨writable_float _, writable_float _, writable_float _⟩⟩
  | _ => exact absurd h (by simp [SimpleWith])

example : Encode Strconv.float64Text (.lineString [⟨1.5, inf⟩, ⟨-inf, nan⟩]) = "LINESTRING(1.5 +Inf,-Inf NaN)".toList ∧
    Decode Strconv.float64Text (Encode Strconv.float64Text (.lineString [⟨1.5, inf⟩, ⟨-inf, nan⟩])) = .ok (some (.lineString [⟨1.5, inf⟩, ⟨-inf, nan⟩])) :=
  ⟨by decide +kernel, C53_float64_all _ ⟨by simp, by simp⟩⟩

/-- `POINT(7)` panics, `LINESTRING(1 2,x 4)` is an error, and so is `MULTIPOINT(x,7)` -/
example : Decode Strconv.float64Text (wordsText "POINT" ["7".toList |> fun w => [w]]) = .error .index := by
  refine ((C118_point _ ⟨by simp, ?_⟩).2 _).2 ⟨rfl, "7".toList, 7, rfl, by decide +kernel⟩
  intro w hw
  simp at hw
  subst hw
  exact ⟨by simp, by simp [notInNumber]⟩

/-- `POINT(1 2 foo bar)` -/
example : Decode Strconv.float64Text "POINT(1 2 foo bar)".toList = .ok (some (.point ⟨1, 2⟩)) := by
  have := (C118_junk_false (T := Strconv.float64Text) "1".toList "2".toList 1 2 (by decide +kernel) (by decide +kernel) ⟨by simp, by simp [notInNumber]⟩ ⟨by simp, by simp [notInNumber]⟩
    ["foo".toList, "bar".toList] (by
      intro w hw
      simp at hw
      rcases hw with rfl | rfl <;> exact ⟨by simp, by simp [notInNumber]⟩) (by simp)).1
  exact this

end GoGeo
