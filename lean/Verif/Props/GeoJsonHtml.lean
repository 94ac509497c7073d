import Verif.Spec.Html
import Verif.Props.GeoJsonText

/-! # C127: printed documents are compact, of one line, and can be put into HTML -/

set_option linter.unusedSectionVars false

namespace GoGeo
open GoFloat Json JsonText GeoJson Spec Rfc8259

theorem inside_cons {c d : Char} {s : List Char} : inside (c :: d :: s) =
    if c = '\\' then inside s else if c = '"' then outside (d :: s) else inside (d :: s) := by rw [inside]

theorem inside_skip {c : Char} {s : List Char} (h : c ≠ '\\') (h' : c ≠ '"') : inside (c :: s) = inside s := by
  cases s with
  | nil => simp [inside]
  | cons d s => rw [inside_cons, if_neg h, if_neg h']

theorem inside_quote {s : List Char} : inside ('"' :: s) = outside s := by
  cases s with
  | nil => simp [inside, outside]
  | cons d s => rw [inside_cons, if_neg (by decide), if_pos rfl]

theorem inside_esc {d : Char} {s : List Char} : inside ('\\' :: d :: s) = inside s := by
  rw [inside_cons, if_pos rfl]

theorem hexChar_plain (n : Nat) (h : n < 16) : Harmless (hexChar n) ∧ hexChar n ≠ '"' ∧ hexChar n ≠ '\\' := by
  have : ∀ n : Fin 16, (32 ≤ (hexChar n).toNat ∧ hexChar n ≠ '<' ∧ hexChar n ≠ '>' ∧ hexChar n ≠ '&' ∧ (hexChar n).toNat ≠ 0x2028 ∧
      (hexChar n).toNat ≠ 0x2029) ∧ hexChar n ≠ '"' ∧ hexChar n ≠ '\\' := by decide
  exact this ⟨n, h⟩

theorem esc_lt {c : Char} (h : c.toNat < 32 ∨ c = '<' ∨ c = '>' ∨ c = '&') : c.toNat / 16 < 16 := by
  rcases h with h | rfl | rfl | rfl
  · omega
  all_goals decide

theorem escChar_harmless (c : Char) : ∀ d ∈ escChar c, Harmless d := by
  have lit : ∀ d, d ∈ ['\\', 'n', 'r', 't', 'u', '0', '2', '"'] → Harmless d := by
    unfold Harmless; decide
  unfold escChar
  split_ifs with h1 h2 h3 h4 h5 h6
  · rcases h1 with rfl | rfl <;> intro d hd <;> apply lit <;> revert hd <;> simp <;> tauto
  · intro d hd; apply lit; revert hd; simp; tauto
  · intro d hd; apply lit; revert hd; simp; tauto
  · intro d hd; apply lit; revert hd; simp; tauto
  · intro d hd
    simp only [List.mem_cons, List.not_mem_nil, or_false] at hd
    rcases hd with rfl | rfl | rfl | rfl | rfl | rfl
    · exact lit _ (by simp)
    · exact lit _ (by simp)
    · exact lit _ (by simp)
    · exact lit _ (by simp)
    · exact (hexChar_plain _ (esc_lt h5)).1
    · exact (hexChar_plain _ (by omega)).1
  · intro d hd
    simp only [List.mem_cons, List.not_mem_nil, or_false] at hd
    rcases hd with rfl | rfl | rfl | rfl | rfl | rfl
    · exact lit _ (by simp)
    · exact lit _ (by simp)
    · exact lit _ (by simp)
    · exact lit _ (by simp)
    · exact lit _ (by simp)
    · exact (hexChar_plain _ (by omega)).1
  · intro d hd
    rw [List.mem_singleton] at hd
    subst hd
    push Not at h5 h6
    exact ⟨h5.1, h5.2.1, h5.2.2.1, h5.2.2.2, h6.1, h6.2⟩

theorem inside_escChar (c : Char) (s : List Char) : inside (escChar c ++ s) = inside s := by
  unfold escChar
  split_ifs with h1 h2 h3 h4 h5 h6
  · exact inside_esc
  · exact inside_esc
  · exact inside_esc
  · exact inside_esc
  · obtain ⟨-, a, b⟩ := hexChar_plain _ (esc_lt h5)
    obtain ⟨-, a', b'⟩ := hexChar_plain (c.toNat % 16) (by omega)
    simp only [List.cons_append, List.nil_append]
    rw [inside_esc, inside_skip (by decide) (by decide), inside_skip (by decide) (by decide), inside_skip b a, inside_skip b' a']
  · obtain ⟨-, a', b'⟩ := hexChar_plain (c.toNat % 16) (by omega)
    simp only [List.cons_append, List.nil_append]
    rw [inside_esc, inside_skip (by decide) (by decide), inside_skip (by decide) (by decide), inside_skip (by decide) (by decide), inside_skip b' a']
  · push Not at h1
    exact inside_skip h1.2 h1.1

theorem outside_encStr (k : String) (r : List Char) : outside (encStr k ++ r) = outside r := by
  unfold encStr
  rw [List.cons_append, outside, if_pos rfl]
  have : ∀ l : List Char, inside (l.flatMap escChar ++ ['"'] ++ r) = outside r := by
    intro l
    induction l with
    | nil => exact inside_quote
    | cons c l ih => rw [List.flatMap_cons, List.append_assoc, List.append_assoc, inside_escChar, ← List.append_assoc]; exact ih
  exact this _

theorem encStr_harmless (k : String) : ∀ c ∈ encStr k, Harmless c := by
  intro c hc
  unfold encStr at hc
  have q : Harmless '"' := by unfold Harmless; decide
  simp only [List.mem_cons, List.mem_append, List.mem_flatMap, List.not_mem_nil, or_false] at hc
  rcases hc with rfl | ⟨d, -, hd⟩ | rfl
  · exact q
  · exact escChar_harmless d c hd
  · exact q

/-- the characters of numbers -/
theorem number_chars {t : List Char} (h : Number t) : ∀ c ∈ t, c.isDigit = true ∨ c ∈ ['-', '+', '.', 'e', 'E'] := by
  obtain ⟨sg, ip, fp, ep, rfl, h1, h2, h3, h4⟩ := h
  intro c hc
  simp only [List.mem_append] at hc
  rcases hc with hc | hc | hc | hc
  · rcases h1 with rfl | rfl
    · cases hc
    · right; simp at hc; simp [hc]
  · rcases h2 with rfl | ⟨h2, -⟩
    · left; simp at hc; subst hc; decide
    · exact .inl (h2.2 c hc)
  · rcases h3 with rfl | ⟨ds, rfl, h3⟩
    · cases hc
    · rcases List.mem_cons.1 hc with rfl | hc
      · right; simp
      · exact .inl (h3.2 c hc)
  · rcases h4 with rfl | ⟨e, sg, ds, rfl, h5, h6, h7⟩
    · cases hc
    · rcases List.mem_cons.1 hc with rfl | hc
      · right; rcases h5 with rfl | rfl <;> simp
      · rcases List.mem_append.1 hc with hc | hc
        · rcases h6 with rfl | rfl | rfl
          · cases hc
          · right; simp at hc; simp [hc]
          · right; simp at hc; simp [hc]
        · exact .inl (h7.2 c hc)

theorem digit_plain {c : Char} (h : c.isDigit = true ∨ c ∈ ['-', '+', '.', 'e', 'E']) : Harmless c ∧ c ≠ '"' ∧ c ≠ ' ' := by
  have hd : c.isDigit = true → 48 ≤ c.toNat ∧ c.toNat ≤ 57 := by
    intro h
    simp only [Char.isDigit, Bool.and_eq_true, decide_eq_true_eq] at h
    exact ⟨h.1, h.2⟩
  rcases h with h | h
  · obtain ⟨a, b⟩ := hd h
    refine ⟨⟨by omega, ?_, ?_, ?_, by omega, by omega⟩, ?_, ?_⟩
    all_goals (rintro rfl; revert a b; decide)
  · simp only [List.mem_cons, List.not_mem_nil, or_false] at h
    unfold Harmless
    rcases h with rfl | rfl | rfl | rfl | rfl <;> decide

theorem number_plain {x : Float} (h : Fin64 x) : ∀ c ∈ encFloat x, Harmless c ∧ c ≠ '"' ∧ c ≠ ' ' := by
  obtain ⟨⟨q, hq⟩, -⟩ := encFloat_ok h
  have hn : Number (encFloat x) := by
    obtain ⟨sg, ip, fp, ep, h1, h2, h3, h4, h5, -⟩ := hq
    exact ⟨sg, ip, fp, ep, h1, h2, h3, h4, h5⟩
  exact fun c hc => digit_plain (number_chars hn c hc)

theorem outside_plain {t : List Char} (h : ∀ c ∈ t, c ≠ '"') (r : List Char) : outside (t ++ r) = t ++ outside r := by
  induction t with
  | nil => rfl
  | cons c t ih =>
    rw [List.cons_append, outside, if_neg (h c List.mem_cons_self), ih fun d hd => h d (List.mem_cons_of_mem _ hd)]
    rfl

/-- what has to be shown of a piece of text -/
def NeatText (t : List Char) : Prop := (∀ c ∈ t, Harmless c) ∧ ∃ o, (∀ c ∈ o, c ≠ ' ') ∧ ∀ r, outside (t ++ r) = o ++ outside r

theorem NeatText.append {s t : List Char} (hs : NeatText s) (ht : NeatText t) : NeatText (s ++ t) := by
  obtain ⟨h1, o, h2, h3⟩ := hs
  obtain ⟨g1, p, g2, g3⟩ := ht
  refine ⟨fun c hc => (List.mem_append.1 hc).elim (h1 c) (g1 c), o ++ p, fun c hc => (List.mem_append.1 hc).elim (h2 c) (g2 c), fun r => ?_⟩
  rw [List.append_assoc, h3, g3, List.append_assoc]

theorem NeatText.plain {t : List Char} (h : ∀ c ∈ t, Harmless c ∧ c ≠ '"' ∧ c ≠ ' ') : NeatText t :=
  ⟨fun c hc => (h c hc).1, t, fun c hc => (h c hc).2.2, fun r => outside_plain (fun c hc => (h c hc).2.1) r⟩

instance : DecidablePred Harmless := fun _ => by unfold Harmless; infer_instance

theorem NeatText.str (k : String) : NeatText (encStr k) := ⟨encStr_harmless k, [], by simp, fun r => outside_encStr k r⟩

mutual
theorem enc_tidy : ∀ j : Json Float, Nums Fin64 j → NeatText (enc encFloat j)
  | .null, _ => by simp only [enc]; exact NeatText.plain (by decide)
  | .bool true, _ => by simp only [enc]; exact NeatText.plain (by decide)
  | .bool false, _ => by simp only [enc]; exact NeatText.plain (by decide)
  | .num x, h => by
    simp only [Nums] at h
    simp only [enc]
    exact NeatText.plain (number_plain h)
  | .str s, _ => by simp only [enc]; exact NeatText.str s
  | .arr l, h => by
    simp only [Nums] at h
    simp only [enc]
    exact NeatText.append (s := ['[']) (NeatText.plain (by decide)) (NeatText.append (encList_tidy l h) (NeatText.plain (by decide)))
  | .obj m, h => by
    simp only [Nums] at h
    simp only [enc]
    exact NeatText.append (s := ['{']) (NeatText.plain (by decide)) (NeatText.append (encMembers_tidy m h) (NeatText.plain (by decide)))
theorem encList_tidy : ∀ l : List (Json Float), NumsList Fin64 l → NeatText (encList encFloat l)
  | [], _ => by simp only [encList]; exact NeatText.plain (by simp)
  | [j], h => by
    simp only [NumsList] at h
    simp only [encList, List.append_nil]
    exact enc_tidy j h.1
  | j :: k :: js, h => by
    simp only [NumsList] at h
    rw [encList]
    exact NeatText.append (enc_tidy j h.1) (NeatText.append (s := [',']) (NeatText.plain (by decide)) (encList_tidy (k :: js) (by simp only [NumsList]; exact h.2)))
theorem encMembers_tidy : ∀ l : List (String × Json Float), NumsMembers Fin64 l → NeatText (encMembers encFloat l)
  | [], _ => by simp only [encMembers]; exact NeatText.plain (by simp)
  | [(n, j)], h => by
    simp only [NumsMembers] at h
    simp only [encMembers, List.append_nil]
    exact NeatText.append (NeatText.str n) (NeatText.append (s := [':']) (NeatText.plain (by decide)) (enc_tidy j h.1))
  | (n, j) :: (n', k) :: js, h => by
    simp only [NumsMembers] at h
    rw [encMembers]
    exact NeatText.append (NeatText.str n) (NeatText.append (s := [':']) (NeatText.plain (by decide)) (NeatText.append (enc_tidy j h.1)
      (NeatText.append (s := [',']) (NeatText.plain (by decide)) (encMembers_tidy ((n', k) :: js) (by simp only [NumsMembers]; exact h.2)))))
end

/-- one line of text that can be put into HTML, without blanks outside strings -/
def OneLine (s : List Char) : Prop := (∀ c ∈ s, Harmless c) ∧ ∀ c ∈ outside s, c ≠ ' '

theorem NeatText.oneLine {s : List Char} (h : NeatText s) : OneLine s := by
  obtain ⟨h1, o, h2, h3⟩ := h
  refine ⟨h1, fun c hc => h2 c ?_⟩
  have := h3 []
  rw [List.append_nil] at this
  rw [this] at hc
  simpa [outside] using hc

theorem text_ok {r : Except String (Json Float)} {s : List Char} (h : text r = .ok s) : ∃ j, r = .ok j ∧ s = enc encFloat j := by
  unfold text at h
  cases r with
  | error e => cases h
  | ok j => cases h; exact ⟨j, rfl, rfl⟩

/-- C127 for geometries. -/
theorem C127_geometry (g : Geometry Float) (s : List Char) (h : MarshalGeoText g = .ok s) : OneLine s := by
  obtain ⟨j, h1, rfl⟩ := text_ok h
  exact (enc_tidy j (marshalGeo_fin h1).1).oneLine

/-- C127 for features, with any properties (integers in the range of Go's `int`). -/
theorem C127_feature (f : Feature Float) (hi : f.Ints) (s : List Char) (h : f.MarshalText = .ok s) : OneLine s := by
  obtain ⟨j, h1, rfl⟩ := text_ok h
  exact (enc_tidy j (feature_nums hi h1)).oneLine

/-- C127 for collections. -/
theorem C127_collection (fc : FeatureCollection Float) (hi : fc.Ints) (s : List Char) (h : fc.MarshalText = .ok s) : OneLine s := by
  obtain ⟨j, h1, rfl⟩ := text_ok h
  exact (enc_tidy j (collection_nums hi h1)).oneLine

theorem encStr_ordinary {k : String} (h : Ordinary k) : encStr k = '"' :: (k.toList ++ ['"']) := by
  unfold encStr
  have : ∀ l : List Char, (∀ c ∈ l, Harmless c ∧ c ≠ '"' ∧ c ≠ '\\') → l.flatMap escChar = l := by
    intro l
    induction l with
    | nil => intro _; rfl
    | cons c l ih =>
      intro hl
      rw [List.flatMap_cons, ih fun d hd => hl d (List.mem_cons_of_mem _ hd)]
      obtain ⟨⟨h1, h2, h3, h4, h5, h6⟩, h7, h8⟩ := hl c List.mem_cons_self
      have n1 : c ≠ '\n' := by rintro rfl; revert h1; decide
      have n2 : c ≠ '\r' := by rintro rfl; revert h1; decide
      have n3 : c ≠ '\t' := by rintro rfl; revert h1; decide
      unfold escChar
      rw [if_neg (by tauto), if_neg n1, if_neg n2, if_neg n3, if_neg (by
        rintro (h | h | h | h)
        · omega
        · exact h2 h
        · exact h3 h
        · exact h4 h), if_neg (by tauto)]
      rfl
  rw [this _ h]

theorem infix_members {k : String} {j : Json Float} : ∀ {m : List (String × Json Float)}, (k, j) ∈ m →
    (encStr k ++ ':' :: enc encFloat j) <:+: encMembers encFloat m
  | [(n, i)], h => by
    simp only [List.mem_singleton, Prod.mk.injEq] at h
    obtain ⟨rfl, rfl⟩ := h
    simp only [encMembers, List.append_nil]
    exact List.infix_refl _
  | (n, i) :: e :: ms, h => by
    rcases List.mem_cons.1 h with h | h
    · simp only [Prod.mk.injEq] at h
      obtain ⟨rfl, rfl⟩ := h
      rw [encMembers]
      exact ⟨[], ',' :: encMembers encFloat (e :: ms), by simp⟩
    · obtain ⟨a, b, hab⟩ := infix_members h
      rw [encMembers]
      refine ⟨encStr n ++ ':' :: (enc encFloat i ++ ',' :: a), b, ?_⟩
      rw [← hab]
      simp [List.append_assoc]

theorem marshalMembers_mem {k : String} {v : Val Float} : ∀ {m : List (String × Val Float)} {js : List (String × Json Float)},
    marshalMembers m = .ok js → (k, v) ∈ m → ∃ j, marshal v = .ok j ∧ (k, j) ∈ js
  | (n, w) :: m, js, h, hm => by
    simp only [marshalMembers, bindE_iff] at h
    obtain ⟨j, h1, js', h2, h⟩ := h
    cases h
    rcases List.mem_cons.1 hm with h | h
    · simp only [Prod.mk.injEq] at h
      obtain ⟨rfl, rfl⟩ := h
      exact ⟨j, h1, List.mem_cons_self⟩
    · obtain ⟨j', h3, h4⟩ := marshalMembers_mem h2 h
      exact ⟨j', h3, List.mem_cons_of_mem _ h4⟩

/-- C127.  A string property whose name and value need no escapes stands in the text of the feature as it is. -/
theorem C127_verbatim (f : Feature Float) (m : List (String × Val Float)) (hp : f.Properties = some m) (k v : String) (hm : (k, .str v) ∈ m)
    (hk : Ordinary k) (hv : Ordinary v) (s : List Char) (h : f.MarshalText = .ok s) :
    ('"' :: (k.toList ++ ['"', ':', '"'] ++ v.toList ++ ['"'])) <:+: s := by
  obtain ⟨j, h1, rfl⟩ := text_ok h
  rw [feature_marshal] at h1
  simp only [Feature.print, bindE_iff] at h1
  obtain ⟨id, -, bb, -, g, -, p, h4, crs, -, h1⟩ := h1
  cases h1
  have hkp : f.kept.Properties = some m := by
    unfold Feature.kept
    rw [hp]
    cases m with
    | nil => cases hm
    | cons _ _ => rfl
  rw [hkp] at h4
  simp only [mapMarshal, bindE_iff] at h4
  obtain ⟨js, h5, h4⟩ := h4
  cases h4
  obtain ⟨j, h6, h7⟩ := marshalMembers_mem h5 hm
  rw [marshal] at h6
  cases h6
  have e1 := infix_members h7
  have e2 : (encMembers encFloat js) <:+: (encStr "properties" ++ ':' :: enc encFloat (.obj js)) :=
    ⟨encStr "properties" ++ [':', '{'], ['}'], by simp [enc]⟩
  have e3 := infix_members (k := "properties") (j := .obj js) (m := id ++ [("type", .str f.kept.Typ)] ++ bb ++ [("geometry", g), ("properties", .obj js)] ++ crs)
    (by simp)
  have e4 : ∀ l : List (String × Json Float), encMembers encFloat l <:+: enc encFloat (.obj l) := fun l => ⟨['{'], ['}'], by simp [enc]⟩
  have e5 : encStr k ++ ':' :: enc encFloat (.str v) = '"' :: (k.toList ++ ['"', ':', '"'] ++ v.toList ++ ['"']) := by
    simp only [enc, encStr_ordinary hk, encStr_ordinary hv]; simp
  rw [← e5]
  exact (e1.trans e2).trans (e3.trans (e4 _))

/-- C127: a feature with a harmful string. -/
example : ∃ s, (SetProperty (NewFeature (.point ⟨1, 2⟩)) "a b" (.str "</script>\n")).MarshalText = .ok s ∧
    s = "{\"type\":\"Feature\",\"geometry\":{\"type\":\"Point\",\"coordinates\":[1,2]},\"properties\":{\"a b\":\"\\u003c/script\\u003e\\n\"}}".toList := by
  exact ⟨_, rfl, by decide +kernel⟩

end GoGeo
