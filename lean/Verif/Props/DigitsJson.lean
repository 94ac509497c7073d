import Verif.Props.Digits
import Verif.Props.GeoJsonText

/-! # C115 for GeoJSON texts -/

namespace GoGeo
open FloatVal F64 Strconv GoFloat

/-- a position as JSON text -/
def jsonPos (p : Numeral × Numeral) : List Char := '[' :: (p.1.text ++ ',' :: (p.2.text ++ [']']))

/-- an array as JSON text -/
def jsonArr (l : List (List Char)) : List Char := '[' :: (Str.join ',' l ++ [']'])

/-- the numbers that `encoding/json` writes without an exponent: zero, and those from `10^-6` to `10^21` -/
def NoExponent (q : ℚ) : Prop := q = 0 ∨ 1 / 10 ^ 6 ≤ |q| ∧ |q| < 10 ^ 21

/-- a usual number is written as it was read -/
theorem usual_json {n : Numeral} (hn : n.Usual) (hm : NoExponent n.value) : ∃ x : Float, FiniteNum x ∧ JsonText.encFloat x = n.text := by
  obtain ⟨x, h1, ⟨v, hv, -⟩, h3⟩ := keep hn.1 hn.2.1 hn.2.2.1 hn.2.2.2
  refine ⟨x, finite_of_val hv, ?_⟩
  rw [← h3]
  unfold JsonText.encFloat
  simp only
  apply if_neg
  have vl : ∀ a b : Float, lt a b = XR.lt (val a) (val b) := val_lt
  have vle : ∀ a b : Float, le a b = XR.le (val a) (val b) := val_le
  have ve : ∀ a b : Float, eq a b = XR.eq (val a) (val b) := val_eq
  have va : val (GoFloat.abs x) = XR.abs (valF x) := val_abs x
  have v0 : val (lit 0 : Float) = .fin 0 := by
    have : val (lit 0 : Float) = rndX (.fin (((0 : ℕ) : ℚ) / 10 ^ 0)) := val_dec 0 0
    rw [this, Nat.cast_zero, zero_div, rndX_pos le_rfl, rnP_zero, ovf, if_neg (not_le.2 (zpow_pos (by norm_num) _))]
  cases hu : x.toModel.unpack with
  | notANumber => have hv : valF x = .fin v := hv; unfold valF at hv; rw [hu] at hv; cases hv
  | infinity s => have hv : valF x = .fin v := hv; unfold valF at hv; rw [hu] at hv; cases s <;> cases hv
  | zero s =>
    have hx : valF x = .fin 0 := by unfold valF; simp only [hu]; rfl
    have : eq (GoFloat.abs x) (lit 0) = true := by rw [ve, va, hx, v0]; simp [XR.eq, XR.abs]
    simp [this]
  | finite s m e h =>
    have hr := numeral_reads hn.1.valid hu h1
    have hg := good_f x
    rw [hu] at hg
    have hpos := fval_pos hg.1.pos e
    have hlt := canon_lt hg.1 hg.2
    have hx : XR.abs (valF x) = .fin ((m : ℚ) * 2 ^ e) := by
      unfold valF; simp only [hu]
      cases s
      · have : valU (.finite .negative m e h) = XR.fin (-((m : ℚ) * 2 ^ e)) := rfl
        rw [this]
        simp only [XR.abs, neg_neg]
        rw [if_pos (by linarith)]
      · have : valU (.finite .positive m e h) = XR.fin ((m : ℚ) * 2 ^ e) := rfl
        rw [this]
        simp only [XR.abs]
        rw [if_neg (by linarith)]
    obtain ⟨m1, m2⟩ : 1 / 10 ^ 6 ≤ |n.value| ∧ |n.value| < 10 ^ 21 := by
      rcases hm with hm | hm
      · rw [hm, abs_zero, rnP_zero] at hr; linarith
      · exact hm
    have e21 : rnP (10 ^ 21) = 10 ^ 21 := by
      have := rnP_exact (n := 5 ^ 21) (t := 21) (by norm_num) (by norm_num)
      norm_num at this ⊢
      exact this
    have big : ge (GoFloat.abs x) (lit (10 ^ 21)) = false := by
      have v21 : val (lit (10 ^ 21) : Float) = .fin (10 ^ 21) := by
        have : val (lit (10 ^ 21) : Float) = rndX (.fin (((10 ^ 21 : ℕ) : ℚ) / 10 ^ 0)) := val_dec _ 0
        rw [this, pow_zero, div_one, Nat.cast_pow, Nat.cast_ofNat, rndX_pos (by positivity), e21, ovf, if_neg]
        have : 10 ^ 21 < 2 ^ 1024 := by decide +kernel
        rw [not_le, show (1024 : ℤ) = ((1024 : ℕ) : ℤ) from rfl, zpow_natCast]
        exact_mod_cast this
      rw [ge, vle, va, hx, v21]
      simp only [XR.le, decide_eq_false_iff_not, not_le]
      have h21 := rnP_mono (abs_nonneg _) m2.le
      refine lt_of_le_of_ne (by rw [← hr]; rw [e21] at h21; exact h21) fun heq => ?_
      obtain ⟨c, i, c1, c2⟩ := hasDigits_abs.1 hn.2.1
      have b1 : (3 : ℚ) / 10 ^ 308 ≤ 1 / 10 ^ 6 := by
        rw [div_le_div_iff₀ (by positivity) (by positivity), one_mul]
        have : 3 * 10 ^ 6 ≤ 10 ^ 308 := by decide +kernel
        exact_mod_cast this
      have o21 : ((1 : ℕ) : ℚ) * 10 ^ (21 : ℤ) = 10 ^ 21 := by norm_num
      have := rnP_inj15 (c := c) (c' := 1) (i := i) (i' := 21) c1 (by norm_num) (by rw [← c2]; exact b1.trans m1) (by rw [o21]; exact b1.trans (by norm_num))
        (by rw [← c2, o21, hr, e21, heq])
      rw [← c2, o21] at this
      linarith
    have small : lt (GoFloat.abs x) (dec 1 6) = false := by
      have hle := rnP_mono (by positivity) m1
      have v6 : val (dec 1 6 : Float) = .fin (rnP (1 / 10 ^ 6)) := by
        have : val (dec 1 6 : Float) = rndX (.fin (((1 : ℕ) : ℚ) / 10 ^ 6)) := val_dec _ _
        rw [this, Nat.cast_one, rndX_pos (by positivity), ovf, if_neg (by rw [hr] at hle; exact not_le.2 (lt_of_le_of_lt hle hlt))]
      rw [vl, va, hx, v6]
      simp only [XR.lt, decide_eq_false_iff_not, not_lt]
      rw [← hr]
      exact hle
    rw [big, small]
    simp

theorem forall₂_left {α β : Type} {R : α → β → Prop} : ∀ {l : List α} {m : List β}, List.Forall₂ R l m → ∀ {a}, a ∈ l → ∃ b ∈ m, R a b
  | _, _, .nil, _, h => by simp at h
  | _, _, .cons h1 h2, a, h => by
    rcases List.mem_cons.1 h with rfl | h
    · exact ⟨_, by simp, h1⟩
    · obtain ⟨b, hb, hr⟩ := forall₂_left h2 h
      exact ⟨b, by simp [hb], hr⟩

theorem encList_join {F : Type} (num : F → List Char) : ∀ l : List (Json F), JsonText.encList num l = Str.join ',' (l.map (JsonText.enc num))
  | [] => by simp [JsonText.encList, Str.join]
  | [j] => by simp [JsonText.encList, Str.join]
  | j :: k :: l => by
    rw [JsonText.encList, encList_join num (k :: l)]
    rfl

theorem usual_positions : ∀ ps : List (Numeral × Numeral), (∀ p ∈ ps, (p.1.Usual ∧ NoExponent p.1.value) ∧ p.2.Usual ∧ NoExponent p.2.value) →
    ∃ qs : List (Point Float), qs.map (fun q => JsonText.enc JsonText.encFloat (GeoJson.position q)) = ps.map jsonPos ∧ ∀ q ∈ qs, FiniteNum q.X ∧ FiniteNum q.Y
  | [], _ => ⟨[], rfl, by simp⟩
  | p :: ps, h => by
    obtain ⟨qs, h1, h2⟩ := usual_positions ps fun x hx => h x (by simp [hx])
    obtain ⟨x, fx, tx⟩ := usual_json (h p (by simp)).1.1 (h p (by simp)).1.2
    obtain ⟨y, fy, ty⟩ := usual_json (h p (by simp)).2.1 (h p (by simp)).2.2
    refine ⟨⟨x, y⟩ :: qs, ?_, ?_⟩
    · rw [List.map_cons, List.map_cons, h1]
      congr 1
      unfold GeoJson.position jsonPos
      simp only [JsonText.enc, JsonText.encList, tx, ty]
      simp
    · intro q hq
      rcases List.mem_cons.1 hq with rfl | hq
      · exact ⟨fx, fy⟩
      · exact h2 q hq

theorem usual_rings : ∀ rs : List (List (Numeral × Numeral)), (∀ r ∈ rs, ∀ p ∈ r, (p.1.Usual ∧ NoExponent p.1.value) ∧ p.2.Usual ∧ NoExponent p.2.value) →
    ∃ qs : List (List (Point Float)), qs.map (fun q => JsonText.enc JsonText.encFloat (GeoJson.array GeoJson.position q)) = rs.map (fun r => jsonArr (r.map jsonPos)) ∧
      (∀ q ∈ qs, ∀ x ∈ q, FiniteNum x.X ∧ FiniteNum x.Y) ∧ List.Forall₂ (fun q r => q.length = r.length) qs rs
  | [], _ => ⟨[], rfl, by simp, .nil⟩
  | r :: rs, h => by
    obtain ⟨qs, h1, h2, h3⟩ := usual_rings rs fun x hx => h x (by simp [hx])
    obtain ⟨q, g1, g2⟩ := usual_positions r (h r (by simp))
    have hl : q.length = r.length := by simpa using congrArg List.length g1
    refine ⟨q :: qs, ?_, ?_, .cons hl h3⟩
    · rw [List.map_cons, List.map_cons, h1]
      congr 1
      unfold GeoJson.array jsonArr
      simp only [JsonText.enc, encList_join, List.map_map]
      rw [← g1]
      rfl
    · intro q' hq
      rcases List.mem_cons.1 hq with rfl | hq
      · exact g2
      · exact h2 q' hq

theorem marshal_text (g : Geometry Float) (t : String) (c : Json Float) (hr : GeoJson.rfc7946 g = some (t, c)) (hw : GeoJson.Writable g) (hn : GeoJson.NoEmptyPart g)
    (hf : ∀ x ∈ GeoJson.coords g, GeoJson.Finite x) :
    GeoJson.MarshalGeoText g = .ok ("{\"type\":".toList ++ JsonText.encStr t ++ ",\"coordinates\":".toList ++ JsonText.enc JsonText.encFloat c ++ "}".toList) := by
  obtain ⟨t', c', h1, h2⟩ := C82_rfc g hw hn hf
  rw [hr] at h1
  injection h1 with h1
  injection h1 with h1 h1'
  subst h1 h1'
  unfold GeoJson.MarshalGeoText GeoJson.text
  rw [h2]
  have e1 : JsonText.encStr "type" = "\"type\"".toList := by decide
  have e2 : JsonText.encStr "coordinates" = "\"coordinates\"".toList := by decide
  simp only [JsonText.enc, JsonText.encMembers, e1, e2]
  simp

/-- C115: the text of a GeoJSON point is kept -/
theorem C115_geojson_point (x y : Numeral) (hx : x.Usual ∧ NoExponent x.value) (hy : y.Usual ∧ NoExponent y.value) (s : List Char)
    (hs : s = "{\"type\":\"Point\",\"coordinates\":".toList ++ jsonPos (x, y) ++ "}".toList) :
    ∃ o g, GeoJson.UnmarshalObjText s = .ok o ∧ GeoJson.UnmarshalGeo (some o) = .ok (.ok g) ∧ GeoJson.MarshalGeoText g = .ok s := by
  obtain ⟨qs, h1, h2⟩ := usual_positions [(x, y)] (by simpa using ⟨hx, hy⟩)
  obtain ⟨q, rfl⟩ : ∃ q, qs = [q] := by
    have := congrArg List.length h1
    rw [List.length_map, List.length_map] at this
    exact List.length_eq_one_iff.1 this
  have h1 : JsonText.enc JsonText.encFloat (GeoJson.position q) = jsonPos (x, y) := by injection h1
  have hf : ∀ z ∈ GeoJson.coords (.point q), GeoJson.Finite z := by
    intro z hz
    have hz : z = q.X ∨ z = q.Y := by simpa [GeoJson.coords, GeoJson.xy] using hz
    rcases hz with rfl | rfl
    · exact (h2 q (by simp)).1
    · exact (h2 q (by simp)).2
  have ht := marshal_text (.point q) "Point" _ rfl trivial trivial hf
  have hts : GeoJson.MarshalGeoText (.point q) = .ok s := by
    rw [ht, h1, hs]
    have : JsonText.encStr "Point" = "\"Point\"".toList := by decide
    rw [this]
    simp
  obtain ⟨s', o, r1, r2, r3⟩ := GeoJson.C107_roundtrip (.point q) trivial (by simp) trivial hf
  rw [hts] at r1
  injection r1 with r1
  subst r1
  exact ⟨o, _, r2, r3, hts⟩

/-- C115: the text of a GeoJSON polygon is kept -/
theorem C115_geojson_polygon (rs : List (List (Numeral × Numeral))) (h0 : rs ≠ [] ∧ ∀ r ∈ rs, r ≠ [])
    (h : ∀ r ∈ rs, ∀ p ∈ r, (p.1.Usual ∧ NoExponent p.1.value) ∧ p.2.Usual ∧ NoExponent p.2.value) (s : List Char)
    (hs : s = "{\"type\":\"Polygon\",\"coordinates\":".toList ++ jsonArr (rs.map fun r => jsonArr (r.map jsonPos)) ++ "}".toList) :
    ∃ o g, GeoJson.UnmarshalObjText s = .ok o ∧ GeoJson.UnmarshalGeo (some o) = .ok (.ok g) ∧ GeoJson.MarshalGeoText g = .ok s := by
  obtain ⟨qs, h1, h2, h3⟩ := usual_rings rs h
  have hne : GeoJson.NoEmptyPart (.polygon qs) := by
    refine ⟨?_, ?_⟩
    · rintro rfl
      cases h3
      exact h0.1 rfl
    · intro q hq hq0
      obtain ⟨r, hr, hl⟩ := forall₂_left h3 hq
      subst hq0
      exact h0.2 r hr (List.length_eq_zero_iff.1 hl.symm)
  have hf : ∀ z ∈ GeoJson.coords (.polygon qs), GeoJson.Finite z := by
    intro z hz
    simp only [GeoJson.coords, GeoJson.xy, List.mem_flatMap, List.mem_flatten, List.mem_cons, List.not_mem_nil, or_false] at hz
    obtain ⟨p, ⟨q, hq, hp⟩, rfl | rfl⟩ := hz
    · exact (h2 q hq p hp).1
    · exact (h2 q hq p hp).2
  have ht := marshal_text (.polygon qs) "Polygon" _ rfl trivial hne hf
  have hts : GeoJson.MarshalGeoText (.polygon qs) = .ok s := by
    rw [ht, hs]
    have : JsonText.encStr "Polygon" = "\"Polygon\"".toList := by decide
    have he : JsonText.enc JsonText.encFloat (GeoJson.array (GeoJson.array GeoJson.position) qs) = jsonArr (rs.map fun r => jsonArr (r.map jsonPos)) := by
      rw [GeoJson.array, JsonText.enc, encList_join, List.map_map, jsonArr, ← h1]
      rfl
    rw [this, he]
    simp
  obtain ⟨s', o, r1, r2, r3⟩ := GeoJson.C107_roundtrip (.polygon qs) trivial (by simp) hne hf
  rw [hts] at r1
  injection r1 with r1
  subst r1
  exact ⟨o, _, r2, r3, hts⟩

/-- `39.9` and `0` are written without an exponent -/
example : NoExponent (399 / 10) ∧ NoExponent 0 ∧ (Numeral.mk false [3, 9] (some [9])).value = 399 / 10 ∧
    jsonPos (⟨false, [3, 9], some [9]⟩, ⟨true, [0], none⟩) = "[39.9,-0]".toList := by
  refine ⟨.inr ?_, .inl rfl, by norm_num [Numeral.value, rowValue, Numeral.fdigits], by decide⟩
  rw [abs_of_pos (by norm_num)]; norm_num

end GoGeo
