import Verif.Props.Wkt
import Verif.Go.StrconvOk
import Verif.Go.F64Near
import Verif.Spec.Numeral

/-! # WKT with `float64` coordinates and package strconv (C53, C55, C79, C106) -/

namespace GoGeo
open Wkt Strconv F64 GoFloat FloatVal

theorem FiniteNum.val {x : Float} (h : FiniteNum x) : ∃ q, valF x = .fin q := by
  obtain ⟨h1, h2, h3⟩ := h
  rw [FloatVal.val_isNaN (K := ℚ)] at h1
  rw [FloatVal.val_eq (K := ℚ), val_inf] at h2
  rw [FloatVal.val_eq (K := ℚ), val_neg, val_inf] at h3
  change XR.isNaN (valF x) = false at h1
  change XR.eq (valF x) _ = false at h2
  change XR.eq (valF x) _ = false at h3
  revert h1 h2 h3
  cases valF x with
  | nan => intro h1; cases h1
  | pinf => intro _ h2; cases h2
  | ninf => intro _ _ h3; cases h3
  | fin q => exact fun _ _ _ => ⟨q, rfl⟩

theorem FiniteNum.reads {x : Float} (h : FiniteNum x) : ReadsBack float64Text x := readsBack_float x h.val

theorem SimpleFinite.text {g : Geometry Float} (h : SimpleFinite g) : SimpleText float64Text g := by
  cases g with
  | point p => exact ⟨h.1.reads, h.2.reads⟩
  | pointZ p => exact ⟨h.1.reads, h.2.1.reads, h.2.2.reads⟩
  | lineString ps => exact ⟨h.1, fun p hp => ⟨(h.2 p hp).1.reads, (h.2 p hp).2.reads⟩⟩
  | lineStringZ ps => exact ⟨h.1, fun p hp => ⟨(h.2 p hp).1.reads, (h.2 p hp).2.1.reads, (h.2 p hp).2.2.reads⟩⟩
  | multiPoint ps => exact ⟨h.1, fun p hp => ⟨(h.2 p hp).1.reads, (h.2 p hp).2.reads⟩⟩
  | multiPointZ ps => exact ⟨h.1, fun p hp => ⟨(h.2 p hp).1.reads, (h.2 p hp).2.1.reads, (h.2 p hp).2.2.reads⟩⟩
  | _ => exact absurd h (by simp [SimpleFinite])

/-- C53 for `float64`: decoding the text of a point, line or multipoint with finite coordinates gives it back, bit by bit -/
theorem C53_float64 (g : Geometry Float) (h : SimpleFinite g) : Decode float64Text (Encode float64Text g) = .ok (some g) :=
  C53_roundtrip g h.text

/-- a line with coordinates that have no finite binary expansion, and a negative zero -/
example : SimpleFinite (.lineString [⟨116.3974799, 39.9⟩, ⟨-0.0, 1e-7⟩] : Geometry Float)
    ∧ Encode float64Text (.lineString [⟨116.3974799, 39.9⟩, ⟨-0.0, 1e-7⟩]) = "LINESTRING(116.3974799 39.9,-0 0.0000001)".toList := by
  refine ⟨⟨by simp, fun p hp => ?_⟩, by decide +kernel⟩
  simp only [List.mem_cons, List.not_mem_nil, or_false] at hp
  rcases hp with rfl | rfl <;> unfold FiniteNum <;> decide +kernel

/-- C79 for `float64` -/
theorem C79_float64 (g : Geometry Float) (h : SimpleFinite g) (pre post sp : List Char) (hpre : ∀ c ∈ pre, c = ' ') (hpost : ∀ c ∈ post, c = ' ') (hsp : ∀ c ∈ sp, c = ' ') :
    Decode float64Text (pre ++ handWritten float64Text sp g ++ post) = .ok (some g) :=
  C79_spacing g h.text pre post sp hpre hpost hsp

/-- C55 for `float64`, what remains: see `C55_panics_partial` -/
theorem C55_float64_partial (s : List Char) (e : Panic) (h : Decode float64Text s = .error e) :
    (e = .index ∧ HasLoneNumber float64Text s) ∨
    (e = .nilDeref ∧ ∃ v p, v <:+: Str.unspace (Str.trim (· == ' ') s) ∧ LineStringFromWKT float64Text v = .ok (some (.lineString [p]))) :=
  C55_panics_partial rejects_float s e h

/-! ### C106: decimal coordinates -/

theorem digitChar_spec (d : Fin 10) : (digitChar d).isDigit = true ∧ (digitChar d).toNat - 48 = d.val := by
  revert d; decide

theorem digits_isDigit (ds : List (Fin 10)) : ∀ c ∈ ds.map digitChar, c.isDigit = true := fun c hc => by
  obtain ⟨d, -, rfl⟩ := List.mem_map.1 hc
  exact (digitChar_spec d).1

theorem ofDigitChars_row : ∀ (ds : List (Fin 10)) (a : ℕ), Nat.ofDigitChars 10 (ds.map digitChar) a = ds.foldl (fun a d => 10 * a + d.val) a
  | [], a => rfl
  | d :: ds, a => by
    rw [List.map_cons, Nat.ofDigitChars_cons, List.foldl_cons, ← ofDigitChars_row ds]
    congr 2
    exact (digitChar_spec d).2

/-- the text behind the sign -/
def Numeral.body (n : Numeral) : List Char := n.whole.map digitChar ++ match n.frac with | none => [] | some ds => '.' :: ds.map digitChar

theorem body_plain (n : Numeral) : ∀ c ∈ n.body, c.isDigit = true ∨ c = '.' := by
  intro c hc
  unfold Numeral.body at hc
  rcases List.mem_append.1 hc with hc | hc
  · exact .inl (digits_isDigit _ c hc)
  · cases hf : n.frac with
    | none => rw [hf] at hc; simp at hc
    | some ds =>
      rw [hf] at hc
      rcases List.mem_cons.1 hc with hc | hc
      · exact .inr hc
      · exact .inl (digits_isDigit _ c hc)

theorem scanMant_body (n : Numeral) (hn : n.Valid) :
    scanMant false n.body 0 0 false false = (rowValue (n.whole ++ n.fdigits), n.fdigits.length, true, []) := by
  unfold Numeral.Valid at hn
  unfold Numeral.body rowValue
  rw [scanMant_digits _ _ _ _ _ _ (digits_isDigit _), ofDigitChars_row]
  cases hf : n.frac with
  | none =>
    have e : n.fdigits = [] := by unfold Numeral.fdigits; rw [hf]; rfl
    rw [e, List.append_nil] at hn
    rw [e]
    cases hw : n.whole with
    | nil => exact absurd hw hn
    | cons d ds => simp [scanMant]
  | some ds =>
    have e : n.fdigits = ds := by unfold Numeral.fdigits; rw [hf]; rfl
    rw [e] at hn ⊢
    simp only [scanMant]
    rw [if_neg (by decide), if_pos trivial, if_neg (by decide)]
    have := scanMant_digits [] (ds.map digitChar) (n.whole.foldl (fun a d => 10 * a + d.val) 0) 0 true (!(n.whole.map digitChar).isEmpty) (digits_isDigit _)
    rw [List.append_nil] at this
    simp only [Bool.false_or, Bool.false_eq_true, if_false]
    rw [this, ofDigitChars_row]
    simp only [scanMant, List.foldl_append, if_true, zero_add, List.length_map, Prod.mk.injEq, and_true, true_and]
    cases hw : n.whole with
    | nil => rw [hw] at hn; cases ds with
      | nil => exact absurd rfl hn
      | cons _ _ => rfl
    | cons _ _ => simp

theorem parse_numeral (n : Numeral) (hn : n.Valid) : parseFloat n.text =
    (if decVal (rowValue (n.whole ++ n.fdigits)) (0 - n.fdigits.length) = inf then none
     else some (if n.neg then -decVal (rowValue (n.whole ++ n.fdigits)) (0 - n.fdigits.length) else decVal (rowValue (n.whole ++ n.fdigits)) (0 - n.fdigits.length))) := by
  have e : n.text = (if n.neg then ['-'] else []) ++ n.body := rfl
  have hp := body_plain n
  unfold parseFloat
  rw [e, special_plain hp]
  have hu : unsign ((if n.neg then ['-'] else []) ++ n.body) = (n.neg, n.body) := by
    cases n.neg with
    | true => rfl
    | false => exact unsign_plain hp
  have hc : ((if n.neg then ['-'] else []) ++ n.body).contains '_' = false := by
    cases n.neg with
    | true =>
      have := plain_us hp
      show ('-' :: n.body).contains '_' = false
      rw [List.contains_cons, this]; rfl
    | false => exact plain_us hp
  unfold readFloat
  simp only [hu, hexPrefix_plain hp, scanMant_body n hn, readExp, hc]
  simp

theorem numeral_value (n : Numeral) : n.value = (if n.neg then -((rowValue (n.whole ++ n.fdigits) : ℚ) / 10 ^ n.fdigits.length) else (rowValue (n.whole ++ n.fdigits) : ℚ) / 10 ^ n.fdigits.length) := by
  unfold Numeral.value
  split <;> ring

/-- reading a numeral gives the nearest number, or an error if it is out of range -/
theorem parse_nearest (n : Numeral) (hn : n.Valid) :
    (InRange n.value → ∃ x, parseFloat n.text = some x ∧ IsNearest x n.value) ∧ (¬ InRange n.value → parseFloat n.text = none) := by
  rw [parse_numeral n hn]
  have hv := decVal_val (rowValue (n.whole ++ n.fdigits)) n.fdigits.length
  obtain ⟨q, hq⟩ : ∃ q : ℚ, q = (rowValue (n.whole ++ n.fdigits) : ℚ) / 10 ^ n.fdigits.length := ⟨_, rfl⟩
  rw [← hq] at hv
  have hq0 : 0 ≤ q := by rw [hq]; positivity
  have hval := numeral_value n
  rw [← hq] at hval
  generalize decVal (rowValue (n.whole ++ n.fdigits)) (0 - n.fdigits.length) = v at *
  have hr : InRange n.value ↔ |q| < ovfBound := by
    unfold InRange ovfBound
    rw [hval]
    split <;> simp only [abs_neg]
  constructor
  · intro h
    obtain ⟨r, hrr⟩ := (rndX_fin_iff q).2 (hr.1 h)
    rw [if_neg (by rw [eq_inf_iff, hv, hrr]; simp)]
    refine ⟨_, rfl, ?_⟩
    rw [hval]
    cases n.neg with
    | false =>
      exact ⟨r, hv.trans hrr, fun y w hy => rndX_nearest hrr y hy⟩
    | true =>
      refine ⟨-r, ?_, fun y w hy => ?_⟩
      · have : val (-v) = XR.neg (val v) := val_neg v
        show val (-v) = _
        rw [this]
        show XR.neg (valF v) = _
        rw [hv, hrr]; rfl
      · have h2 : rndX (.fin (-q)) = .fin (-r) := by
          have := rndX_neg (.fin q)
          rw [hrr] at this
          exact this
        exact rndX_nearest h2 y hy
  · intro h
    rw [if_pos]
    rw [eq_inf_iff, hv]
    have h1 : ¬ ∃ r, rndX (.fin q) = .fin r := fun h' => h (hr.2 ((rndX_fin_iff q).1 h'))
    have h2 : rndX (.fin q) = ovf (rnP q) := by
      unfold rndX; simp only; rw [if_neg (by linarith)]; rfl
    rw [h2] at h1 ⊢
    unfold ovf at h1 ⊢
    split
    · rfl
    · rename_i h3
      rw [if_neg h3] at h1
      exact absurd ⟨_, rfl⟩ h1

theorem text_isNum (n : Numeral) : ∀ c ∈ n.text, isNum c = true := by
  intro c hc
  rcases List.mem_append.1 hc with hc | hc
  · split at hc
    · simp only [List.mem_singleton] at hc; subst hc; decide
    · simp at hc
  · rcases body_plain n c hc with h | rfl
    · simp [isNum, h]
    · decide

theorem text_ne {n : Numeral} (hn : n.Valid) : n.text ≠ [] := by
  have e : n.text = (if n.neg then ['-'] else []) ++ n.body := rfl
  rw [e]
  intro h
  have h2 := (List.append_eq_nil_iff.1 h).2
  have := scanMant_body n hn
  rw [h2] at this
  simp [scanMant] at this

theorem clean_numeral {n : Numeral} (hn : n.Valid) : Clean n.text := clean_of_all (text_ne hn) (text_isNum n)

theorem num_not_mem (n : Numeral) {d : Char} (hd : isNum d = false) : d ∉ n.text := fun h => by
  rw [text_isNum n d h] at hd; cases hd

theorem clean_numeralPos {p : Numeral × Numeral} (h : p.1.Valid ∧ p.2.Valid) : Clean (numeralPos p) := (clean_numeral h.1).sep (clean_numeral h.2) ' '

theorem pos_not_mem (p : Numeral × Numeral) {d : Char} (hd : isNum d = false) (hs : d ≠ ' ') : d ∉ numeralPos p := by
  unfold numeralPos
  simp only [List.mem_append, List.mem_cons, not_or]
  exact ⟨num_not_mem _ hd, hs, num_not_mem _ hd⟩

theorem split_numeralPos (p : Numeral × Numeral) : Str.split ' ' (numeralPos p) = [p.1.text, p.2.text] := by
  unfold numeralPos
  rw [Str.split_append ' ' _ _ (num_not_mem _ (by decide)), Str.split_word ' ' _ (num_not_mem _ (by decide))]

theorem parsePos_ok (p : Numeral × Numeral) (h : p.1.Valid ∧ p.2.Valid) (hr : InRange p.1.value ∧ InRange p.2.value) :
    ∃ q : Point Float, parsePos float64Text [p.1.text, p.2.text] = .ok (some (.xy q)) ∧ IsNearest q.X p.1.value ∧ IsNearest q.Y p.2.value := by
  obtain ⟨x, hx, nx⟩ := (parse_nearest p.1 h.1).1 hr.1
  obtain ⟨y, hy, ny⟩ := (parse_nearest p.2 h.2).1 hr.2
  have hx' : float64Text.parse p.1.text = some x := hx
  have hy' : float64Text.parse p.2.text = some y := hy
  exact ⟨⟨x, y⟩, by simp [parsePos, hx', hy'], nx, ny⟩

theorem parsePos_bad (p : Numeral × Numeral) (h : p.1.Valid ∧ p.2.Valid) (hr : ¬ (InRange p.1.value ∧ InRange p.2.value)) :
    parsePos float64Text [p.1.text, p.2.text] = .ok none := by
  by_cases h1 : InRange p.1.value
  · obtain ⟨x, hx, nx⟩ := (parse_nearest p.1 h.1).1 h1
    have hx' : float64Text.parse p.1.text = some x := hx
    have hy' : float64Text.parse p.2.text = none := (parse_nearest p.2 h.2).2 fun h2 => hr ⟨h1, h2⟩
    simp [parsePos, hx', hy']
  · have hx' : float64Text.parse p.1.text = none := (parse_nearest p.1 h.1).2 h1
    simp [parsePos, hx']

theorem parseTerms_ok : ∀ ps : List (Numeral × Numeral), (∀ p ∈ ps, p.1.Valid ∧ p.2.Valid) → (∀ p ∈ ps, InRange p.1.value ∧ InRange p.2.value) →
    ∃ qs : List (Point Float), parseTerms float64Text (Str.trim (· == ' ')) (ps.map numeralPos) = .ok (some (qs.map Pos.xy)) ∧
      List.Forall₂ (fun p q => IsNearest q.X p.1.value ∧ IsNearest q.Y p.2.value) ps qs
  | [], _, _ => ⟨[], rfl, .nil⟩
  | p :: ps, hv, hr => by
    obtain ⟨q, h1, h2⟩ := parsePos_ok p (hv p (by simp)) (hr p (by simp))
    obtain ⟨qs, h3, h4⟩ := parseTerms_ok ps (fun x hx => hv x (by simp [hx])) (fun x hx => hr x (by simp [hx]))
    refine ⟨q :: qs, ?_, .cons h2 h4⟩
    rw [List.map_cons, parseTerms, trim_clean (clean_numeralPos (hv p (by simp))) ' ' (by decide), split_numeralPos, h1, h3]
    rfl

theorem parseTerms_out : ∀ ps : List (Numeral × Numeral), (∀ p ∈ ps, p.1.Valid ∧ p.2.Valid) → (∃ p ∈ ps, ¬ (InRange p.1.value ∧ InRange p.2.value)) →
    parseTerms float64Text (Str.trim (· == ' ')) (ps.map numeralPos) = .ok none
  | [], _, h => by obtain ⟨p, hp, -⟩ := h; simp at hp
  | p :: ps, hv, h => by
    rw [List.map_cons, parseTerms, trim_clean (clean_numeralPos (hv p (by simp))) ' ' (by decide), split_numeralPos]
    by_cases hp : InRange p.1.value ∧ InRange p.2.value
    · obtain ⟨q, h1, -⟩ := parsePos_ok p (hv p (by simp)) hp
      rw [h1, parseTerms_out ps (fun x hx => hv x (by simp [hx])) (by
        obtain ⟨x, hx, h⟩ := h
        rcases List.mem_cons.1 hx with rfl | hx
        · exact absurd hp h
        · exact ⟨x, hx, h⟩)]
      rfl
    · rw [parsePos_bad p (hv p (by simp)) hp]; rfl

theorem line_numerals (ps : List (Numeral × Numeral)) (h0 : ps ≠ []) (hv : ∀ p ∈ ps, p.1.Valid ∧ p.2.Valid) :
    Decode float64Text ("LINESTRING(".toList ++ Str.join ',' (ps.map numeralPos) ++ ")".toList) =
      LineStringFromWKT float64Text (Str.join ',' (ps.map numeralPos)) ∧
    Str.split ',' (unparen (Str.join ',' (ps.map numeralPos))) = ps.map numeralPos := by
  have hm : ps.map numeralPos ≠ [] := by simpa using h0
  have hcl : ∀ w ∈ ps.map numeralPos, Clean w := fun w hw => by
    obtain ⟨p, hp, rfl⟩ := List.mem_map.mp hw; exact clean_numeralPos (hv p hp)
  have hcm : ∀ d, isNum d = false → d ≠ ' ' → ∀ w ∈ ps.map numeralPos, d ∉ w := fun d hd hs w hw => by
    obtain ⟨p, hp, rfl⟩ := List.mem_map.mp hw; exact pos_not_mem p hd hs
  have e : "LINESTRING(".toList ++ Str.join ',' (ps.map numeralPos) ++ ")".toList = "LINESTRING".toList ++ '(' :: (Str.join ',' (ps.map numeralPos) ++ [')']) := by simp
  rw [e, decode_line (piece_join _ hm fun w hw => piece_of_clean (hcl w hw) (hcm ',' (by decide) (by decide) w hw)) (nl_join fun w hw => hcm '\n' (by decide) (by decide) w hw)]
  refine ⟨rfl, ?_⟩
  rw [unparen_clean (clean_join ',' _ hm hcl), Str.split_join ',' _ hm fun w hw => hcm ',' (by decide) (by decide) w hw]

/-- C106: decimal coordinates, with any number of digits, are read as the nearest `float64` -/
theorem C106_line (ps : List (Numeral × Numeral)) (h0 : ps ≠ []) (hv : ∀ p ∈ ps, p.1.Valid ∧ p.2.Valid)
    (hr : ∀ p ∈ ps, InRange p.1.value ∧ InRange p.2.value) :
    ∃ qs : List (Point Float), Decode float64Text ("LINESTRING(".toList ++ Str.join ',' (ps.map numeralPos) ++ ")".toList) = .ok (some (.lineString qs)) ∧
      List.Forall₂ (fun p q => IsNearest q.X p.1.value ∧ IsNearest q.Y p.2.value) ps qs := by
  obtain ⟨qs, h1, h2⟩ := parseTerms_ok ps hv hr
  refine ⟨qs, ?_, h2⟩
  obtain ⟨e1, e2⟩ := line_numerals ps h0 hv
  rw [e1]
  unfold LineStringFromWKT
  rw [e2, h1]
  have hq : qs ≠ [] := by
    rintro rfl
    exact h0 (List.forall₂_nil_right_iff.1 h2)
  show (if _ then _ else _) = _
  rw [filterMap_xy_ls, if_pos hq]

/-- C106: a coordinate which is out of range is an error -/
theorem C106_out_of_range (ps : List (Numeral × Numeral)) (hv : ∀ p ∈ ps, p.1.Valid ∧ p.2.Valid)
    (hr : ∃ p ∈ ps, ¬ (InRange p.1.value ∧ InRange p.2.value)) :
    Decode float64Text ("LINESTRING(".toList ++ Str.join ',' (ps.map numeralPos) ++ ")".toList) = .ok none := by
  have h0 : ps ≠ [] := by rintro rfl; simp at hr
  obtain ⟨e1, e2⟩ := line_numerals ps h0 hv
  rw [e1]
  unfold LineStringFromWKT
  rw [e2, parseTerms_out ps hv hr]
  rfl

/-- C106 for points -/
theorem C106_point (x y : Numeral) (hx : x.Valid) (hy : y.Valid) :
    (InRange x.value → InRange y.value → ∃ p : Point Float, Decode float64Text ("POINT(".toList ++ numeralPos (x, y) ++ ")".toList) = .ok (some (.point p)) ∧
      IsNearest p.X x.value ∧ IsNearest p.Y y.value) ∧
    (¬ (InRange x.value ∧ InRange y.value) → Decode float64Text ("POINT(".toList ++ numeralPos (x, y) ++ ")".toList) = .ok none) := by
  have hc := clean_numeralPos (p := (x, y)) ⟨hx, hy⟩
  have e : "POINT(".toList ++ numeralPos (x, y) ++ ")".toList = "POINT".toList ++ '(' :: (numeralPos (x, y) ++ [')']) := by simp
  rw [e, decode_point (piece_of_clean hc (pos_not_mem _ (by decide) (by decide))) (pos_not_mem _ (by decide) (by decide))]
  unfold PointFromWKT
  rw [trim_clean hc ' ' (by decide), split_numeralPos]
  constructor
  · intro h1 h2
    obtain ⟨q, e1, e2⟩ := parsePos_ok (x, y) ⟨hx, hy⟩ ⟨h1, h2⟩
    exact ⟨q, by rw [e1]; rfl, e2⟩
  · intro h
    rw [parsePos_bad (x, y) ⟨hx, hy⟩ h]
    rfl

/-- `-12.50` and `.1` are valid, in range, and worth -25/2 and 1/10 -/
example : (Numeral.mk true [1, 2] (some [5, 0])).Valid ∧ (Numeral.mk true [1, 2] (some [5, 0])).text = "-12.50".toList ∧
    (Numeral.mk true [1, 2] (some [5, 0])).value = -25 / 2 ∧ InRange (-25 / 2) ∧
    (Numeral.mk false [] (some [1])).Valid ∧ (Numeral.mk false [] (some [1])).text = ".1".toList ∧ (Numeral.mk false [] (some [1])).value = 1 / 10 := by
  refine ⟨by simp [Numeral.Valid], by decide, ?_, ?_, by simp [Numeral.Valid, Numeral.fdigits], by decide, ?_⟩
  · norm_num [Numeral.value, rowValue, Numeral.fdigits]
  · unfold InRange
    have : (2 : ℚ) ^ 1024 - 2 ^ 970 = (2 ^ 54 - 1) * 2 ^ 970 := by
      rw [show 1024 = 54 + 970 by norm_num, pow_add]; ring
    rw [this]
    have h1 : (1 : ℚ) ≤ 2 ^ 970 := one_le_pow₀ (by norm_num)
    have h2 : |(-25 / 2 : ℚ)| = 25 / 2 := by norm_num [abs_of_neg]
    rw [h2]
    have := mul_le_mul_of_nonneg_left h1 (by norm_num : (0 : ℚ) ≤ 2 ^ 54 - 1)
    refine lt_of_lt_of_le ?_ this
    norm_num
  · norm_num [Numeral.value, rowValue, Numeral.fdigits]

end GoGeo
