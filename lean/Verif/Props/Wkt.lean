import Verif.Spec.Text
import Verif.Spec.Line
import Verif.Wkt.Rings
import Verif.Wkt.IntText
import Verif.Wkt.Panics

/-! # Properties of the WKT codec (C53-C55) -/

set_option linter.unusedSectionVars false

namespace GoGeo
open Wkt

variable {F : Type} [GoFloat F] {T : NumText F}

theorem ReadsBack.good {x : F} (h : ReadsBack T x) : Good T x :=
  ⟨h.parse_fmt, h.ne, fun c hc => by rcases h.plain c hc with h | h | h <;> simp [isNum, h]⟩
theorem PointReads.good {p : Point F} (h : PointReads T p) : GoodP T p := ⟨h.1.good, h.2.good⟩
theorem PointZReads.good {p : PointZ F} (h : PointZReads T p) : GoodPZ T p := ⟨h.1.good, h.2.1.good, h.2.2.good⟩

theorem readsBack_int (n : ℤ) : ReadsBack intText (XR.fin (n : ℚ)) := by
  have := good_int n
  refine ⟨this.rt, this.ne, fun c hc => ?_⟩
  have := this.ch c hc
  simp only [isNum, Bool.or_eq_true, beq_iff_eq] at this
  tauto

theorem rejects_int : Rejects intText := ⟨rfl, fun s c hc h => intText_bad s c hc (by rcases h with rfl | rfl | rfl | rfl | rfl | rfl | rfl | rfl <;> decide)⟩

/-! ### dispatch -/

section
variable {body : List Char} (hb : Piece body) (hn : '\n' ∉ body)
include hb hn

theorem decode_point : Decode T ("POINT".toList ++ '(' :: (body ++ [')'])) = PointFromWKT T body := by
  unfold Decode; rw [decode_find _ _ (by decide) (by decide) hb hn]; rfl
theorem decode_line : Decode T ("LINESTRING".toList ++ '(' :: (body ++ [')'])) = LineStringFromWKT T body := by
  unfold Decode; rw [decode_find _ _ (by decide) (by decide) hb hn]; rfl
theorem decode_multiPoint : Decode T ("MULTIPOINT".toList ++ '(' :: (body ++ [')'])) = MultiPointFromWKT T body := by
  unfold Decode; rw [decode_find _ _ (by decide) (by decide) hb hn]; rfl
theorem decode_multiLine : Decode T ("MULTILINESTRING".toList ++ '(' :: (body ++ [')'])) = MultiLineStringFromWKT T body := by
  unfold Decode; rw [decode_find _ _ (by decide) (by decide) hb hn]; rfl
theorem decode_polygon : Decode T ("POLYGON".toList ++ '(' :: (body ++ [')'])) = PolygonFromWKT T body := by
  unfold Decode; rw [decode_find _ _ (by decide) (by decide) hb hn]; rfl
theorem decode_multiPolygon : Decode T ("MULTIPOLYGON".toList ++ '(' :: (body ++ [')'])) = MultiPolygonFromWKT T body := by
  unfold Decode; rw [decode_find _ _ (by decide) (by decide) hb hn]; rfl
end

/-- C53: decoding the text of a point, line or multipoint gives it back, without error -/
theorem C53_roundtrip (g : Geometry F) (h : SimpleText T g) : Decode T (Encode T g) = .ok (some g) := by
  cases g with
  | point p =>
    have hp : GoodP T p := PointReads.good h
    exact (decode_point (piece_xy hp) (nl_xy hp)).trans (point_body hp)
  | pointZ p =>
    have hp : GoodPZ T p := PointZReads.good h
    exact (decode_point (piece_xyz hp) (nl_xyz hp)).trans (point_bodyZ hp)
  | lineString ps =>
    have hp : ∀ p ∈ ps, GoodP T p := fun p hp => (h.2 p hp).good
    exact (decode_line (piece_join _ (by simpa using h.1) (map_piece fun p q => piece_xy (hp p q))) (nl_join (map_nl fun p q => nl_xy (hp p q)))).trans (line_body h.1 hp)
  | lineStringZ ps =>
    have hp : ∀ p ∈ ps, GoodPZ T p := fun p hp => (h.2 p hp).good
    exact (decode_line (piece_join _ (by simpa using h.1) (map_piece fun p q => piece_xyz (hp p q))) (nl_join (map_nl fun p q => nl_xyz (hp p q)))).trans (line_bodyZ h.1 hp)
  | multiPoint ps =>
    have hp : ∀ p ∈ ps, GoodP T p := fun p hp => (h.2 p hp).good
    exact (decode_multiPoint (piece_join _ (by simpa using h.1) (map_piece fun p q => piece_xy (hp p q))) (nl_join (map_nl fun p q => nl_xy (hp p q)))).trans (multiPoint_body h.1 hp)
  | multiPointZ ps =>
    have hp : ∀ p ∈ ps, GoodPZ T p := fun p hp => (h.2 p hp).good
    exact (decode_multiPoint (piece_join _ (by simpa using h.1) (map_piece fun p q => piece_xyz (hp p q))) (nl_join (map_nl fun p q => nl_xyz (hp p q)))).trans (multiPoint_bodyZ h.1 hp)
  | _ => exact absurd h (by simp [SimpleText])

/-- the line from (-12, 0) to (345, 6789), with integers as number text -/
example : SimpleText intText (.lineString [⟨.fin ((-12 : ℤ) : ℚ), .fin ((0 : ℤ) : ℚ)⟩, ⟨.fin ((345 : ℤ) : ℚ), .fin ((6789 : ℤ) : ℚ)⟩])
    ∧ Encode intText (.lineString [⟨.fin ((-12 : ℤ) : ℚ), .fin ((0 : ℤ) : ℚ)⟩, ⟨.fin ((345 : ℤ) : ℚ), .fin ((6789 : ℤ) : ℚ)⟩]) = "LINESTRING(-12 0,345 6789)".toList := by
  refine ⟨⟨by simp, ?_⟩, by decide +kernel⟩
  intro p hp
  simp only [List.mem_cons, List.not_mem_nil, or_false] at hp
  rcases hp with rfl | rfl <;> exact ⟨readsBack_int _, readsBack_int _⟩

/-! ### polygons and multi-geometries -/

theorem ring_paren {ps r : List (Point F)} (hc : closeRing ps = some r) (h : ∀ p ∈ ps, GoodP T p) : RingFromWKT T (pathText T ps) = .ok (some (.lineString r)) := by
  have h0 : ps ≠ [] := by rintro rfl; cases hc
  unfold RingFromWKT
  rw [line_paren h0 h]
  show (do let r ← toRing ps; Except.ok (some (Geometry.lineString r)) : Go (Option (Geometry F))) = _
  unfold toRing
  rw [hc]; rfl

theorem ring_short {ps : List (Point F)} (h0 : ps ≠ []) (hc : closeRing ps = none) (h : ∀ p ∈ ps, GoodP T p) : RingFromWKT T (pathText T ps) = .error .nilDeref := by
  unfold RingFromWKT
  rw [line_paren h0 h]
  show (do let r ← toRing ps; Except.ok (some (Geometry.lineString r)) : Go (Option (Geometry F))) = _
  unfold toRing
  rw [hc]; rfl

/-- an empty line is an error -/
theorem line_empty (hT : Rejects T) : LineStringFromWKT T (pathText T ([] : List (Point F))) = .ok none := by
  have : Str.split ',' (unparen (pathText T ([] : List (Point F)))) = [[]] := by
    simp only [pathText, List.map_nil]; rfl
  unfold LineStringFromWKT
  rw [this, parseTerms]
  have : Str.split ' ' (Str.trim (· == ' ') []) = [[]] := rfl
  have e : parsePos T [[]] = .ok none := by simp [parsePos, hT.empty]
  rw [this, e]
  rfl

theorem parseTerms_bad (hT : Rejects T) (rest : List (List Char)) : ∀ (ps : List (Point F)) (p : Point F), (∀ p ∈ ps, GoodP T p) → GoodP T p →
    parseTerms T (Str.trim (· == ' ')) (ps.map (xyText T) ++ (xyText T p ++ [')']) :: rest) = .ok none
  | [], p, _, h => by
    rw [List.map_nil, List.nil_append, parseTerms]
    have e1 : Str.trim (· == ' ') (xyText T p ++ [')']) = xyText T p ++ [')'] := by
      unfold Str.trim
      rw [Str.trimLeft_id, Str.trimRight_id]
      · intro c hc; rw [List.getLast?_append] at hc; simp at hc; subst hc; decide
      · intro c hc
        have := num_head_ne (clean_xy h) (d := ' ') (by decide) _ c hc
        simpa using this
    have e2 : Str.split ' ' (xyText T p ++ [')']) = [T.fmt p.X, T.fmt p.Y ++ [')']] := by
      unfold xyText
      rw [List.append_assoc, List.cons_append, Str.split_append ' ' _ _ (h.1.not_mem (by decide)), Str.split_word]
      simp only [List.mem_append, List.mem_singleton, not_or]
      exact ⟨h.2.not_mem (by decide), by decide⟩
    have e3 : parsePos T [T.fmt p.X, T.fmt p.Y ++ [')']] = .ok none := by simp [parsePos, h.1.rt, hT.other (T.fmt p.Y ++ [')']) ')' (by simp) (by simp [notInNumber])]
    rw [e1, e2, e3]
    rfl
  | q :: ps, p, hq, h => by
    have hq0 := hq q (by simp)
    rw [List.map_cons, List.cons_append, parseTerms, trim_clean (clean_xy hq0) ' ' (by decide), split_xy hq0, parsePos_xy hq0,
      parseTerms_bad hT rest ps p (fun x hx => hq x (by simp [hx])) h]
    rfl

/-- a line with a comma behind it is an error -/
theorem line_comma (hT : Rejects T) {ps : List (Point F)} (h : ∀ p ∈ ps, GoodP T p) : LineStringFromWKT T (pathText T ps ++ [',']) = .ok none := by
  by_cases h0 : ps = []
  · subst h0
    have : Str.split ',' (unparen (pathText T ([] : List (Point F)) ++ [','])) = [[')'], []] := by
      simp only [pathText, List.map_nil]; decide
    unfold LineStringFromWKT
    rw [this, parseTerms]
    have : Str.split ' ' (Str.trim (· == ' ') [')']) = [[')']] := by decide
    have e : parsePos T [[')']] = .ok none := by simp [parsePos, hT.other [')'] ')' (by simp) (by simp [notInNumber])]
    rw [this, e]
    rfl
  · have hcl := clean_path h0 h
    have e1 : unparen (pathText T ps ++ [',']) = Str.join ',' (ps.map (xyText T)) ++ ')' :: ',' :: [] := by
      have e : pathText T ps ++ [','] = '(' :: (Str.join ',' (ps.map (xyText T)) ++ ')' :: ',' :: []) := by simp [pathText, paren]
      rw [e]
      unfold unparen
      have : Str.trimLeft (· == '(') ('(' :: (Str.join ',' (ps.map (xyText T)) ++ ')' :: ',' :: [])) = Str.join ',' (ps.map (xyText T)) ++ ')' :: ',' :: [] := by
        have := Str.trimLeft_id (· == '(') (Str.join ',' (ps.map (xyText T)) ++ ')' :: ',' :: []) fun c hc => by
          have := num_head_ne hcl (d := '(') (by decide) _ c hc
          simpa using this
        unfold Str.trimLeft at this ⊢
        rw [List.dropWhile_cons, if_pos (by simp), this]
      rw [this]
      apply Str.trimRight_id
      intro c hc
      rw [List.getLast?_append] at hc; simp at hc; subst hc; decide
    obtain ⟨qs, q, rfl⟩ : ∃ qs q, ps = qs ++ [q] := ⟨ps.dropLast, ps.getLast h0, (List.dropLast_append_getLast h0).symm⟩
    have hq := h q (by simp)
    have hqs : ∀ p ∈ qs, GoodP T p := fun p hp => h p (by simp [hp])
    have e2 : ∀ qs : List (Point F), (∀ p ∈ qs, GoodP T p) → Str.split ',' (Str.join ',' ((qs ++ [q]).map (xyText T)) ++ ')' :: ',' :: []) = qs.map (xyText T) ++ (xyText T q ++ [')']) :: [[]] := by
      intro qs hqs
      induction qs with
      | nil =>
        have : Str.join ',' (([] ++ [q]).map (xyText T)) ++ ')' :: ',' :: [] = (xyText T q ++ [')']) ++ ',' :: [] := by
          show xyText T q ++ _ = _; simp
        rw [this, Str.split_append]
        · rfl
        · simp only [List.mem_append, List.mem_singleton, not_or]
          exact ⟨xy_not_mem hq (by decide) (by decide), by decide⟩
      | cons a qs ih =>
        obtain ⟨b, l, e⟩ : ∃ b l, (qs ++ [q]).map (xyText T) = b :: l := by cases qs <;> simp
        have : Str.join ',' ((a :: qs ++ [q]).map (xyText T)) = xyText T a ++ ',' :: Str.join ',' ((qs ++ [q]).map (xyText T)) := by
          rw [List.cons_append, List.map_cons, e]; rfl
        rw [this, List.append_assoc, List.cons_append, Str.split_append, ih fun p hp => hqs p (by simp [hp])]
        · rfl
        · exact xy_not_mem (hqs a (by simp)) (by decide) (by decide)
    unfold LineStringFromWKT
    rw [e1, e2 qs hqs, parseTerms_bad hT _ qs q hqs hq]
    rfl

/-- one ring: it comes back twice -/
theorem poly_one {ps r : List (Point F)} (hc : closeRing ps = some r) (h : ∀ p ∈ ps, GoodP T p) (t : List Char) (ht : ∀ c, t.head? = some c → isSep c = false) :
    PolygonFromWKT T (pathText T ps ++ t) = .ok (some (.polygon [r, r])) := by
  unfold PolygonFromWKT
  have := rings_find ps h [] t (by simp) ht
  rw [List.nil_append] at this
  rw [this]
  simp only [List.append_nil, Option.getD_some, parseAll, ring_paren hc h]
  rfl

theorem poly_short (hT : Rejects T) {ps : List (Point F)} (hc : closeRing ps = none) (h : ∀ p ∈ ps, GoodP T p) (t : List Char) (ht : ∀ c, t.head? = some c → isSep c = false) :
    PolygonFromWKT T (pathText T ps ++ t) = if ps = [] then .ok none else .error .nilDeref := by
  unfold PolygonFromWKT
  have := rings_find ps h [] t (by simp) ht
  rw [List.nil_append] at this
  rw [this]
  by_cases h0 : ps = []
  · subst h0
    rw [if_pos rfl]
    simp only [List.append_nil, Option.getD_some, parseAll, RingFromWKT, line_empty hT]
    rfl
  · rw [if_neg h0]
    simp only [List.append_nil, Option.getD_some, parseAll, ring_short h0 hc h]
    rfl

/-- a ring followed by another: error -/
theorem poly_more (hT : Rejects T) {ps : List (Point F)} (h : ∀ p ∈ ps, GoodP T p) (t : List Char) (ht : ∀ c, t.head? = some c → isSep c = false) :
    PolygonFromWKT T (pathText T ps ++ ([','] ++ t)) = .ok none := by
  unfold PolygonFromWKT
  rw [rings_find ps h [','] t (by simp [isSep]) ht]
  simp only [Option.getD_some, parseAll, RingFromWKT, line_comma hT h]
  rfl

/-- the text of the rings behind the first -/
theorem join_paths (r : List (Point F)) (rs : List (List (Point F))) :
    Str.join ',' ((r :: rs).map (pathText T)) = pathText T r ∧ rs = [] ∨
    ∃ t, Str.join ',' ((r :: rs).map (pathText T)) = pathText T r ++ ([','] ++ t) ∧ (∃ t', t = '(' :: t') ∧ rs ≠ [] := by
  cases rs with
  | nil => exact Or.inl ⟨rfl, rfl⟩
  | cons q rs =>
    refine Or.inr ⟨Str.join ',' ((q :: rs).map (pathText T)), rfl, ⟨(Str.join ',' ((q :: rs).map (pathText T))).tail, ?_⟩, by simp⟩
    cases rs <;> rfl

/-- the text of a polygon is a `Piece` -/
theorem piece_path (ps : List (Point F)) (h : ∀ p ∈ ps, GoodP T p) : Piece (pathText T ps) := by
  by_cases h0 : ps = []
  · subst h0
    refine ⟨stable_of_not_mem ?_, '(', [')'], rfl, by decide, by decide⟩
    simp only [pathText, List.map_nil]; decide
  · exact piece_paren (by simpa using h0) (map_piece fun p q => piece_xy (h p q))

theorem nl_path (ps : List (Point F)) (h : ∀ p ∈ ps, GoodP T p) : '\n' ∉ pathText T ps := nl_paren (map_nl fun p q => nl_xy (h p q))

theorem piece_poly (rs : List (List (Point F))) (h : ∀ r ∈ rs, ∀ p ∈ r, GoodP T p) : Piece (polyText T rs) := by
  by_cases h0 : rs = []
  · subst h0
    refine ⟨stable_of_not_mem ?_, '(', [')'], rfl, by decide, by decide⟩
    simp only [polyText, List.map_nil]; decide
  · exact piece_paren (by simpa using h0) (map_piece fun p q => piece_path p (h p q))

theorem nl_poly (rs : List (List (Point F))) (h : ∀ r ∈ rs, ∀ p ∈ r, GoodP T p) : '\n' ∉ polyText T rs := nl_paren (map_nl fun p q => nl_path p (h p q))

/-- what decoding the rings of a polygon gives: only a single ring is accepted, and it comes back twice -/
theorem poly_body (hT : Rejects T) (r : List (Point F)) (rs : List (List (Point F))) (h : ∀ q ∈ r :: rs, ∀ p ∈ q, GoodP T p) (t : List Char) (ht : t = [] ∨ t = [')']) (g : Geometry F)
    (e : PolygonFromWKT T (Str.join ',' ((r :: rs).map (pathText T)) ++ t) = .ok (some g)) : rs = [] ∧ ∃ r', closeRing r = some r' ∧ g = .polygon [r', r'] := by
  have ht' : ∀ c, t.head? = some c → isSep c = false := by
    intro c hc; rcases ht with rfl | rfl
    · simp at hc
    · simp at hc; subst hc; decide
  rcases join_paths (T := T) r rs with ⟨e1, e2⟩ | ⟨t', e1, ⟨t'', e3⟩, -⟩
  · refine ⟨e2, ?_⟩
    rw [e1] at e
    cases hc : closeRing r with
    | some r' =>
      rw [poly_one hc (h r (by simp)) t ht'] at e
      cases e
      exact ⟨r', rfl, rfl⟩
    | none =>
      rw [poly_short hT hc (h r (by simp)) t ht'] at e
      split_ifs at e
      cases e
  · rw [e1, List.append_assoc, List.append_assoc, poly_more hT (h r (by simp)) _ (by rw [e3]; simp; decide)] at e
    cases e

/-- C54 is false of every polygon: no polygon, whatever its rings, comes back from its own text -/
theorem C54_polygon_false (hT : Rejects T) (rs : List (List (Point F))) (h : ∀ r ∈ rs, ∀ p ∈ r, PointReads T p) :
    Decode T (Encode T (.polygon rs)) ≠ .ok (some (.polygon rs)) := by
  have hg : ∀ r ∈ rs, ∀ p ∈ r, GoodP T p := fun r hr p hp => (h r hr p hp).good
  intro e
  cases rs with
  | nil =>
    have : Decode T (Encode T (.polygon [])) = .ok none := by
      have : wktRe.find (Str.unspace (Str.trim (· == ' ') (Encode T (.polygon [])))) = none := by
        show wktRe.find (Str.unspace (Str.trim (· == ' ') ("POLYGON".toList ++ paren []))) = none
        decide +kernel
      unfold Decode; rw [this]
    rw [this] at e; cases e
  | cons r rs =>
    have e' : PolygonFromWKT T (Str.join ',' ((r :: rs).map (pathText T))) = .ok (some (.polygon (r :: rs))) :=
      (decode_polygon (piece_join _ (by simp) (map_piece fun p q => piece_path p (hg p q))) (nl_join (map_nl fun p q => nl_path p (hg p q)))).symm.trans e
    have := poly_body hT r rs hg [] (Or.inl rfl) _ (by rw [List.append_nil]; exact e')
    obtain ⟨rfl, r', -, h2⟩ := this
    cases h2

theorem closedUp_closeRing {r r' : List (Point F)} (h : Spec.ClosedUp r r') : closeRing r = some r' := by
  obtain ⟨a, mid, b, rfl, h⟩ := h
  have e : a.Equal b = true ↔ Spec.Near a.X b.X ∧ Spec.Near a.Y b.Y := by
    unfold Point.Equal Spec.Near COORDPRESION; rw [Bool.and_eq_true]
  have key : closeRing (a :: (mid ++ [b])) = if a.Equal b then some (a :: (mid ++ [b])) else some (a :: (mid ++ [b]) ++ [a]) := by
    cases mid with
    | nil => rfl
    | cons c mid => simp only [List.cons_append, closeRing]; congr 2; simp
  rw [key]
  rcases h with ⟨h1, rfl⟩ | ⟨h1, rfl⟩
  · rw [if_pos (e.2 h1)]
  · rw [if_neg (fun h => h1 (e.1 h))]

/-- C54, what remains: the text of a polygon with one ring decodes to a polygon whose exterior ring is that ring, closed, and comes back a second time as a hole.
Missing: everything else, see `C54_polygon_false`, `C54_holes_false`. -/
theorem C54_one_ring_partial (r r' : List (Point F)) (hc : Spec.ClosedUp r r') (h : ∀ p ∈ r, PointReads T p) :
    Decode T (Encode T (.polygon [r])) = .ok (some (.polygon [r', r'])) := by
  have hg : ∀ q ∈ [r], ∀ p ∈ q, GoodP T p := fun q hq p hp => by simp at hq; subst hq; exact (h p hp).good
  have := poly_one (closedUp_closeRing hc) (hg r (by simp)) [] (by simp)
  rw [List.append_nil] at this
  exact (decode_polygon (T := T) (body := Str.join ',' ([r].map (pathText T))) (piece_join _ (by simp) (map_piece fun p q => piece_path p (hg p q))) (nl_join (map_nl fun p q => nl_path p (hg p q)))).trans this

/-- C54 is false: the text of a polygon with a hole is rejected -/
theorem C54_holes_false (hT : Rejects T) (r q : List (Point F)) (rs : List (List (Point F))) (h : ∀ s ∈ r :: q :: rs, ∀ p ∈ s, PointReads T p) :
    Decode T (Encode T (.polygon (r :: q :: rs))) = .ok none := by
  have hg : ∀ s ∈ r :: q :: rs, ∀ p ∈ s, GoodP T p := fun r hr p hp => (h r hr p hp).good
  have e := decode_polygon (T := T) (body := Str.join ',' ((r :: q :: rs).map (pathText T))) (piece_join _ (by simp) (map_piece fun p q => piece_path p (hg p q))) (nl_join (map_nl fun p q => nl_path p (hg p q)))
  rcases join_paths (T := T) r (q :: rs) with ⟨-, e2⟩ | ⟨t', e1, ⟨t'', e3⟩, -⟩
  · cases e2
  · rw [e1] at e
    have e' : Decode T (Encode T (.polygon (r :: q :: rs))) = PolygonFromWKT T (pathText T r ++ ([','] ++ t')) := by
      rw [← e]; show Decode T (_ ++ '(' :: (Str.join ',' ((r :: q :: rs).map (pathText T)) ++ [')'])) = _; rw [e1]
    rw [e']
    exact poly_more hT (hg r (by simp)) _ (by rw [e3]; simp; decide)

theorem multiLine_one {ps : List (Point F)} (h0 : ps ≠ []) (h : ∀ p ∈ ps, GoodP T p) : MultiLineStringFromWKT T (pathText T ps) = .ok (some (.multiLineString [ps, ps])) := by
  unfold MultiLineStringFromWKT
  have := rings_find ps h [] [] (by simp) (by simp)
  simp only [List.append_nil] at this
  rw [this]
  simp only [Option.getD_some, parseAll, line_paren h0 h]
  rfl

theorem multiLine_more (hT : Rejects T) {ps : List (Point F)} (h : ∀ p ∈ ps, GoodP T p) (t : List Char) (ht : ∀ c, t.head? = some c → isSep c = false) :
    MultiLineStringFromWKT T (pathText T ps ++ ([','] ++ t)) = .ok none := by
  unfold MultiLineStringFromWKT
  rw [rings_find ps h [','] t (by simp [isSep]) ht]
  simp only [Option.getD_some, parseAll, line_comma hT h]
  rfl

/-- C54 is false: a multiline of one line comes back as that line twice, and one of several lines is rejected -/
theorem C54_multiline_false (hT : Rejects T) (l : List (Point F)) (ls : List (List (Point F))) (h0 : l ≠ []) (h : ∀ s ∈ l :: ls, ∀ p ∈ s, PointReads T p) :
    Decode T (Encode T (.multiLineString (l :: ls))) = .ok (if ls = [] then some (.multiLineString [l, l]) else none) := by
  have hg : ∀ s ∈ l :: ls, ∀ p ∈ s, GoodP T p := fun r hr p hp => (h r hr p hp).good
  have e := decode_multiLine (T := T) (body := Str.join ',' ((l :: ls).map (pathText T))) (piece_join _ (by simp) (map_piece fun p q => piece_path p (hg p q))) (nl_join (map_nl fun p q => nl_path p (hg p q)))
  have e' : Decode T (Encode T (.multiLineString (l :: ls))) = MultiLineStringFromWKT T (Str.join ',' ((l :: ls).map (pathText T))) := e
  rw [e']
  rcases join_paths (T := T) l ls with ⟨e1, e2⟩ | ⟨t', e1, ⟨t'', e3⟩, e2⟩
  · rw [e1, if_pos e2, multiLine_one h0 (hg l (by simp))]
  · rw [e1, if_neg e2, multiLine_more hT (hg l (by simp)) _ (by rw [e3]; simp; decide)]

/-- the text of a multipolygon behind its first polygon -/
theorem join_polys (p : List (List (Point F))) (ps : List (List (List (Point F)))) : ∃ t, Str.join ',' ((p :: ps).map (polyText T)) = polyText T p ++ t := by
  cases ps with
  | nil => exact ⟨[], by rw [List.append_nil]; rfl⟩
  | cons q ps => exact ⟨',' :: Str.join ',' ((q :: ps).map (polyText T)), rfl⟩

/-- the text of one polygon, in its brackets -/
theorem poly_paren (r : List (Point F)) (rs : List (List (Point F))) : PolygonFromWKT T (polyText T (r :: rs)) = PolygonFromWKT T (Str.join ',' ((r :: rs).map (pathText T)) ++ [')']) := by
  have e : ∃ s, Str.join ',' ((r :: rs).map (pathText T)) = '(' :: s := by cases rs <;> exact ⟨_, rfl⟩
  obtain ⟨s, e⟩ := e
  unfold PolygonFromWKT
  have : polyText T (r :: rs) = '(' :: '(' :: (s ++ [')']) := by
    unfold polyText paren; rw [e]; rfl
  rw [this, rings_find_next, e]
  rfl

/-- C54 is false of every multipolygon that starts with a polygon of one ring: it comes back as two copies of that polygon, the ring doubled; the other polygons are lost -/
theorem C54_multipolygon_false (r r' : List (Point F)) (ps : List (List (List (Point F)))) (hc : Spec.ClosedUp r r')
    (h : ∀ q ∈ [r] :: ps, ∀ s ∈ q, ∀ p ∈ s, PointReads T p) :
    Decode T (Encode T (.multiPolygon ([r] :: ps))) = .ok (some (.multiPolygon [[r', r'], [r', r']])) := by
  replace hc := closedUp_closeRing hc
  have hg : ∀ q ∈ [r] :: ps, ∀ s ∈ q, ∀ p ∈ s, GoodP T p := fun q hq r hr p hp => (h q hq r hr p hp).good
  have e := decode_multiPolygon (T := T) (body := Str.join ',' (([r] :: ps).map (polyText T))) (piece_join _ (by simp) (map_piece fun p q => piece_poly p (hg p q))) (nl_join (map_nl fun p q => nl_poly p (hg p q)))
  have e' : Decode T (Encode T (.multiPolygon ([r] :: ps))) = MultiPolygonFromWKT T (Str.join ',' (([r] :: ps).map (polyText T))) := e
  rw [e']
  obtain ⟨t, et⟩ := join_polys (T := T) [r] ps
  have h1 : PolygonFromWKT T (polyText T [r]) = .ok (some (.polygon [r', r'])) := by
    rw [poly_paren]
    exact poly_one hc (hg [r] (by simp) r (by simp)) [')'] (by simp; decide)
  unfold MultiPolygonFromWKT
  rw [et, polys_find [r] (hg [r] (by simp)) t]
  simp only [Option.getD_some, parseAll, h1]
  rfl

/-- C54 is false of every multipolygon -/
theorem C54_multipolygon_never_false (hT : Rejects T) (ps : List (List (List (Point F)))) (h : ∀ q ∈ ps, ∀ s ∈ q, ∀ p ∈ s, PointReads T p) :
    Decode T (Encode T (.multiPolygon ps)) ≠ .ok (some (.multiPolygon ps)) := by
  have hg : ∀ q ∈ ps, ∀ s ∈ q, ∀ p ∈ s, GoodP T p := fun q hq r hr p hp => (h q hq r hr p hp).good
  intro e
  cases ps with
  | nil =>
    have : Decode T (Encode T (.multiPolygon [])) = .ok none := by
      have : wktRe.find (Str.unspace (Str.trim (· == ' ') (Encode T (.multiPolygon [])))) = none := by
        show wktRe.find (Str.unspace (Str.trim (· == ' ') ("MULTIPOLYGON".toList ++ paren []))) = none
        decide +kernel
      unfold Decode; rw [this]
    rw [this] at e; cases e
  | cons rs ps =>
    have e1 := decode_multiPolygon (T := T) (body := Str.join ',' ((rs :: ps).map (polyText T))) (piece_join _ (by simp) (map_piece fun p q => piece_poly p (hg p q))) (nl_join (map_nl fun p q => nl_poly p (hg p q)))
    have e2 : MultiPolygonFromWKT T (Str.join ',' ((rs :: ps).map (polyText T))) = .ok (some (.multiPolygon (rs :: ps))) := e1.symm.trans e
    obtain ⟨t, et⟩ := join_polys (T := T) rs ps
    unfold MultiPolygonFromWKT at e2
    rw [et, polys_find rs (hg rs (by simp)) t] at e2
    simp only [Option.getD_some, parseAll] at e2
    cases hp : PolygonFromWKT T (polyText T rs) with
    | error x => rw [hp] at e2; cases e2
    | ok o =>
      rw [hp] at e2
      cases o with
      | none => cases e2
      | some g =>
        cases rs with
        | nil =>
          have h2 := poly_short hT (ps := []) rfl (by simp) [] (by simp)
          rw [List.append_nil, if_pos rfl] at h2
          have : polyText T [] = pathText T ([] : List (Point F)) := rfl
          rw [this, h2] at hp; cases hp
        | cons r rs =>
          rw [poly_paren] at hp
          obtain ⟨rfl, r', hc, rfl⟩ := poly_body hT r rs (hg _ (by simp)) [')'] (Or.inr rfl) g hp
          have : ([[r', r'], [r', r']] : List (List (List (Point F)))) = [r] :: ps := by
            have := Except.ok.inj e2
            have := Option.some.inj this
            have := Geometry.multiPolygon.inj this
            exact this
          simp at this

/-- the triangle (0,0) (4,0) (0,3), closed -/
def tri : List (Point (XR ℚ)) := [⟨.fin ((0 : ℤ) : ℚ), .fin ((0 : ℤ) : ℚ)⟩, ⟨.fin ((4 : ℤ) : ℚ), .fin ((0 : ℤ) : ℚ)⟩, ⟨.fin ((0 : ℤ) : ℚ), .fin ((3 : ℤ) : ℚ)⟩, ⟨.fin ((0 : ℤ) : ℚ), .fin ((0 : ℤ) : ℚ)⟩]

theorem tri_closed : Spec.ClosedUp tri tri :=
  ⟨_, [⟨.fin ((4 : ℤ) : ℚ), .fin ((0 : ℤ) : ℚ)⟩, ⟨.fin ((0 : ℤ) : ℚ), .fin ((3 : ℤ) : ℚ)⟩], ⟨.fin ((0 : ℤ) : ℚ), .fin ((0 : ℤ) : ℚ)⟩, rfl,
    Or.inl ⟨⟨by unfold Spec.Near; decide +kernel, by unfold Spec.Near; decide +kernel⟩, rfl⟩⟩

/-- it meets the hypotheses above, and it is its own closure -/
example : (∀ p ∈ tri, PointReads intText p) ∧ Spec.ClosedUp tri tri ∧ Rejects intText := by
  refine ⟨?_, tri_closed, rejects_int⟩
  intro p hp
  simp only [tri, List.mem_cons, List.not_mem_nil, or_false] at hp
  rcases hp with rfl | rfl | rfl | rfl <;> exact ⟨readsBack_int _, readsBack_int _⟩

/-- the triangle's text decodes to the triangle with itself as a hole; with integers as number text -/
theorem C54_example_false : Decode intText "POLYGON((0 0,4 0,0 3,0 0))".toList = .ok (some (.polygon [tri, tri])) := by
  have := C54_one_ring_partial (T := intText) tri tri tri_closed (by
    intro p hp
    simp only [tri, List.mem_cons, List.not_mem_nil, or_false] at hp
    rcases hp with rfl | rfl | rfl | rfl <;> exact ⟨readsBack_int _, readsBack_int _⟩)
  rw [← this]
  congr 1

/-- is the result an error? -/
def isErr (r : Go (Option (Geometry F))) : Bool :=
  match r with
  | .ok none => true
  | _ => false

/-- the tetrahedron's base (0,0,0) (4,0,0) (0,3,0), closed -/
def triZ : List (PointZ (XR ℚ)) :=
  [⟨.fin 0, .fin 0, .fin 0⟩, ⟨.fin 4, .fin 0, .fin 0⟩, ⟨.fin 0, .fin 3, .fin 0⟩, ⟨.fin 0, .fin 0, .fin 0⟩]

/-- C54 is false of polygons with z: the expression looks for pairs of numbers, and finds none here -/
theorem C54_polygonZ_false : isErr (Decode intText (Encode intText (.polygonZ [triZ]))) = true := by decide +kernel

/-! ### panics -/

/-- C55 is false: a point with one coordinate panics -/
theorem C55_point_false (s : List Char) (x : F) (hp : T.parse s = some x) (h0 : s ≠ []) (h' : ∀ c ∈ s, c.isDigit ∨ c = '-' ∨ c = '.') :
    Decode T ("POINT(".toList ++ s ++ ")".toList) = .error .index := by
  have h : ∀ c ∈ s, isNum c = true := fun c hc => by rcases h' c hc with h | h | h <;> simp [isNum, h]
  have hc := clean_of_all h0 h
  have hm : ∀ d, isNum d = false → d ∉ s := fun d hd hm => by rw [h d hm] at hd; cases hd
  have : Decode T ("POINT".toList ++ '(' :: (s ++ [')'])) = PointFromWKT T s := decode_point (piece_of_clean hc (hm _ (by decide))) (hm _ (by decide))
  have e : "POINT(".toList ++ s ++ ")".toList = "POINT".toList ++ '(' :: (s ++ [')']) := by simp
  rw [e, this]
  unfold PointFromWKT
  rw [trim_clean hc ' ' (by decide), Str.split_word ' ' s (hm _ (by decide))]
  have e : parsePos T [s] = .error .index := by simp [parsePos, hp]
  rw [e]
  rfl

/-- C55 is false: a polygon with one position panics -/
theorem C55_polygon_false (hT : Rejects T) (p : Point F) (h : PointReads T p) : Decode T (Encode T (.polygon [[p]])) = .error .nilDeref := by
  have hg : ∀ q ∈ [[p]], ∀ p ∈ q, GoodP T p := fun q hq a ha => by simp at hq; subst hq; simp at ha; subst ha; exact h.good
  have := poly_short hT (T := T) (ps := [p]) rfl (hg [p] (by simp)) [] (by simp)
  rw [List.append_nil, if_neg (by simp)] at this
  exact (decode_polygon (T := T) (body := Str.join ',' ([[p]].map (pathText T))) (piece_join _ (by simp) (map_piece fun p q => piece_path p (hg p q))) (nl_join (map_nl fun p q => nl_path p (hg p q)))).trans this

/-- `POINT(7)` -/
example : intText.parse "7".toList = some (.fin 7) ∧ "7".toList ≠ [] ∧ ∀ c ∈ "7".toList, c.isDigit ∨ c = '-' ∨ c = '.' := by
  refine ⟨by decide +kernel, by decide, by decide⟩

/-- C55, what remains: if `Decode` panics at all, then either some part of the text between commas and brackets is a single number (index out of range),
or some part of the text is a line of a single position (nil dereference, when it is taken as a ring).
Missing: those two cases do panic, see `C55_point_false`, `C55_polygon_false`. -/
theorem C55_panics_partial (hT : Rejects T) (s : List Char) (e : Panic) (h : Decode T s = .error e) :
    (e = .index ∧ HasLoneNumber T s) ∨
    (e = .nilDeref ∧ ∃ v p, v <:+: Str.unspace (Str.trim (· == ' ') s) ∧ LineStringFromWKT T v = .ok (some (.lineString [p]))) := by
  rcases decode_panic hT h with ⟨h1, w, hw, hp⟩ | ⟨h1, h2⟩
  · obtain ⟨x, hx, rfl⟩ := List.mem_map.mp hw
    exact Or.inl ⟨h1, x, hx, hp⟩
  · exact Or.inr ⟨h1, h2⟩

/-- `LINESTRING(1 2,3 x)` has no single number in it, `POINT(1)` has -/
example : ¬ HasLoneNumber intText "LINESTRING(1 2,3 x)".toList ∧ HasLoneNumber intText "POINT(1)".toList := by
  constructor
  · have : ∀ w ∈ cut "LINESTRING(1 2,3 x)".toList, intText.parse (strip w) = none := by decide +kernel
    rintro ⟨w, hw, h⟩
    exact h (this w hw)
  · exact ⟨['1'], by decide +kernel, by decide +kernel⟩

/-! ### C79: spacing -/

theorem unspace_spaced : ∀ {ws : List (List Char)}, (∀ w ∈ ws, ',' ∉ w) → ∀ t, Str.unspace (spacedList ws ++ t) = Str.join ',' ws ++ Str.unspace t
  | [], _, t => rfl
  | [w], h, t => stable_of_not_mem (h w (by simp)) t
  | w :: v :: ws, h, t => by
    show Str.unspace ((w ++ ',' :: ' ' :: spacedList (v :: ws)) ++ t) = (w ++ ',' :: Str.join ',' (v :: ws)) ++ Str.unspace t
    rw [List.append_assoc, stable_of_not_mem (h w (by simp)), List.cons_append, List.cons_append]
    rw [Str.unspace, unspace_spaced (fun x hx => h x (by simp at hx ⊢; exact Or.inr hx))]
    simp

/-- the steps of `Decode` up to the dispatch, with spaces -/
theorem decode_spaced (pre post sp tag : List Char) (ws : List (List Char)) (h0 : tag ≠ []) (ht : ∀ c ∈ tag, isAZ c = true) (hpre : ∀ c ∈ pre, c = ' ') (hpost : ∀ c ∈ post, c = ' ')
    (hsp : ∀ c ∈ sp, c = ' ') (hws : ws ≠ []) (hb : ∀ w ∈ ws, Piece w) (hc : ∀ w ∈ ws, ',' ∉ w) (hn : ∀ w ∈ ws, '\n' ∉ w) :
    wktRe.find (Str.unspace (Str.trim (· == ' ') (pre ++ (tag ++ (sp ++ '(' :: (spacedList ws ++ [')']))) ++ post)))
      = some [tag ++ (sp ++ '(' :: (Str.join ',' ws ++ [')'])), tag, Str.join ',' ws] := by
  have haz : ∀ c ∈ tag, c ≠ ' ' ∧ c ≠ ',' := fun c hc => by
    have := ht c hc
    refine ⟨?_, ?_⟩ <;> rintro rfl <;> revert this <;> decide
  set X := tag ++ (sp ++ '(' :: (spacedList ws ++ [')'])) with hX
  have e1 : Str.trim (· == ' ') (pre ++ X ++ post) = X := by
    unfold Str.trim
    have : Str.trimLeft (· == ' ') (pre ++ X ++ post) = X ++ post := by
      unfold Str.trimLeft
      rw [List.append_assoc, dropWhile_all fun c hc => by simp [hpre c hc]]
      apply Str.trimLeft_id
      intro c hc
      cases tag with
      | nil => exact absurd rfl h0
      | cons d t => rw [hX] at hc; simp at hc; subst hc; simpa using (haz d (by simp)).1
    rw [this, trimRight_append fun c hc => by simp [hpost c hc]]
    apply Str.trimRight_id
    intro c hc
    have : X = (tag ++ (sp ++ '(' :: spacedList ws)) ++ [')'] := by rw [hX]; simp
    rw [this, List.getLast?_append] at hc
    simp at hc; subst hc; decide
  have e2 : Str.unspace X = tag ++ (sp ++ '(' :: (Str.join ',' ws ++ [')'])) := by
    have hst : Stable (tag ++ (sp ++ ['('])) := stable_of_not_mem (by
      simp only [List.mem_append, List.mem_singleton, not_or]
      exact ⟨fun h => (haz _ h).2 rfl, fun h => by have := hsp _ h; revert this; decide, by decide⟩)
    have : X = (tag ++ (sp ++ ['('])) ++ (spacedList ws ++ [')']) := by rw [hX]; simp
    rw [this, hst, unspace_spaced hc]
    have : Str.unspace [')'] = [')'] := by decide
    rw [this]; simp
  rw [e1, e2]
  have hp := piece_join ws hws hb
  obtain ⟨d, u, e, hd, -⟩ := hp.2
  exact wktRe_find' tag sp _ h0 ht (fun c hc => space_ws (by simp [hsp c hc])) (by rw [e]; simp) (nl_join hn) (by intro c hc; rw [e] at hc; simp at hc; subst hc; exact hd)

/-- C79: spaces around the text, behind the keyword and behind commas do not matter -/
theorem C79_spacing (g : Geometry F) (h : SimpleText T g) (pre post sp : List Char) (hpre : ∀ c ∈ pre, c = ' ') (hpost : ∀ c ∈ post, c = ' ') (hsp : ∀ c ∈ sp, c = ' ') :
    Decode T (pre ++ handWritten T sp g ++ post) = .ok (some g) := by
  cases g with
  | point p =>
    have hp : GoodP T p := PointReads.good h
    have := decode_spaced pre post sp "POINT".toList [xyText T p] (by decide) (by decide) hpre hpost hsp (by simp) (by simpa using piece_xy hp)
      (by simpa using xy_not_mem hp (by decide) (by decide)) (by simpa using nl_xy hp)
    show Decode T (pre ++ ("POINT".toList ++ (sp ++ '(' :: (spacedList [xyText T p] ++ [')']))) ++ post) = _
    unfold Decode; rw [this]; exact point_body hp
  | pointZ p =>
    have hp : GoodPZ T p := PointZReads.good h
    have := decode_spaced pre post sp "POINT".toList [xyzText T p] (by decide) (by decide) hpre hpost hsp (by simp) (by simpa using piece_xyz hp)
      (by simpa using xyz_not_mem hp (by decide) (by decide)) (by simpa using nl_xyz hp)
    show Decode T (pre ++ ("POINT".toList ++ (sp ++ '(' :: (spacedList [xyzText T p] ++ [')']))) ++ post) = _
    unfold Decode; rw [this]; exact point_bodyZ hp
  | lineString ps =>
    have hp : ∀ p ∈ ps, GoodP T p := fun p hp => (h.2 p hp).good
    have := decode_spaced pre post sp "LINESTRING".toList (ps.map (xyText T)) (by decide) (by decide) hpre hpost hsp (by simpa using h.1) (map_piece fun p q => piece_xy (hp p q))
      (by simp only [List.mem_map]; rintro _ ⟨p, q, rfl⟩; exact xy_not_mem (hp p q) (by decide) (by decide)) (map_nl fun p q => nl_xy (hp p q))
    show Decode T (pre ++ ("LINESTRING".toList ++ (sp ++ '(' :: (spacedList (ps.map (xyText T)) ++ [')']))) ++ post) = _
    unfold Decode; rw [this]; exact line_body h.1 hp
  | lineStringZ ps =>
    have hp : ∀ p ∈ ps, GoodPZ T p := fun p hp => (h.2 p hp).good
    have := decode_spaced pre post sp "LINESTRING".toList (ps.map (xyzText T)) (by decide) (by decide) hpre hpost hsp (by simpa using h.1) (map_piece fun p q => piece_xyz (hp p q))
      (by simp only [List.mem_map]; rintro _ ⟨p, q, rfl⟩; exact xyz_not_mem (hp p q) (by decide) (by decide)) (map_nl fun p q => nl_xyz (hp p q))
    show Decode T (pre ++ ("LINESTRING".toList ++ (sp ++ '(' :: (spacedList (ps.map (xyzText T)) ++ [')']))) ++ post) = _
    unfold Decode; rw [this]; exact line_bodyZ h.1 hp
  | multiPoint ps =>
    have hp : ∀ p ∈ ps, GoodP T p := fun p hp => (h.2 p hp).good
    have := decode_spaced pre post sp "MULTIPOINT".toList (ps.map (xyText T)) (by decide) (by decide) hpre hpost hsp (by simpa using h.1) (map_piece fun p q => piece_xy (hp p q))
      (by simp only [List.mem_map]; rintro _ ⟨p, q, rfl⟩; exact xy_not_mem (hp p q) (by decide) (by decide)) (map_nl fun p q => nl_xy (hp p q))
    show Decode T (pre ++ ("MULTIPOINT".toList ++ (sp ++ '(' :: (spacedList (ps.map (xyText T)) ++ [')']))) ++ post) = _
    unfold Decode; rw [this]; exact multiPoint_body h.1 hp
  | multiPointZ ps =>
    have hp : ∀ p ∈ ps, GoodPZ T p := fun p hp => (h.2 p hp).good
    have := decode_spaced pre post sp "MULTIPOINT".toList (ps.map (xyzText T)) (by decide) (by decide) hpre hpost hsp (by simpa using h.1) (map_piece fun p q => piece_xyz (hp p q))
      (by simp only [List.mem_map]; rintro _ ⟨p, q, rfl⟩; exact xyz_not_mem (hp p q) (by decide) (by decide)) (map_nl fun p q => nl_xyz (hp p q))
    show Decode T (pre ++ ("MULTIPOINT".toList ++ (sp ++ '(' :: (spacedList (ps.map (xyzText T)) ++ [')']))) ++ post) = _
    unfold Decode; rw [this]; exact multiPoint_bodyZ h.1 hp
  | _ => exact absurd h (by simp [SimpleText])

/-- for instance `  LINESTRING (-12 0, 345 6789) ` -/
example : SimpleText intText (.lineString [⟨.fin ((-12 : ℤ) : ℚ), .fin ((0 : ℤ) : ℚ)⟩, ⟨.fin ((345 : ℤ) : ℚ), .fin ((6789 : ℤ) : ℚ)⟩])
    ∧ [' ', ' '] ++ handWritten intText [' '] (.lineString [⟨.fin ((-12 : ℤ) : ℚ), .fin ((0 : ℤ) : ℚ)⟩, ⟨.fin ((345 : ℤ) : ℚ), .fin ((6789 : ℤ) : ℚ)⟩]) ++ [' '] = "  LINESTRING (-12 0, 345 6789) ".toList := by
  refine ⟨⟨by simp, ?_⟩, by decide +kernel⟩
  intro p hp
  simp only [List.mem_cons, List.not_mem_nil, or_false] at hp
  rcases hp with rfl | rfl <;> exact ⟨readsBack_int _, readsBack_int _⟩

/-! ### C80: positions of different dimension -/

/-- C80 is false: `LINESTRING(1 2,3 4 5)` decodes, without error, to a line of one position -/
theorem C80_mixed_false (p : Point F) (q : PointZ F) (hp : PointReads T p) (hq : PointZReads T q) :
    Decode T ("LINESTRING".toList ++ paren [posText T p, posZText T q]) = .ok (some (.lineString [p])) := by
  have gp := hp.good; have gq := hq.good
  have := decode_line (T := T) (body := Str.join ',' [xyText T p, xyzText T q])
    (piece_join _ (by simp) (by simp [piece_xy gp, piece_xyz gq])) (nl_join (by simp [nl_xy gp, nl_xyz gq]))
  refine (show Decode T ("LINESTRING".toList ++ paren [posText T p, posZText T q]) = _ from this).trans ?_
  have hcl : Clean (Str.join ',' [xyText T p, xyzText T q]) := clean_join ',' _ (by simp) (by simp [clean_xy gp, clean_xyz gq])
  unfold LineStringFromWKT
  rw [unparen_clean hcl, Str.split_join ',' _ (by simp) (by simp [xy_not_mem gp (d := ',') (by decide) (by decide), xyz_not_mem gq (d := ',') (by decide) (by decide)])]
  simp only [parseTerms]
  rw [trim_clean (clean_xy gp) ' ' (by decide), trim_clean (clean_xyz gq) ' ' (by decide), split_xy gp, split_xyz gq, parsePos_xy gp, parsePos_xyz gq]
  rfl

/-- for instance `LINESTRING(1 2,3 4 5)` -/
example : PointReads intText ⟨.fin ((1 : ℤ) : ℚ), .fin ((2 : ℤ) : ℚ)⟩ ∧ PointZReads intText ⟨.fin ((3 : ℤ) : ℚ), .fin ((4 : ℤ) : ℚ), .fin ((5 : ℤ) : ℚ)⟩
    ∧ "LINESTRING".toList ++ paren [posText intText ⟨.fin ((1 : ℤ) : ℚ), .fin ((2 : ℤ) : ℚ)⟩, posZText intText ⟨.fin ((3 : ℤ) : ℚ), .fin ((4 : ℤ) : ℚ), .fin ((5 : ℤ) : ℚ)⟩]
      = "LINESTRING(1 2,3 4 5)".toList :=
  ⟨⟨readsBack_int _, readsBack_int _⟩, ⟨readsBack_int _, readsBack_int _, readsBack_int _⟩, by decide +kernel⟩

end GoGeo
