import Verif.Props.Wkt

/-!
# Rings read from WKT are closed: C161
-/

namespace GoGeo.Spec
open GoFloat

variable {F : Type} [GoFloat F]

/-- `r'` is the line `r` of one or more points with heights, closed: `r` itself if its ends agree within 1e-6, else `r` with its first point added -/
def ClosedUpZ (r r' : List (PointZ F)) : Prop :=
  ∃ a b, r.head? = some a ∧ r.getLast? = some b ∧
    ((Near a.X b.X ∧ Near a.Y b.Y ∧ Near a.Z b.Z) ∧ r' = r ∨ ¬ (Near a.X b.X ∧ Near a.Y b.Y ∧ Near a.Z b.Z) ∧ r' = r ++ [a])

/-- the rings of a polygon or of several -/
def ringsOf : Geometry F → List (List (Point F))
  | .polygon rs => rs
  | .multiPolygon ps => ps.flatten
  | _ => []

/-- the rings of a polygon with heights or of several -/
def ringsOfZ : Geometry F → List (List (PointZ F))
  | .polygonZ rs => rs
  | .multiPolygonZ ps => ps.flatten
  | _ => []

end GoGeo.Spec

namespace GoGeo.Wkt
open GoFloat Spec Regex

set_option linter.unusedSectionVars false

variable {F : Type} [GoFloat F] {T : NumText F}

theorem parseAll_mem {f : List Char → Go (Option (Geometry F))} : ∀ {ts : List (List Char)} {gs : List (Geometry F)}, parseAll f ts = .ok (some gs) → ∀ g ∈ gs, ∃ t ∈ ts, f t = .ok (some g)
  | [], gs, h => by cases h; simp
  | t :: ts, gs, h => by
    rw [parseAll] at h
    cases hp : f t with
    | error x => rw [hp] at h; cases h
    | ok o =>
      rw [hp] at h
      cases o with
      | none => cases h
      | some g =>
        cases hq : parseAll f ts with
        | error x =>
          have h' : (do match ← parseAll f ts with | none => .ok none | some gs => .ok (some (g :: gs)) : Go (Option (List (Geometry F)))) = .ok (some gs) := h
          rw [hq] at h'; cases h'
        | ok o =>
          have h' : (do match ← parseAll f ts with | none => .ok none | some gs => .ok (some (g :: gs)) : Go (Option (List (Geometry F)))) = .ok (some gs) := h
          rw [hq] at h'
          cases o with
          | none => cases h'
          | some gs' =>
            cases h'
            intro g' hg'
            rcases List.mem_cons.1 hg' with rfl | hg'
            · exact ⟨t, by simp, hp⟩
            · obtain ⟨u, hu, e⟩ := parseAll_mem hq g' hg'
              exact ⟨u, by simp [hu], e⟩

theorem closeRing_closedUp {l r : List (Point F)} (h : closeRing l = some r) : ClosedUp l r := by
  match l, h with
  | a :: b :: rest, h =>
    obtain ⟨mid, c, hc⟩ : ∃ mid c, b :: rest = mid ++ [c] := ⟨(b :: rest).dropLast, (b :: rest).getLast (by simp), (List.dropLast_append_getLast _).symm⟩
    have hl : (b :: rest).getLast (by simp) = c := by simp [hc]
    simp only [closeRing, hl] at h
    refine ⟨a, mid, c, by rw [hc], ?_⟩
    unfold Point.Equal at h
    split_ifs at h with g
    · left
      rw [Bool.and_eq_true] at g
      exact ⟨g, by simpa using h.symm⟩
    · right
      rw [Bool.and_eq_true] at g
      exact ⟨g, by simpa using h.symm⟩

theorem toRingZ_closedUp {l r : List (PointZ F)} (h : toRingZ l = .ok r) : ClosedUpZ l r := by
  match l, h with
  | a :: rest, h =>
    refine ⟨a, (a :: rest).getLast (by simp), rfl, List.getLast?_eq_some_getLast _, ?_⟩
    have h : (if a.Equal ((a :: rest).getLast (by simp)) = true then Except.ok (a :: rest) else Except.ok (a :: rest ++ [a]) : Go (List (PointZ F))) = .ok r := h
    unfold PointZ.Equal at h
    split_ifs at h with g
    · left
      rw [Bool.and_eq_true, Bool.and_eq_true, and_assoc] at g
      cases h
      exact ⟨g, rfl⟩
    · right
      rw [Bool.and_eq_true, Bool.and_eq_true, and_assoc] at g
      cases h
      exact ⟨g, rfl⟩

/-- `r` is the closure of a line found in the text `v` -/
def FromText (T : NumText F) (v : List Char) (r : List (Point F)) : Prop :=
  ∃ t l, t <:+: v ∧ LineStringFromWKT T t = .ok (some (.lineString l)) ∧ ClosedUp l r

/-- the same of a line with heights -/
def FromTextZ (T : NumText F) (v : List Char) (r : List (PointZ F)) : Prop :=
  ∃ t l, t <:+: v ∧ LineStringFromWKT T t = .ok (some (.lineStringZ l)) ∧ ClosedUpZ l r

theorem line_from {v : List Char} {g : Geometry F} (h : LineStringFromWKT T v = .ok (some g)) :
    (∃ l, l ≠ [] ∧ g = .lineString l) ∨ ∃ l, l ≠ [] ∧ g = .lineStringZ l := by
  unfold LineStringFromWKT at h
  cases hp : parseTerms T (Str.trim (· == ' ')) (Str.split ',' (unparen v)) with
  | error x => rw [hp] at h; cases h
  | ok o =>
    rw [hp] at h
    cases o with
    | none => cases h
    | some ps =>
      have h' : (if ps.filterMap Pos.ls ≠ [] then .ok (some (.lineString (ps.filterMap Pos.ls)))
        else if ps.filterMap Pos.z ≠ [] then .ok (some (.lineStringZ (ps.filterMap Pos.z))) else .ok none : Go (Option (Geometry F))) = .ok (some g) := h
      split_ifs at h' with h1 h2
      · exact Or.inl ⟨_, h1, by cases h'; rfl⟩
      · exact Or.inr ⟨_, h2, by cases h'; rfl⟩
      · cases h'

theorem ring_from {v : List Char} {g : Geometry F} (h : RingFromWKT T v = .ok (some g)) :
    (∀ r, asLine g = some r → FromText T v r) ∧ (∀ r, asLineZ g = some r → FromTextZ T v r) := by
  unfold RingFromWKT at h
  cases hl : LineStringFromWKT T v with
  | error x => rw [hl] at h; cases h
  | ok o =>
    rw [hl] at h
    cases o with
    | none => cases h
    | some g' =>
      cases g' with
      | lineString l =>
        have h' : (do let r ← toRing l; Except.ok (some (Geometry.lineString r)) : Go (Option (Geometry F))) = .ok (some g) := h
        unfold toRing at h'
        cases hc : closeRing l with
        | none => rw [hc] at h'; cases h'
        | some r =>
          rw [hc] at h'; cases h'
          refine ⟨fun r' e => ?_, fun r' e => by cases e⟩
          cases e
          exact ⟨v, l, List.infix_refl _, hl, closeRing_closedUp hc⟩
      | lineStringZ l =>
        have h' : (do let r ← toRingZ l; Except.ok (some (Geometry.lineStringZ r)) : Go (Option (Geometry F))) = .ok (some g) := h
        cases hc : toRingZ l with
        | error x => rw [hc] at h'; cases h'
        | ok r =>
          rw [hc] at h'; cases h'
          refine ⟨fun r' e => by (cases e), fun r' e => ?_⟩
          cases e
          exact ⟨v, l, List.infix_refl _, hl, toRingZ_closedUp hc⟩
      | _ => rcases line_from hl with ⟨l, _, e⟩ | ⟨l, _, e⟩ <;> cases e

theorem polygon_from {v : List Char} {g : Geometry F} (h : PolygonFromWKT T v = .ok (some g)) :
    (∃ rs, rs ≠ [] ∧ g = .polygon rs ∧ ∀ r ∈ rs, FromText T v r) ∨ (∃ rs, rs ≠ [] ∧ g = .polygonZ rs ∧ ∀ r ∈ rs, FromTextZ T v r) := by
  unfold PolygonFromWKT at h
  cases hp : parseAll (RingFromWKT T) ((ringsRe.find v).getD []) with
  | error x => rw [hp] at h; cases h
  | ok o =>
    rw [hp] at h
    cases o with
    | none => cases h
    | some gs =>
      have h' : (if gs.filterMap asLine ≠ [] then .ok (some (.polygon (gs.filterMap asLine)))
        else if gs.filterMap asLineZ ≠ [] then .ok (some (.polygonZ (gs.filterMap asLineZ))) else .ok none : Go (Option (Geometry F))) = .ok (some g) := h
      split_ifs at h' with h1 h2
      · left
        refine ⟨_, h1, by cases h'; rfl, fun r hr => ?_⟩
        obtain ⟨g', hg', e⟩ := List.mem_filterMap.1 hr
        obtain ⟨t, ht, ht'⟩ := parseAll_mem hp g' hg'
        obtain ⟨u, l, hu, hl, hc⟩ := (ring_from ht').1 r e
        exact ⟨u, l, hu.trans (rings_sub ht).2, hl, hc⟩
      · right
        refine ⟨_, h2, by cases h'; rfl, fun r hr => ?_⟩
        obtain ⟨g', hg', e⟩ := List.mem_filterMap.1 hr
        obtain ⟨t, ht, ht'⟩ := parseAll_mem hp g' hg'
        obtain ⟨u, l, hu, hl, hc⟩ := (ring_from ht').2 r e
        exact ⟨u, l, hu.trans (rings_sub ht).2, hl, hc⟩
      · cases h'

theorem multiPolygon_from {v : List Char} {g : Geometry F} (h : MultiPolygonFromWKT T v = .ok (some g)) :
    (∃ ps, g = .multiPolygon ps ∧ ∀ rs ∈ ps, ∀ r ∈ rs, FromText T v r) ∨ (∃ ps, g = .multiPolygonZ ps ∧ ∀ rs ∈ ps, ∀ r ∈ rs, FromTextZ T v r) := by
  unfold MultiPolygonFromWKT at h
  cases hp : parseAll (PolygonFromWKT T) ((polysRe.find v).getD []) with
  | error x => rw [hp] at h; cases h
  | ok o =>
    rw [hp] at h
    cases o with
    | none => cases h
    | some gs =>
      have h' : (if gs.filterMap asPoly ≠ [] then .ok (some (.multiPolygon (gs.filterMap asPoly)))
        else if gs.filterMap asPolyZ ≠ [] then .ok (some (.multiPolygonZ (gs.filterMap asPolyZ))) else .ok none : Go (Option (Geometry F))) = .ok (some g) := h
      split_ifs at h' with h1 h2
      · left
        refine ⟨_, by cases h'; rfl, fun rs hrs r hr => ?_⟩
        obtain ⟨g', hg', e⟩ := List.mem_filterMap.1 hrs
        obtain ⟨t, ht, ht'⟩ := parseAll_mem hp g' hg'
        rcases polygon_from ht' with ⟨rs', _, rfl, k⟩ | ⟨rs', _, rfl, k⟩
        · cases e
          obtain ⟨u, l, hu, hl, hc⟩ := k r hr
          exact ⟨u, l, hu.trans (polys_sub ht).2, hl, hc⟩
        · cases e
      · right
        refine ⟨_, by cases h'; rfl, fun rs hrs r hr => ?_⟩
        obtain ⟨g', hg', e⟩ := List.mem_filterMap.1 hrs
        obtain ⟨t, ht, ht'⟩ := parseAll_mem hp g' hg'
        rcases polygon_from ht' with ⟨rs', _, rfl, k⟩ | ⟨rs', _, rfl, k⟩
        · cases e
        · cases e
          obtain ⟨u, l, hu, hl, hc⟩ := k r hr
          exact ⟨u, l, hu.trans (polys_sub ht).2, hl, hc⟩
      · cases h'

theorem decode_from {s : List Char} {g : Geometry F} (h : Decode T s = .ok (some g)) :
    (∀ r ∈ ringsOf g, FromText T (Str.unspace (Str.trim (· == ' ') s)) r) ∧ (∀ r ∈ ringsOfZ g, FromTextZ T (Str.unspace (Str.trim (· == ' ') s)) r) := by
  have line : ∀ {v : List Char}, LineStringFromWKT T v = .ok (some g) → ringsOf g = [] ∧ ringsOfZ g = [] := by
    intro v hv
    rcases line_from hv with ⟨l, _, rfl⟩ | ⟨l, _, rfl⟩ <;> exact ⟨rfl, rfl⟩
  have none' : ringsOf g = [] ∧ ringsOfZ g = [] →
      (∀ r ∈ ringsOf g, FromText T (Str.unspace (Str.trim (· == ' ') s)) r) ∧ (∀ r ∈ ringsOfZ g, FromTextZ T (Str.unspace (Str.trim (· == ' ') s)) r) := by
    rintro ⟨h1, h2⟩
    rw [h1, h2]
    exact ⟨fun r hr => by simp at hr, fun r hr => by simp at hr⟩
  unfold Decode at h
  split at h
  · rename_i x tag body hf
    obtain ⟨_, hi⟩ := wkt_sub hf
    split_ifs at h
    · rcases multiPolygon_from h with ⟨ps, rfl, k⟩ | ⟨ps, rfl, k⟩
      · refine ⟨fun r hr => ?_, fun r hr => by simp [ringsOfZ] at hr⟩
        obtain ⟨rs, h1, h2⟩ := List.mem_flatten.1 (show r ∈ ps.flatten from hr)
        obtain ⟨u, l, hu, hl, hc⟩ := k rs h1 r h2
        exact ⟨u, l, hu.trans hi, hl, hc⟩
      · refine ⟨fun r hr => by simp [ringsOf] at hr, fun r hr => ?_⟩
        obtain ⟨rs, h1, h2⟩ := List.mem_flatten.1 (show r ∈ ps.flatten from hr)
        obtain ⟨u, l, hu, hl, hc⟩ := k rs h1 r h2
        exact ⟨u, l, hu.trans hi, hl, hc⟩
    · rcases polygon_from h with ⟨rs, _, rfl, k⟩ | ⟨rs, _, rfl, k⟩
      · refine ⟨fun r hr => ?_, fun r hr => by simp [ringsOfZ] at hr⟩
        obtain ⟨u, l, hu, hl, hc⟩ := k r hr
        exact ⟨u, l, hu.trans hi, hl, hc⟩
      · refine ⟨fun r hr => by simp [ringsOf] at hr, fun r hr => ?_⟩
        obtain ⟨u, l, hu, hl, hc⟩ := k r hr
        exact ⟨u, l, hu.trans hi, hl, hc⟩
    · apply none'
      unfold MultiLineStringFromWKT at h
      cases hp : parseAll (LineStringFromWKT T) ((ringsRe.find body).getD []) with
      | error x => rw [hp] at h; cases h
      | ok o =>
        rw [hp] at h
        cases o with
        | none => cases h
        | some gs =>
          have h' : (if gs.filterMap asLine ≠ [] then .ok (some (.multiLineString (gs.filterMap asLine)))
            else if gs.filterMap asLineZ ≠ [] then .ok (some (.multiLineStringZ (gs.filterMap asLineZ))) else .ok none : Go (Option (Geometry F))) = .ok (some g) := h
          split_ifs at h' <;> cases h' <;> exact ⟨rfl, rfl⟩
    · exact none' (line h)
    · apply none'
      unfold MultiPointFromWKT at h
      cases hp : parseTerms T unparen (Str.split ',' (Str.trim (· == ' ') (unparen body))) with
      | error x => rw [hp] at h; cases h
      | ok o =>
        rw [hp] at h
        cases o with
        | none => cases h
        | some ps =>
          have h' : (if ps.filterMap Pos.mp ≠ [] then .ok (some (.multiPoint (ps.filterMap Pos.mp)))
            else if ps.filterMap Pos.z ≠ [] then .ok (some (.multiPointZ (ps.filterMap Pos.z))) else .ok none : Go (Option (Geometry F))) = .ok (some g) := h
          split_ifs at h' <;> cases h' <;> exact ⟨rfl, rfl⟩
    · apply none'
      unfold PointFromWKT at h
      cases hp : parsePos T (Str.split ' ' (Str.trim (· == ' ') body)) with
      | error x => rw [hp] at h; cases h
      | ok o =>
        rw [hp] at h
        rcases o with _ | _ | _ | _ <;> cases h <;> exact ⟨rfl, rfl⟩
    · cases h
  · cases h

end GoGeo.Wkt

namespace GoGeo
open GoFloat Spec Wkt

set_option linter.unusedSectionVars false

variable {F : Type} [GoFloat F] {T : NumText F}

/-- **C161 (rings).** Whatever the text, every ring of a Polygon or MultiPolygon that Decode returns is a line that stands in the text (runs of blanks made one),
of two or more points, closed: the line itself if its ends agree within 1e-6 in x and y, and the line with its first point added otherwise. -/
theorem C161_rings {s : List Char} {g : Geometry F} (h : Decode T s = .ok (some g)) :
    ∀ r ∈ ringsOf g, ∃ t l, t <:+: Str.unspace (Str.trim (· == ' ') s) ∧ LineStringFromWKT T t = .ok (some (.lineString l)) ∧ ClosedUp l r :=
  (decode_from h).1

/-- **C161 (rings with heights).** The same with heights, which count when the ends are compared; one point is enough there. -/
theorem C161_ringsZ {s : List Char} {g : Geometry F} (h : Decode T s = .ok (some g)) :
    ∀ r ∈ ringsOfZ g, ∃ t l, t <:+: Str.unspace (Str.trim (· == ' ') s) ∧ LineStringFromWKT T t = .ok (some (.lineStringZ l)) ∧ ClosedUpZ l r :=
  (decode_from h).2

/-- **C161 (ends).** So the first and the last point of every ring are the same or agree within 1e-6. -/
theorem C161_ends {s : List Char} {g : Geometry F} (h : Decode T s = .ok (some g)) :
    (∀ r ∈ ringsOf g, ∃ a b, r.head? = some a ∧ r.getLast? = some b ∧ (a = b ∨ Near a.X b.X ∧ Near a.Y b.Y)) ∧
    (∀ r ∈ ringsOfZ g, ∃ a b, r.head? = some a ∧ r.getLast? = some b ∧ (a = b ∨ Near a.X b.X ∧ Near a.Y b.Y ∧ Near a.Z b.Z)) := by
  refine ⟨fun r hr => ?_, fun r hr => ?_⟩
  · obtain ⟨t, l, _, _, a, mid, b, rfl, ⟨hn, rfl⟩ | ⟨_, rfl⟩⟩ := C161_rings h r hr
    · exact ⟨a, b, rfl, by rw [← List.cons_append, List.getLast?_append]; rfl, Or.inr hn⟩
    · exact ⟨a, a, rfl, by rw [List.getLast?_append]; rfl, Or.inl rfl⟩
  · obtain ⟨t, l, _, _, a, b, h1, h2, ⟨hn, rfl⟩ | ⟨_, rfl⟩⟩ := C161_ringsZ h r hr
    · exact ⟨a, b, h1, h2, Or.inr hn⟩
    · refine ⟨a, a, ?_, by rw [List.getLast?_append]; rfl, Or.inl rfl⟩
      rw [List.head?_append, h1]; rfl

/-- the coordinates of the rings with heights that were read -/
def heightsRead (r : Go (Option (Geometry (XR ℚ)))) : List (List (XR ℚ × XR ℚ × XR ℚ)) :=
  match r with
  | .ok (some g) => (ringsOfZ g).map fun l => l.map fun p => (p.X, p.Y, p.Z)
  | _ => []

/-- a polygon with heights the decoder accepts: open in the text, closed in the result (and read twice, as in C54) -/
example : heightsRead (Decode intText "POLYGON ((1 23 4, 5 67 8,  9 10 11))".toList) =
    [[(.fin 1, .fin 23, .fin 4), (.fin 5, .fin 67, .fin 8), (.fin 9, .fin 10, .fin 11), (.fin 1, .fin 23, .fin 4)],
     [(.fin 1, .fin 23, .fin 4), (.fin 5, .fin 67, .fin 8), (.fin 9, .fin 10, .fin 11), (.fin 1, .fin 23, .fin 4)]] := by
  decide +kernel

/-- and one without: an open ring in the text is closed -/
example : (match Decode intText "POLYGON((0 0,4 0,0 3))".toList with | .ok (some g) => (ringsOf g).map fun l => l.map fun p => (p.X, p.Y) | _ => []) =
    [[((.fin 0 : XR ℚ), (.fin 0 : XR ℚ)), (.fin 4, .fin 0), (.fin 0, .fin 3), (.fin 0, .fin 0)], [(.fin 0, .fin 0), (.fin 4, .fin 0), (.fin 0, .fin 3), (.fin 0, .fin 0)]] := by
  decide +kernel

end GoGeo
