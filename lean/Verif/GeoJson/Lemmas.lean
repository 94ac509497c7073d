import Verif.Spec.GeoJson

/-! # Lemmas on marshalling and unmarshalling -/

set_option linter.unusedSectionVars false

namespace GoGeo.GeoJson
open GoFloat Json
variable {F : Type} [GoFloat F]

theorem bindE_ok {ε α β : Type} {x : Except ε α} {a : α} (h : x = .ok a) (f : α → Except ε β) : (x >>= f) = f a := by rw [h]; rfl
theorem bindE_error {ε α β : Type} {x : Except ε α} {e : ε} (h : x = .error e) (f : α → Except ε β) : (x >>= f) = .error e := by rw [h]; rfl

theorem mapE_ok {α β : Type} {f : α → Except String β} {h : α → β} {l : List α} (H : ∀ a ∈ l, f a = .ok (h a)) :
    mapE f l = .ok (l.map h) := by
  induction l with
  | nil => rfl
  | cons a l ih =>
    rw [mapE, bindE_ok (H a List.mem_cons_self), bindE_ok (ih fun b hb => H b (List.mem_cons_of_mem _ hb))]
    rfl

theorem mapE_error {α β : Type} {f : α → Except String β} {l : List α} (H : ∃ a ∈ l, ∃ e, f a = .error e) :
    ∃ e, mapE f l = .error e := by
  induction l with
  | nil => obtain ⟨a, ha, -⟩ := H; cases ha
  | cons a l ih =>
    rw [mapE]
    cases hf : f a with
    | error e => exact ⟨e, rfl⟩
    | ok b =>
      obtain ⟨c, hc, e, he⟩ := H
      rcases List.mem_cons.1 hc with rfl | hc
      · rw [hf] at he; cases he
      · obtain ⟨e, he⟩ := ih ⟨c, hc, e, he⟩
        exact ⟨e, by rw [he]; rfl⟩

/-- `f` succeeds exactly on the values with `P`, and then gives `h` -/
structure Enc {α : Type} (f : α → Except String (Json F)) (P : α → Prop) (h : α → Json F) : Prop where
  ok : ∀ a, P a → f a = .ok (h a)
  err : ∀ a, ¬ P a → ∃ e, f a = .error e
  plain : ∀ a, P a → Plain (decode (h a))

theorem decodeList_eq (l : List (Json F)) : decodeList l = l.map decode := by
  induction l with
  | nil => rw [decodeList]; rfl
  | cons a l ih => rw [decodeList, ih]; rfl

theorem decode_arr (l : List (Json F)) : decode (.arr l) = .slice (l.map decode) := by rw [decode, decodeList_eq]

theorem plain_arr {l : List (Json F)} (h : ∀ j ∈ l, Plain (decode j)) : Plain (decode (.arr l)) := by
  rw [decode_arr]
  refine Plain.slice _ fun v hv => ?_
  obtain ⟨j, hj, rfl⟩ := List.mem_map.1 hv
  exact h j hj

theorem unprintable_iff (x : F) : unprintable x = false ↔ Finite x := by
  simp only [unprintable, Bool.or_eq_false_iff, Finite]
  tauto

theorem enc_number : Enc (number (F := F)) Finite .num where
  ok x h := by rw [number, (unprintable_iff x).2 h]; rfl
  err x h := by
    have : unprintable x = true := by
      cases hu : unprintable x with
      | true => rfl
      | false => exact absurd ((unprintable_iff x).1 hu) h
    rw [number, this]
    exact ⟨_, rfl⟩
  plain x h := by rw [decode]; exact Plain.float x h

theorem enc_nums1 : Enc (nums1 (F := F)) (fun l => ∀ x ∈ l, Finite x) (fun l => .arr (l.map .num)) where
  ok l h := by rw [nums1, bindE_ok (mapE_ok fun x hx => enc_number.ok x (h x hx))]; rfl
  err l h := by
    have h' : ∃ x ∈ l, ¬ Finite x := by
      by_contra hc
      exact h fun x hx => by_contra fun hn => hc ⟨x, hx, hn⟩
    obtain ⟨x, hx, hn⟩ := h'
    obtain ⟨e, he⟩ := mapE_error ⟨x, hx, enc_number.err x hn⟩
    exact ⟨e, by rw [nums1, bindE_error he]⟩
  plain l h := plain_arr fun j hj => by
    obtain ⟨x, hx, rfl⟩ := List.mem_map.1 hj
    exact enc_number.plain x (h x hx)

/-- a slice of slices -/
def upJ {α : Type} (h : α → Json F) (l : List α) : Json F := if l.isEmpty then .null else .arr (l.map h)

theorem Enc.up {α : Type} {f : α → Except String (Json F)} {P : α → Prop} {h : α → Json F} (E : Enc f P h) :
    Enc (numsUp f) (fun l => ∀ a ∈ l, P a) (upJ h) where
  ok l hl := by
    cases l with
    | nil => rfl
    | cons a l => rw [numsUp, bindE_ok (mapE_ok fun x hx => E.ok x (hl x hx))]; rfl
  err l hl := by
    cases l with
    | nil => exact absurd (by simp) hl
    | cons a l =>
      have h' : ∃ x ∈ a :: l, ¬ P x := by
        by_contra hc
        exact hl fun x hx => by_contra fun hn => hc ⟨x, hx, hn⟩
      obtain ⟨x, hx, hn⟩ := h'
      obtain ⟨e, he⟩ := mapE_error ⟨x, hx, E.err x hn⟩
      exact ⟨e, by rw [numsUp, bindE_error he]⟩
  plain l hl := by
    cases l with
    | nil => exact Plain.nil
    | cons a l =>
      refine plain_arr fun j hj => ?_
      obtain ⟨x, hx, rfl⟩ := List.mem_map.1 hj
      exact E.plain x (hl x hx)

theorem enc_nums2 : Enc (nums2 (F := F)) (fun l => ∀ a ∈ l, ∀ x ∈ a, Finite x) (upJ fun l => .arr (l.map .num)) := enc_nums1.up
theorem enc_nums3 : Enc (nums3 (F := F)) (fun l => ∀ a ∈ l, ∀ b ∈ a, ∀ x ∈ b, Finite x) (upJ (upJ fun l => .arr (l.map .num))) := enc_nums2.up
theorem enc_nums4 : Enc (nums4 (F := F)) (fun l => ∀ a ∈ l, ∀ b ∈ a, ∀ c ∈ b, ∀ x ∈ c, Finite x)
    (upJ (upJ (upJ fun l => .arr (l.map .num)))) := enc_nums3.up

/-! ### the conversions never fail on their own types -/

theorem poiSet_line (l : List (Point F)) : ConvertPoiSet (.lineString l) = .ok (l.map xy) := mapE_ok fun _ _ => rfl
theorem poiSet_multi (l : List (Point F)) : ConvertPoiSet (.multiPoint l) = .ok (l.map xy) := mapE_ok fun _ _ => rfl
theorem poiZSet_line (l : List (PointZ F)) : ConvertPoiZSet (.lineStringZ l) = .ok (l.map xyz) := mapE_ok fun _ _ => rfl
theorem poiZSet_multi (l : List (PointZ F)) : ConvertPoiZSet (.multiPointZ l) = .ok (l.map xyz) := mapE_ok fun _ _ => rfl
theorem pathSet_line (ls : List (List (Point F))) : ConvertPathSet (.multiLineString ls) = .ok (ls.map (·.map xy)) :=
  mapE_ok fun l _ => poiSet_line l
theorem pathSet_poly (ls : List (List (Point F))) : ConvertPathSet (.polygon ls) = .ok (ls.map (·.map xy)) :=
  mapE_ok fun l _ => poiSet_line l
theorem pathZSet_line (ls : List (List (PointZ F))) : ConvertPathZSet (.multiLineStringZ ls) = .ok (ls.map (·.map xyz)) :=
  mapE_ok fun l _ => poiZSet_line l
theorem pathZSet_poly (ls : List (List (PointZ F))) : ConvertPathZSet (.polygonZ ls) = .ok (ls.map (·.map xyz)) :=
  mapE_ok fun l _ => poiZSet_line l
theorem polySet (ps : List (List (List (Point F)))) : ConvertPolygonSet (.multiPolygon ps) = .ok (ps.map (·.map (·.map xy))) :=
  mapE_ok fun l _ => pathSet_poly l
theorem polyZSet (ps : List (List (List (PointZ F)))) : ConvertPolygonZSet (.multiPolygonZ ps) = .ok (ps.map (·.map (·.map xyz))) :=
  mapE_ok fun l _ => pathZSet_poly l

/-- the document of a geometry object -/
def doc (t : String) (c : Json F) : Json F := .obj [("type", .str t), ("coordinates", c)]

theorem obj_marshal (t : String) {v : Val F} (hv : v ≠ .nil) {j : Json F} (h : marshal v = .ok j) :
    (⟨t, v, .nil, []⟩ : Obj F).marshal = .ok (doc t j) := by
  have h1 : optAny "coordinates" v = .ok [("coordinates", j)] := by
    cases v <;> first | exact absurd rfl hv | simp [optAny, h, bind, Except.bind, pure, Except.pure]
  rw [Obj.marshal, bindE_ok h1]
  rfl

theorem obj_marshal_error (t : String) {v : Val F} (hv : v ≠ .nil) {e : String} (h : marshal v = .error e) :
    (⟨t, v, .nil, []⟩ : Obj F).marshal = .error e := by
  have h1 : optAny "coordinates" v = .error e := by
    cases v <;> first | exact absurd rfl hv | simp [optAny, h, bind, Except.bind]
  rw [Obj.marshal, bindE_error h1]

theorem unmarshal_doc (t : String) (j : Json F) : (Obj.zero : Obj F).unmarshal (doc t j) = .ok ⟨t, decode j, .nil, []⟩ := by
  simp [Obj.unmarshal, doc, members, Obj.member, Obj.set, fieldOf, objFields, toStr, Obj.zero, bind, Except.bind, pure, Except.pure]

/-- the JSON coordinates that the code writes: null for a list without elements -/
def written : Geometry F → Option (String × Json F)
  | .point p => some ("Point", position p)
  | .pointZ p => some ("Point", positionZ p)
  | .multiPoint ps => some ("MultiPoint", upJ position ps)
  | .multiPointZ ps => some ("MultiPoint", upJ positionZ ps)
  | .lineString ps => some ("LineString", upJ position ps)
  | .lineStringZ ps => some ("LineString", upJ positionZ ps)
  | .multiLineString ls => some ("MultiLineString", upJ (upJ position) ls)
  | .multiLineStringZ ls => some ("MultiLineString", upJ (upJ positionZ) ls)
  | .polygon rs => some ("Polygon", upJ (upJ position) rs)
  | .multiPolygon ps => some ("MultiPolygon", upJ (upJ (upJ position)) ps)
  | .multiPolygonZ ps => some ("MultiPolygon", upJ (upJ (upJ positionZ)) ps)
  | _ => none

theorem upJ_map {α β : Type} (h : β → Json F) (k : α → β) (l : List α) : upJ h (l.map k) = upJ (fun a => h (k a)) l := by
  cases l with
  | nil => rfl
  | cons a l =>
    show Json.arr _ = Json.arr _
    rw [List.map_map]
    rfl

theorem forall_map {α β : Type} {k : α → β} {P : β → Prop} {l : List α} : (∀ b ∈ l.map k, P b) ↔ ∀ a ∈ l, P (k a) := by
  simp

theorem marshalGeo_of {g : Geometry F} {t : String} {v : Val F} {j j' : Json F} {P Q : Prop} (hb : build g = .ok ⟨t, v, .nil, []⟩) (hv : v ≠ .nil)
    (hQ : Q ↔ P) (hj : j' = j) (h1 : P → marshal v = .ok j ∧ Plain (decode j)) (h2 : ¬ P → ∃ e, marshal v = .error e) :
    (True ∧ Q → ∃ t' c, some (t, j') = some (t', c) ∧ MarshalGeo g = .ok (doc t' c) ∧ Plain (decode c)) ∧
      (¬ (True ∧ Q) → ∃ e, MarshalGeo g = .error e) := by
  subst hj
  constructor
  · rintro ⟨-, hq⟩
    have hP := hQ.1 hq
    exact ⟨t, j', rfl, by rw [MarshalGeo, bindE_ok hb, obj_marshal t hv (h1 hP).1], (h1 hP).2⟩
  · intro hn
    obtain ⟨e, he⟩ := h2 fun hP => hn ⟨trivial, hQ.2 hP⟩
    exact ⟨e, by rw [MarshalGeo, bindE_ok hb, obj_marshal_error t hv he]⟩

theorem enc_both {α : Type} {f : α → Except String (Json F)} {P : α → Prop} {h : α → Json F} (E : Enc f P h) (a : α) :
    (P a → f a = .ok (h a) ∧ Plain (decode (h a))) ∧ (¬ P a → ∃ e, f a = .error e) :=
  ⟨fun p => ⟨E.ok a p, E.plain a p⟩, E.err a⟩

/-- `MarshalGeo` succeeds exactly on writable geometries with finite coordinates, and writes `written` -/
theorem marshalGeo_spec (g : Geometry F) :
    (Writable g ∧ (∀ x ∈ coords g, Finite x) → ∃ t c, written g = some (t, c) ∧ MarshalGeo g = .ok (doc t c) ∧ Plain (decode c)) ∧
    (¬ (Writable g ∧ ∀ x ∈ coords g, Finite x) → ∃ e, MarshalGeo g = .error e) := by
  cases g with
  | point p => exact marshalGeo_of (v := .nums (xy p)) rfl (by simp) Iff.rfl rfl (enc_both enc_nums1 _).1 (enc_both enc_nums1 _).2
  | pointZ p => exact marshalGeo_of (v := .nums (xyz p)) rfl (by simp) Iff.rfl rfl (enc_both enc_nums1 _).1 (enc_both enc_nums1 _).2
  | multiPoint l =>
    refine marshalGeo_of (v := .nums2 (l.map xy)) (by rw [build, poiSet_multi]; rfl) (by simp) ?_ ?_ (enc_both enc_nums2 _).1 (enc_both enc_nums2 _).2
    · simp [coords]; grind
    · rw [upJ_map]; rfl
  | multiPointZ l =>
    refine marshalGeo_of (v := .nums2 (l.map xyz)) (by rw [build, poiZSet_multi]; rfl) (by simp) ?_ ?_ (enc_both enc_nums2 _).1 (enc_both enc_nums2 _).2
    · simp [coords]; grind
    · rw [upJ_map]; rfl
  | lineString l =>
    refine marshalGeo_of (v := .nums2 (l.map xy)) (by rw [build, poiSet_line]; rfl) (by simp) ?_ ?_ (enc_both enc_nums2 _).1 (enc_both enc_nums2 _).2
    · simp [coords]; grind
    · rw [upJ_map]; rfl
  | lineStringZ l =>
    refine marshalGeo_of (v := .nums2 (l.map xyz)) (by rw [build, poiZSet_line]; rfl) (by simp) ?_ ?_ (enc_both enc_nums2 _).1 (enc_both enc_nums2 _).2
    · simp [coords]; grind
    · rw [upJ_map]; rfl
  | multiLineString l =>
    refine marshalGeo_of (v := .nums3 (l.map (·.map xy))) (by rw [build, pathSet_line]; rfl) (by simp) ?_ ?_ (enc_both enc_nums3 _).1 (enc_both enc_nums3 _).2
    · simp [coords]; grind
    · simp only [upJ_map]; rfl
  | multiLineStringZ l =>
    refine marshalGeo_of (v := .nums3 (l.map (·.map xyz))) (by rw [build, pathZSet_line]; rfl) (by simp) ?_ ?_ (enc_both enc_nums3 _).1 (enc_both enc_nums3 _).2
    · simp [coords]; grind
    · simp only [upJ_map]; rfl
  | polygon l =>
    refine marshalGeo_of (v := .nums3 (l.map (·.map xy))) (by rw [build, pathSet_poly]; rfl) (by simp) ?_ ?_ (enc_both enc_nums3 _).1 (enc_both enc_nums3 _).2
    · simp [coords]; grind
    · simp only [upJ_map]; rfl
  | multiPolygon l =>
    refine marshalGeo_of (v := .nums4 (l.map (·.map (·.map xy)))) (by rw [build, polySet]; rfl) (by simp) ?_ ?_ (enc_both enc_nums4 _).1 (enc_both enc_nums4 _).2
    · simp [coords]; grind
    · simp only [upJ_map]; rfl
  | multiPolygonZ l =>
    refine marshalGeo_of (v := .nums4 (l.map (·.map (·.map xyz)))) (by rw [build, polyZSet]; rfl) (by simp) ?_ ?_ (enc_both enc_nums4 _).1 (enc_both enc_nums4 _).2
    · simp [coords]; grind
    · simp only [upJ_map]; rfl
  | polygonZ l => exact ⟨fun h => h.1.elim, fun _ => ⟨_, rfl⟩⟩
  | collection l => exact ⟨fun h => h.1.elim, fun _ => ⟨_, rfl⟩⟩
  | ptr i l => exact ⟨fun h => h.1.elim, fun _ => ⟨_, rfl⟩⟩
  | nil => exact ⟨fun h => h.1.elim, fun _ => ⟨_, rfl⟩⟩

/-- without empty parts, what is written is the object of RFC 7946 -/
theorem upJ_array {α : Type} (h : α → Json F) {l : List α} (hl : l ≠ []) : upJ h l = array h l := by
  cases l with
  | nil => exact absurd rfl hl
  | cons a l => rfl

theorem upJ_congr {α : Type} {h k : α → Json F} {l : List α} (H : ∀ a ∈ l, h a = k a) : upJ h l = upJ k l := by
  rw [upJ, upJ, List.map_congr_left H]

theorem upJ2 {α : Type} (h : α → Json F) {l : List (List α)} (hl : l ≠ []) (H : ∀ a ∈ l, a ≠ []) :
    upJ (upJ h) l = array (array h) l := by
  rw [upJ_congr (k := array h) fun a ha => upJ_array h (H a ha), upJ_array _ hl]

theorem upJ3 {α : Type} (h : α → Json F) {l : List (List (List α))} (hl : l ≠ []) (H : ∀ a ∈ l, a ≠ [] ∧ ∀ b ∈ a, b ≠ []) :
    upJ (upJ (upJ h)) l = array (array (array h)) l := by
  rw [upJ_congr (k := array (array h)) fun a ha => upJ2 h (H a ha).1 (H a ha).2, upJ_array _ hl]

theorem written_rfc {g : Geometry F} (hw : Writable g) (hn : NoEmptyPart g) : written g = rfc7946 g := by
  cases g with
  | point p => rfl
  | pointZ p => rfl
  | multiPoint l => simp only [written, rfc7946, upJ_array _ hn]
  | multiPointZ l => simp only [written, rfc7946, upJ_array _ hn]
  | lineString l => simp only [written, rfc7946, upJ_array _ hn]
  | lineStringZ l => simp only [written, rfc7946, upJ_array _ hn]
  | multiLineString l => simp only [written, rfc7946, upJ2 _ hn.1 hn.2]
  | multiLineStringZ l => simp only [written, rfc7946, upJ2 _ hn.1 hn.2]
  | polygon l => simp only [written, rfc7946, upJ2 _ hn.1 hn.2]
  | multiPolygon l => simp only [written, rfc7946, upJ3 _ hn.1 hn.2]
  | multiPolygonZ l => simp only [written, rfc7946, upJ3 _ hn.1 hn.2]
  | polygonZ l => exact hw.elim
  | collection l => exact hw.elim
  | ptr i l => exact hw.elim
  | nil => exact hw.elim

/-! ### reading -/

theorem bindG_ok {α β : Type} {x : Go α} {a : α} (h : x = .ok a) (f : α → Go β) : (x >>= f) = f a := by rw [h]; rfl

theorem anyV_ok {f : Val F → Go Bool} {h : Val F → Bool} {l : List (Val F)} (H : ∀ v ∈ l, f v = .ok (h v)) : anyV f l = .ok (l.any h) := by
  induction l with
  | nil => rfl
  | cons a l ih =>
    rw [anyV, bindG_ok (H a List.mem_cons_self), ih fun b hb => H b (List.mem_cons_of_mem _ hb)]
    cases ha : h a <;> simp [List.any_cons, ha] <;> rfl

theorem coord_ok {vI : List (Val F)} {i : Nat} {x : F} : coord vI i = .ok x ↔ vI[i]? = some (.float x) := by
  unfold coord
  split <;> simp_all

theorem interface2D_ok {v : Val F} {l : List (Val F)} : interface2D v = .ok l ↔ v = .slice l := by
  cases v <;> simp [interface2D]

theorem bindG_iff {α β : Type} {x : Go α} {f : α → Go β} {b : β} : (x >>= f) = .ok b ↔ ∃ a, x = .ok a ∧ f a = .ok b := by
  cases x with
  | error e => simp [bind, Except.bind]
  | ok a => simp [bind, Except.bind]

theorem inter2Point_ok {v : Val F} {p : Point F} : inter2Point v = .ok p ↔ At2 v p := by
  simp only [inter2Point, bindG_iff, interface2D_ok, coord_ok]
  constructor
  · rintro ⟨l, rfl, x, hx, y, hy, h⟩
    cases h
    match l, hx, hy with
    | a :: b :: rest, hx, hy =>
      simp at hx hy
      exact ⟨rest, by rw [hx, hy]⟩
  · rintro ⟨rest, rfl⟩
    exact ⟨_, rfl, p.X, rfl, p.Y, rfl, rfl⟩

theorem inter2PointZ_ok {v : Val F} {p : PointZ F} : inter2PointZ v = .ok p ↔ At3 v p := by
  simp only [inter2PointZ, bindG_iff, interface2D_ok, coord_ok]
  constructor
  · rintro ⟨l, rfl, x, hx, y, hy, z, hz, h⟩
    cases h
    match l, hx, hy, hz with
    | a :: b :: c :: rest, hx, hy, hz =>
      simp at hx hy hz
      exact ⟨rest, by rw [hx, hy, hz]⟩
  · rintro ⟨rest, rfl⟩
    exact ⟨_, rfl, p.X, rfl, p.Y, rfl, p.Z, rfl, rfl⟩

theorem eachV_ok {β : Type} {f : Val F → Go β} {R : Val F → β → Prop} (H : ∀ v b, f v = .ok b ↔ R v b) {l : List (Val F)} {bs : List β} :
    eachV f l = .ok bs ↔ List.Forall₂ R l bs := by
  induction l generalizing bs with
  | nil => simp [eachV, eq_comm]
  | cons v l ih =>
    rw [eachV]
    simp only [bindG_iff, H, ih]
    constructor
    · rintro ⟨b, hb, bs', hbs, h⟩
      cases h
      exact .cons hb hbs
    · rintro (_ | ⟨hb, hbs⟩)
      exact ⟨_, hb, _, hbs, rfl⟩

theorem inter2LineString_ok {v : Val F} {ps : List (Point F)} :
    inter2LineString v = .ok ps ↔ ∃ vs, v = .slice vs ∧ List.Forall₂ At2 vs ps := by
  simp only [inter2LineString, bindG_iff, interface2D_ok, eachV_ok fun _ _ => inter2Point_ok]

theorem inter2LineStringZ_ok {v : Val F} {ps : List (PointZ F)} :
    inter2LineStringZ v = .ok ps ↔ ∃ vs, v = .slice vs ∧ List.Forall₂ At3 vs ps := by
  simp only [inter2LineStringZ, bindG_iff, interface2D_ok, eachV_ok fun _ _ => inter2PointZ_ok]

theorem forall2_slices {β : Type} {R : List (Val F) → β → Prop} {l : List (Val F)} {bs : List β} :
    List.Forall₂ (fun v b => ∃ vs, v = .slice vs ∧ R vs b) l bs ↔ ∃ vss : List (List (Val F)), l = vss.map .slice ∧ List.Forall₂ R vss bs := by
  constructor
  · intro h
    induction h with
    | nil => exact ⟨[], rfl, .nil⟩
    | cons hv _ ih =>
      obtain ⟨vs, rfl, hr⟩ := hv
      obtain ⟨vss, rfl, hrs⟩ := ih
      exact ⟨vs :: vss, rfl, .cons hr hrs⟩
  · rintro ⟨vss, rfl, h⟩
    induction h with
    | nil => exact .nil
    | cons hv _ ih => exact .cons ⟨_, rfl, hv⟩ ih

theorem inter2Polygon_ok {v : Val F} {rs : List (List (Point F))} :
    inter2Polygon v = .ok rs ↔ ∃ vss : List (List (Val F)), v = .slice (vss.map .slice) ∧ List.Forall₂ (List.Forall₂ At2) vss rs := by
  simp only [inter2Polygon, bindG_iff, interface2D_ok, eachV_ok fun _ _ => inter2LineString_ok, forall2_slices]
  constructor
  · rintro ⟨l, rfl, vss, rfl, h⟩
    exact ⟨vss, rfl, h⟩
  · rintro ⟨vss, rfl, h⟩
    exact ⟨_, rfl, vss, rfl, h⟩

theorem inter2PolygonZ_ok {v : Val F} {rs : List (List (PointZ F))} :
    inter2PolygonZ v = .ok rs ↔ ∃ vss : List (List (Val F)), v = .slice (vss.map .slice) ∧ List.Forall₂ (List.Forall₂ At3) vss rs := by
  simp only [inter2PolygonZ, bindG_iff, interface2D_ok, eachV_ok fun _ _ => inter2LineStringZ_ok, forall2_slices]
  constructor
  · rintro ⟨l, rfl, vss, rfl, h⟩
    exact ⟨vss, rfl, h⟩
  · rintro ⟨vss, rfl, h⟩
    exact ⟨_, rfl, vss, rfl, h⟩

/-! ### the tests for altitudes -/

theorem isInterPointZ_slice (l : List (Val F)) : isInterPointZ (.slice l) = .ok (l.length == 3) := rfl

theorem triple_iff (l : List (Val F)) : Triple (.slice l) ↔ (l.length == 3) = true := by
  simp only [beq_iff_eq, List.length_eq_three, Triple, Val.slice.injEq]

theorem isInterLineZ_slices (ls : List (List (Val F))) : isInterLineZ (.slice (ls.map .slice)) = .ok (ls.any fun l => l.length == 3) := by
  show anyV isInterPointZ _ = _
  rw [anyV_ok (h := fun v => match v with | .slice l => l.length == 3 | _ => false)]
  · rw [List.any_map]; rfl
  · intro v hv
    obtain ⟨l, -, rfl⟩ := List.mem_map.1 hv
    rfl

theorem isInterPolygonZ_slices (pss : List (List (List (Val F)))) :
    isInterPolygonZ (.slice (pss.map fun ls => .slice (ls.map .slice))) = .ok (pss.any fun ls => ls.any fun l => l.length == 3) := by
  show anyV isInterLineZ _ = _
  have : ∀ ls : List (List (Val F)), isInterLineZ (.slice (ls.map .slice)) = .ok (ls.any fun l => l.length == 3) := isInterLineZ_slices
  induction pss with
  | nil => rfl
  | cons ls pss ih =>
    rw [List.map_cons, anyV, bindG_ok (this ls), ih]
    cases h : ls.any fun l => l.length == 3 <;> simp [List.any_cons, h] <;> rfl

theorem at2_slices {vs : List (Val F)} {ps : List (Point F)} (h : List.Forall₂ At2 vs ps) : ∃ ls : List (List (Val F)), vs = ls.map .slice := by
  induction h with
  | nil => exact ⟨[], rfl⟩
  | cons h _ ih =>
    obtain ⟨r, rfl⟩ := h
    obtain ⟨ls, rfl⟩ := ih
    exact ⟨_ :: ls, rfl⟩

theorem at3_slices {vs : List (Val F)} {ps : List (PointZ F)} (h : List.Forall₂ At3 vs ps) : ∃ ls : List (List (Val F)), vs = ls.map .slice := by
  induction h with
  | nil => exact ⟨[], rfl⟩
  | cons h _ ih =>
    obtain ⟨r, rfl⟩ := h
    obtain ⟨ls, rfl⟩ := ih
    exact ⟨_ :: ls, rfl⟩

theorem forall2_slices' {β : Type} {R : List (Val F) → β → Prop} (H : ∀ vs b, R vs b → ∃ ls : List (List (Val F)), vs = ls.map .slice)
    {vss : List (List (Val F))} {bs : List β} (h : List.Forall₂ R vss bs) :
    ∃ lss : List (List (List (Val F))), vss = lss.map (·.map .slice) := by
  induction h with
  | nil => exact ⟨[], rfl⟩
  | cons h _ ih =>
    obtain ⟨ls, rfl⟩ := H _ _ h
    obtain ⟨lss, rfl⟩ := ih
    exact ⟨ls :: lss, rfl⟩

theorem some_triple (ls : List (List (Val F))) : (∃ w ∈ ls.map Val.slice, Triple w) ↔ (ls.any fun l => l.length == 3) = true := by
  rw [List.any_eq_true]
  constructor
  · rintro ⟨w, hw, ht⟩
    obtain ⟨l, hl, rfl⟩ := List.mem_map.1 hw
    exact ⟨l, hl, (triple_iff l).1 ht⟩
  · rintro ⟨l, hl, h⟩
    exact ⟨_, List.mem_map_of_mem hl, (triple_iff l).2 h⟩

theorem no_triple (ls : List (List (Val F))) : (∀ w ∈ ls.map Val.slice, ¬ Triple w) ↔ (ls.any fun l => l.length == 3) = false := by
  rw [← Bool.not_eq_true, ← some_triple]
  push Not
  rfl

/-- `UnmarshalGeo` of a point -/
theorem unmarshal_point (o : Obj F) (ht : o.Typ = "Point") (r : Except String (Geometry F)) :
    UnmarshalGeo (some o) = .ok r ↔ ∃ g, r = .ok g ∧ ReadsPoint o.Coordinates g := by
  have hu : UnmarshalGeo (some o) = (do
      if ← isInterPointZ o.Coordinates then return .ok (.pointZ (← inter2PointZ o.Coordinates))
      else return .ok (.point (← inter2Point o.Coordinates))) := by
    rw [UnmarshalGeo, if_pos ht]
  rw [hu]
  constructor
  · intro h
    rw [bindG_iff] at h
    obtain ⟨b, hb, h⟩ := h
    have hs : ∃ l, o.Coordinates = .slice l := by
      rw [isInterPointZ, bindG_iff] at hb
      obtain ⟨l, hl, -⟩ := hb
      exact ⟨l, interface2D_ok.1 hl⟩
    obtain ⟨l, hl⟩ := hs
    rw [hl, isInterPointZ_slice] at hb
    cases hb
    rw [hl] at h ⊢
    by_cases ht3 : (l.length == 3) = true
    · rw [if_pos ht3, bindG_iff] at h
      obtain ⟨p, hp, h⟩ := h
      cases h
      exact ⟨_, rfl, .inl ⟨(triple_iff l).2 ht3, p, inter2PointZ_ok.1 hp, rfl⟩⟩
    · rw [if_neg ht3, bindG_iff] at h
      obtain ⟨p, hp, h⟩ := h
      cases h
      exact ⟨_, rfl, .inr ⟨fun h => ht3 ((triple_iff l).1 h), p, inter2Point_ok.1 hp, rfl⟩⟩
  · rintro ⟨g, rfl, ⟨ht, p, hp, rfl⟩ | ⟨ht, p, hp, rfl⟩⟩
    · have h1 := inter2PointZ_ok.2 hp
      obtain ⟨rest, hr⟩ := hp
      rw [hr] at ht h1 ⊢
      rw [isInterPointZ_slice, (triple_iff _).1 ht]
      rw [bindG_ok (x := Except.ok true) rfl, if_pos rfl, bindG_ok h1]
      rfl
    · have h1 := inter2Point_ok.2 hp
      obtain ⟨rest, hr⟩ := hp
      rw [hr] at ht h1 ⊢
      rw [isInterPointZ_slice, Bool.eq_false_iff.2 (mt (triple_iff _).2 ht)]
      rw [bindG_ok (x := Except.ok false) rfl, if_neg (by decide), bindG_ok h1]
      rfl

/-- `UnmarshalGeo` of a line -/
theorem unmarshal_line (o : Obj F) (ht : o.Typ = "LineString") (r : Except String (Geometry F)) :
    UnmarshalGeo (some o) = .ok r ↔ ∃ g, r = .ok g ∧ ReadsLine o.Coordinates g := by
  have hu : UnmarshalGeo (some o) = (do
      if ← isInterLineZ o.Coordinates then return .ok (.lineStringZ (← inter2LineStringZ o.Coordinates))
      else return .ok (.lineString (← inter2LineString o.Coordinates))) := by
    rw [UnmarshalGeo, if_neg (by rw [ht]; decide), if_neg (by rw [ht]; decide), if_pos ht]
  rw [hu]
  constructor
  · intro h
    rw [bindG_iff] at h
    obtain ⟨b, hb, h⟩ := h
    cases b with
    | true =>
      rw [if_pos rfl, bindG_iff] at h
      obtain ⟨ps, hp, h⟩ := h
      cases h
      obtain ⟨vs, hv, hf⟩ := inter2LineStringZ_ok.1 hp
      obtain ⟨ls, rfl⟩ := at3_slices hf
      rw [hv, isInterLineZ_slices] at hb
      exact ⟨_, rfl, _, hv, .inl ⟨(some_triple ls).2 (by simpa using hb), ps, hf, rfl⟩⟩
    | false =>
      rw [if_neg (by decide), bindG_iff] at h
      obtain ⟨ps, hp, h⟩ := h
      cases h
      obtain ⟨vs, hv, hf⟩ := inter2LineString_ok.1 hp
      obtain ⟨ls, rfl⟩ := at2_slices hf
      rw [hv, isInterLineZ_slices] at hb
      exact ⟨_, rfl, _, hv, .inr ⟨(no_triple ls).2 (by injection hb), ps, hf, rfl⟩⟩
  · rintro ⟨g, rfl, vs, hv, ⟨ht, ps, hf, rfl⟩ | ⟨ht, ps, hf, rfl⟩⟩
    · have h1 := inter2LineStringZ_ok.2 ⟨vs, rfl, hf⟩
      obtain ⟨ls, rfl⟩ := at3_slices hf
      rw [hv, isInterLineZ_slices, (some_triple ls).1 ht]
      exact (bindG_ok h1 _).trans rfl
    · have h1 := inter2LineString_ok.2 ⟨vs, rfl, hf⟩
      obtain ⟨ls, rfl⟩ := at2_slices hf
      rw [hv, isInterLineZ_slices, (no_triple ls).1 ht]
      exact (bindG_ok h1 _).trans rfl

theorem some_triple2 (lss : List (List (List (Val F)))) :
    (∃ vs ∈ lss.map (·.map Val.slice), ∃ w ∈ vs, Triple w) ↔ (lss.any fun ls => ls.any fun l => l.length == 3) = true := by
  rw [List.any_eq_true]
  constructor
  · rintro ⟨vs, hvs, ht⟩
    obtain ⟨ls, hl, rfl⟩ := List.mem_map.1 hvs
    exact ⟨ls, hl, (some_triple ls).1 ht⟩
  · rintro ⟨ls, hl, h⟩
    exact ⟨_, List.mem_map_of_mem hl, (some_triple ls).2 h⟩

theorem no_triple2 (lss : List (List (List (Val F)))) :
    (∀ vs ∈ lss.map (·.map Val.slice), ∀ w ∈ vs, ¬ Triple w) ↔ (lss.any fun ls => ls.any fun l => l.length == 3) = false := by
  rw [← Bool.not_eq_true, ← some_triple2]
  push Not
  rfl

theorem polySlices (lss : List (List (List (Val F)))) :
    (lss.map (·.map Val.slice)).map Val.slice = lss.map fun ls => Val.slice (ls.map .slice) := by
  rw [List.map_map]; rfl

/-- `UnmarshalGeo` of a polygon -/
theorem unmarshal_polygon (o : Obj F) (ht : o.Typ = "Polygon") (r : Except String (Geometry F)) :
    UnmarshalGeo (some o) = .ok r ↔ ∃ g, r = .ok g ∧ ReadsPolygon o.Coordinates g := by
  have hu : UnmarshalGeo (some o) = (do
      if ← isInterPolygonZ o.Coordinates then return .ok (.polygonZ (← inter2PolygonZ o.Coordinates))
      else return .ok (.polygon (← inter2Polygon o.Coordinates))) := by
    rw [UnmarshalGeo, if_neg (by rw [ht]; decide), if_neg (by rw [ht]; decide), if_neg (by rw [ht]; decide), if_neg (by rw [ht]; decide),
      if_pos ht]
  rw [hu]
  constructor
  · intro h
    rw [bindG_iff] at h
    obtain ⟨b, hb, h⟩ := h
    cases b with
    | true =>
      rw [if_pos rfl, bindG_iff] at h
      obtain ⟨ps, hp, h⟩ := h
      cases h
      obtain ⟨vss, hv, hf⟩ := inter2PolygonZ_ok.1 hp
      obtain ⟨lss, rfl⟩ := forall2_slices' (fun _ _ => at3_slices) hf
      rw [hv, polySlices, isInterPolygonZ_slices] at hb
      exact ⟨_, rfl, _, hv, .inl ⟨(some_triple2 lss).2 (by injection hb), ps, hf, rfl⟩⟩
    | false =>
      rw [if_neg (by decide), bindG_iff] at h
      obtain ⟨ps, hp, h⟩ := h
      cases h
      obtain ⟨vss, hv, hf⟩ := inter2Polygon_ok.1 hp
      obtain ⟨lss, rfl⟩ := forall2_slices' (fun _ _ => at2_slices) hf
      rw [hv, polySlices, isInterPolygonZ_slices] at hb
      exact ⟨_, rfl, _, hv, .inr ⟨(no_triple2 lss).2 (by injection hb), ps, hf, rfl⟩⟩
  · rintro ⟨g, rfl, vs, hv, ⟨ht, ps, hf, rfl⟩ | ⟨ht, ps, hf, rfl⟩⟩
    · have h1 := inter2PolygonZ_ok.2 ⟨vs, rfl, hf⟩
      obtain ⟨lss, rfl⟩ := forall2_slices' (fun _ _ => at3_slices) hf
      rw [polySlices] at h1 hv
      rw [hv, isInterPolygonZ_slices, (some_triple2 lss).1 ht]
      exact (bindG_ok h1 _).trans rfl
    · have h1 := inter2Polygon_ok.2 ⟨vs, rfl, hf⟩
      obtain ⟨lss, rfl⟩ := forall2_slices' (fun _ _ => at2_slices) hf
      rw [polySlices] at h1 hv
      rw [hv, isInterPolygonZ_slices, (no_triple2 lss).1 ht]
      exact (bindG_ok h1 _).trans rfl

/-! ### documents of RFC 7946 are read as the geometries they stand for -/

theorem decode_position (p : Point F) : decode (position p) = .slice [.float p.X, .float p.Y] := rfl
theorem decode_positionZ (p : PointZ F) : decode (positionZ p) = .slice [.float p.X, .float p.Y, .float p.Z] := rfl

theorem decode_array {α : Type} (f : α → Json F) (l : List α) : decode (array f l) = .slice (l.map fun a => decode (f a)) := by
  rw [array, decode_arr, List.map_map]; rfl

theorem not_triple (p : Point F) : ¬ Triple (decode (position p)) := by
  rw [decode_position]
  rintro ⟨a, b, c, h⟩
  injection h with h
  simp at h

theorem is_triple (p : PointZ F) : Triple (decode (positionZ p)) := ⟨_, _, _, decode_positionZ p⟩
theorem at2_position (p : Point F) : At2 (decode (position p)) p := ⟨[], decode_position p⟩
theorem at3_position (p : PointZ F) : At3 (decode (positionZ p)) p := ⟨[], decode_positionZ p⟩

theorem forall2_map {α β : Type} {R : β → α → Prop} {f : α → β} (H : ∀ a, R (f a) a) (l : List α) : List.Forall₂ R (l.map f) l := by
  induction l with
  | nil => exact .nil
  | cons a l ih => exact .cons (H a) ih

theorem reads_rfc {g : Geometry F} (hr : Readable g) (hn : NoEmptyPart g) :
    ∃ t c, rfc7946 g = some (t, c) ∧ Reads t (decode c) g := by
  cases g with
  | point p => exact ⟨_, _, rfl, .inl ⟨rfl, .inr ⟨not_triple p, p, at2_position p, rfl⟩⟩⟩
  | pointZ p => exact ⟨_, _, rfl, .inl ⟨rfl, .inl ⟨is_triple p, p, at3_position p, rfl⟩⟩⟩
  | lineString ps =>
    refine ⟨_, _, rfl, .inr (.inl ⟨rfl, _, decode_array _ _, .inr ⟨?_, ps, forall2_map at2_position ps, rfl⟩⟩)⟩
    intro w hw
    obtain ⟨p, -, rfl⟩ := List.mem_map.1 hw
    exact not_triple p
  | lineStringZ ps =>
    refine ⟨_, _, rfl, .inr (.inl ⟨rfl, _, decode_array _ _, .inl ⟨?_, ps, forall2_map at3_position ps, rfl⟩⟩)⟩
    obtain ⟨p, ps', rfl⟩ := List.exists_cons_of_ne_nil hn
    exact ⟨_, List.mem_cons_self, is_triple p⟩
  | polygon rs =>
    refine ⟨_, _, rfl, .inr (.inr ⟨rfl, rs.map fun r => r.map fun p => decode (position p), ?_, .inr ⟨?_, rs, forall2_map (forall2_map at2_position) rs, rfl⟩⟩)⟩
    · rw [decode_array, List.map_map]
      exact congrArg _ (List.map_congr_left fun r _ => decode_array _ _)
    · intro vs hvs w hw
      obtain ⟨r, -, rfl⟩ := List.mem_map.1 hvs
      obtain ⟨p, -, rfl⟩ := List.mem_map.1 hw
      exact not_triple p
  | polygonZ rs =>
    refine ⟨_, _, rfl, .inr (.inr ⟨rfl, rs.map fun r => r.map fun p => decode (positionZ p), ?_, .inl ⟨?_, rs, forall2_map (forall2_map at3_position) rs, rfl⟩⟩)⟩
    · rw [decode_array, List.map_map]
      exact congrArg _ (List.map_congr_left fun r _ => decode_array _ _)
    · obtain ⟨r, rs', rfl⟩ := List.exists_cons_of_ne_nil hn.1
      obtain ⟨p, ps', rfl⟩ := List.exists_cons_of_ne_nil (hn.2 r List.mem_cons_self)
      exact ⟨_, List.mem_cons_self, _, List.mem_cons_self, is_triple p⟩
  | _ => exact hr.elim

end GoGeo.GeoJson
