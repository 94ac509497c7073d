import Verif.GeoJson.Lemmas
import Mathlib.Data.List.Nodup
import Mathlib.Data.String.Basic

/-! # Round trips of plain values, geometry objects, features and collections -/

set_option linter.unusedSectionVars false

namespace GoGeo.GeoJson
open GoFloat Json
variable {F : Type} [GoFloat F]

theorem setKey_new {α : Type} {k : String} {v : α} {m : List (String × α)} (h : ∀ k' ∈ m.map Prod.fst, k' < k) : setKey k v m = m ++ [(k, v)] := by
  induction m with
  | nil => rfl
  | cons e m ih =>
    obtain ⟨k', v'⟩ := e
    have h1 : k' < k := h k' (by simp)
    rw [setKey, if_neg h1.ne', if_neg h1.not_gt, ih fun a ha => h a (List.mem_cons_of_mem _ ha)]
    rfl

theorem decodeMembers_new (ms : List (String × Json F)) (acc : List (String × Val F))
    (h : (acc.map Prod.fst ++ ms.map Prod.fst).Pairwise (· < ·)) :
    decodeMembers ms acc = acc ++ ms.map fun e => (e.1, decode e.2) := by
  induction ms generalizing acc with
  | nil => rw [decodeMembers]; simp
  | cons e ms ih =>
    obtain ⟨k, j⟩ := e
    rw [decodeMembers, setKey_new, ih]
    · simp
    · simpa using h
    · intro a ha
      exact (List.pairwise_append.1 h).2.2 a ha k (by simp)

theorem marshalList_trip {l : List (Val F)} (H : ∀ v ∈ l, ∃ j, marshal v = .ok j ∧ decode j = v) :
    ∃ js, marshalList l = .ok js ∧ decodeList js = l := by
  induction l with
  | nil => exact ⟨[], by rw [marshalList], by rw [decodeList]⟩
  | cons v l ih =>
    obtain ⟨j, hj, hd⟩ := H v List.mem_cons_self
    obtain ⟨js, hjs, hds⟩ := ih fun w hw => H w (List.mem_cons_of_mem _ hw)
    exact ⟨j :: js, by rw [marshalList, bindE_ok hj, bindE_ok hjs]; rfl, by rw [decodeList, hd, hds]⟩

theorem marshalMembers_trip {m : List (String × Val F)} (H : ∀ e ∈ m, ∃ j, marshal e.2 = .ok j ∧ decode j = e.2) :
    ∃ js, marshalMembers m = .ok js ∧ js.map (fun e => (e.1, decode e.2)) = m := by
  induction m with
  | nil => exact ⟨[], by rw [marshalMembers], rfl⟩
  | cons e m ih =>
    obtain ⟨k, v⟩ := e
    obtain ⟨j, hj, hd⟩ := H (k, v) List.mem_cons_self
    obtain ⟨js, hjs, hds⟩ := ih fun w hw => H w (List.mem_cons_of_mem _ hw)
    exact ⟨(k, j) :: js, by rw [marshalMembers, bindE_ok hj, bindE_ok hjs]; rfl, by rw [List.map_cons, hds, hd]⟩

theorem decodeMembers_trip {m : List (String × Val F)} {js : List (String × Json F)} (hn : IsMap m)
    (h : js.map (fun e => (e.1, decode e.2)) = m) : decodeMembers js [] = m := by
  rw [decodeMembers_new, h, List.nil_append]
  rw [← h, IsMap, List.map_map] at hn
  exact hn

/-- a plain value survives the round trip -/
theorem plain_trip {v : Val F} (h : Plain v) : ∃ j, marshal v = .ok j ∧ decode j = v := by
  induction h with
  | nil => exact ⟨.null, by rw [marshal], by rw [decode]⟩
  | bool b => exact ⟨.bool b, by rw [marshal], by rw [decode]⟩
  | float x hx => exact ⟨.num x, by rw [marshal]; exact enc_number.ok x hx, by rw [decode]⟩
  | str s => exact ⟨.str s, by rw [marshal], by rw [decode]⟩
  | slice l _ ih =>
    obtain ⟨js, h1, h2⟩ := marshalList_trip ih
    exact ⟨.arr js, by rw [marshal, bindE_ok h1]; rfl, by rw [decode, h2]⟩
  | map m hn _ ih =>
    obtain ⟨js, h1, h2⟩ := marshalMembers_trip ih
    exact ⟨.obj js, by rw [marshal, bindE_ok h1]; rfl, by rw [decode, decodeMembers_trip hn h2]⟩

theorem plainMap_trip {m : List (String × Val F)} (h : PlainMap m) : ∃ js, marshalMembers m = .ok js ∧ decodeMembers js [] = m := by
  obtain ⟨js, h1, h2⟩ := marshalMembers_trip fun e he => plain_trip (h.2 e he)
  exact ⟨js, h1, decodeMembers_trip h.1 h2⟩

/-! ### members -/

theorem members_append {σ : Type} (f : σ → String → Json F → Except String σ) (s : σ) (a b : List (String × Json F)) :
    members f s (a ++ b) = (members f s a >>= fun s => members f s b) := by
  induction a generalizing s with
  | nil => rfl
  | cons e a ih =>
    obtain ⟨k, j⟩ := e
    rw [List.cons_append, members, members]
    cases h : f s k j with
    | error e => rfl
    | ok s' => exact ih s'

theorem members_one {σ : Type} {f : σ → String → Json F → Except String σ} {s s' : σ} {k : String} {j : Json F} (h : f s k j = .ok s') :
    members f s [(k, j)] = .ok s' := by
  rw [members, bindE_ok h, members]

theorem optAny_trip (name : String) {v : Val F} (h : Plain v) : ∃ ms, optAny name v = .ok ms ∧
    ∀ {σ : Type} {f : σ → String → Json F → Except String σ} {s s' : σ}, (∀ j, decode j = v → f s name j = .ok s') → (v = .nil → s = s') →
      members f s ms = .ok s' := by
  by_cases hv : v = .nil
  · subst hv
    exact ⟨[], rfl, fun _ hs => by rw [members, hs rfl]⟩
  · obtain ⟨j, h1, h2⟩ := plain_trip h
    refine ⟨[(name, j)], ?_, fun hf _ => members_one (hf j h2)⟩
    cases v <;> first | exact absurd rfl hv | simp [optAny, h1, bind, Except.bind, pure, Except.pure]

theorem optMap_trip (name : String) {m : List (String × Val F)} (h : PlainMap m) : ∃ ms, optMap name m = .ok ms ∧
    ∀ {σ : Type} {f : σ → String → Json F → Except String σ} {s s' : σ}, (∀ js, decodeMembers js [] = m → f s name (.obj js) = .ok s') →
      (m = [] → s = s') → members f s ms = .ok s' := by
  cases m with
  | nil => exact ⟨[], rfl, fun _ hs => by rw [members, hs rfl]⟩
  | cons e m =>
    obtain ⟨js, h1, h2⟩ := plainMap_trip h
    exact ⟨[(name, .obj js)], by simp [optMap, h1, bind, Except.bind, pure, Except.pure], fun hf _ => members_one (hf js h2)⟩

theorem toNums_trip (l : List F) : toNums (.arr (l.map .num)) = .ok l := by
  rw [toNums]
  induction l with
  | nil => rfl
  | cons x l ih => rw [List.map_cons, mapE, bindE_ok (show toNum (Json.num x) = .ok x from rfl), bindE_ok ih]; rfl

theorem optNums_trip (name : String) {l : List F} (h : ∀ x ∈ l, Finite x) : ∃ ms, optNums name l = .ok ms ∧
    (ms = if l = [] then [] else [(name, .arr (l.map .num))]) ∧
    ∀ {σ : Type} {f : σ → String → Json F → Except String σ} {s s' : σ}, (∀ j, toNums j = .ok l → f s name j = .ok s') → (l = [] → s = s') →
      members f s ms = .ok s' := by
  cases l with
  | nil => exact ⟨[], rfl, rfl, fun _ hs => by rw [members, hs rfl]⟩
  | cons x l =>
    exact ⟨[(name, .arr ((x :: l).map .num))], by
      show ((nums1 (x :: l)) >>= _) = _
      rw [bindE_ok (enc_nums1.ok _ h)]; rfl, rfl, fun hf _ => members_one (hf _ (toNums_trip _))⟩

/-! ### objects -/

theorem obj_trip {o : Obj F} (h : o.Plain) : ∃ m, o.marshal = .ok (.obj m) ∧ Obj.zero.unmarshal (.obj m) = .ok o := by
  obtain ⟨h1, h2, h3⟩ := h
  obtain ⟨m1, e1, t1⟩ := optAny_trip "coordinates" h1
  obtain ⟨m2, e2, t2⟩ := optAny_trip "geometries" h2
  obtain ⟨m3, e3, t3⟩ := optMap_trip "crs" h3
  refine ⟨("type", .str o.Typ) :: (m1 ++ m2 ++ m3), by rw [Obj.marshal, bindE_ok e1, bindE_ok e2, bindE_ok e3]; rfl, ?_⟩
  rw [Obj.unmarshal, members]
  rw [bindE_ok (show (Obj.zero : Obj F).member "type" (.str o.Typ) = .ok { Obj.zero with Typ := o.Typ } from rfl), members_append, members_append,
    t1 (s' := ⟨o.Typ, o.Coordinates, .nil, []⟩)]
  · rw [bindE_ok rfl, t2 (s' := ⟨o.Typ, o.Coordinates, o.Geometries, []⟩)]
    · rw [bindE_ok rfl, t3 (s' := o)]
      · intro js hjs
        show (do return ({ Typ := o.Typ, Coordinates := o.Coordinates, Geometries := o.Geometries, CRS := (← toMap (some []) (.obj js)).getD [] } : Obj F)) = _
        simp [toMap, hjs, bind, Except.bind, pure, Except.pure]
      · intro hc
        cases o; cases hc; rfl
    · intro j hj
      simp [Obj.member, Obj.set, fieldOf, objFields, hj]
    · intro hc; rw [hc]
  · intro j hj
    simp [Obj.member, Obj.set, fieldOf, objFields, hj, Obj.zero]
  · intro hc; rw [hc]; rfl

theorem mapMarshal_trip {p : Option (List (String × Val F))} (h : ∀ m, p = some m → PlainMap m) (hp : p ≠ some []) :
    ∃ j, mapMarshal p = .ok j ∧ toMap none j = .ok p := by
  cases p with
  | none => exact ⟨.null, rfl, rfl⟩
  | some m =>
    obtain ⟨js, h1, h2⟩ := plainMap_trip (h m rfl)
    exact ⟨.obj js, by rw [mapMarshal, bindE_ok h1]; rfl, by rw [toMap]; simp [h2]⟩

theorem ptr_trip {o : Option (Obj F)} (h : ∀ x, o = some x → x.Plain) :
    ∃ j, ptrMarshal o = .ok j ∧ ∀ (f : Feature F), f.GeometryJson = none → f.member "geometry" j = .ok { f with GeometryJson := o } := by
  cases o with
  | none => exact ⟨.null, rfl, fun f hf => by simp [Feature.member, Feature.set, fieldOf, featureFields]⟩
  | some o =>
    obtain ⟨m, h1, h2⟩ := obj_trip (h o rfl)
    exact ⟨.obj m, h1, fun f hf => by simp [Feature.member, Feature.set, fieldOf, featureFields, hf, h2, bind, Except.bind, pure, Except.pure]⟩

/-- the feature that `MarshalJSON` prints -/
theorem feature_marshal (f : Feature F) : f.MarshalJSON = f.kept.print := by
  obtain ⟨id, t, bb, gj, p, crs, g⟩ := f
  simp only [Feature.MarshalJSON, Feature.kept, Feature.zero, Feature.print]
  cases bb <;> cases crs <;> rcases p with _ | (_ | _) <;> rfl

theorem feature_trip {f : Feature F} (h : f.Plain) : ∃ m, f.MarshalJSON = .ok (.obj m) ∧ Feature.zero.unmarshal (.obj m) = .ok f.kept := by
  rw [feature_marshal]
  obtain ⟨h1, h2, h3, h4, h5⟩ := h
  have hp : f.kept.Properties ≠ some [] := by
    simp only [Feature.kept]
    split <;> simp_all
  have h4' : ∀ m, f.kept.Properties = some m → PlainMap m := by
    simp only [Feature.kept]
    intro m hm
    split at hm
    · simp at hm
    · exact h4 m hm
  generalize hk : f.kept = k at hp h4'
  have hid : Plain k.ID := by rw [← hk]; exact h1
  have hbb : ∀ x ∈ k.BoundingBox, Finite x := by rw [← hk]; exact h2
  have hgj : ∀ o, k.GeometryJson = some o → o.Plain := by rw [← hk]; exact h3
  have hcrs : PlainMap k.CRS := by rw [← hk]; exact h5
  have hg : k.Geometry = .nil := by rw [← hk]; rfl
  obtain ⟨m1, e1, t1⟩ := optAny_trip "id" hid
  obtain ⟨m2, e2, -, t2⟩ := optNums_trip "bbox" hbb
  obtain ⟨j3, e3, t3⟩ := ptr_trip hgj
  obtain ⟨j4, e4, t4⟩ := mapMarshal_trip h4' hp
  obtain ⟨m5, e5, t5⟩ := optMap_trip "crs" hcrs
  refine ⟨m1 ++ [("type", .str k.Typ)] ++ m2 ++ [("geometry", j3), ("properties", j4)] ++ m5, by
    rw [Feature.print, bindE_ok e1, bindE_ok e2, bindE_ok e3, bindE_ok e4, bindE_ok e5]; rfl, ?_⟩
  rw [Feature.unmarshal, members_append, members_append, members_append, members_append]
  have s1 : members Feature.member (Feature.zero : Feature F) m1 = .ok { Feature.zero with ID := k.ID } := by
    refine t1 (fun j hj => by simp [Feature.member, Feature.set, fieldOf, featureFields, hj]) fun hv => ?_
    rw [hv]; rfl
  have s2 : members Feature.member { (Feature.zero : Feature F) with ID := k.ID } [("type", .str k.Typ)] =
      .ok { Feature.zero with ID := k.ID, Typ := k.Typ } := members_one rfl
  have s3 : members Feature.member { (Feature.zero : Feature F) with ID := k.ID, Typ := k.Typ } m2 =
      .ok { Feature.zero with ID := k.ID, Typ := k.Typ, BoundingBox := k.BoundingBox } := by
    refine t2 (fun j hj => by simp [Feature.member, Feature.set, fieldOf, featureFields, hj, bind, Except.bind, pure, Except.pure]) fun hv => ?_
    rw [hv]; rfl
  have s4 : members Feature.member { (Feature.zero : Feature F) with ID := k.ID, Typ := k.Typ, BoundingBox := k.BoundingBox }
      [("geometry", j3), ("properties", j4)] =
      .ok { Feature.zero with ID := k.ID, Typ := k.Typ, BoundingBox := k.BoundingBox, GeometryJson := k.GeometryJson, Properties := k.Properties } := by
    rw [members, bindE_ok (t3 _ rfl)]
    refine members_one ?_
    simp [Feature.member, Feature.set, fieldOf, featureFields, Feature.zero, t4, bind, Except.bind, pure, Except.pure]
  have s5 : members Feature.member { (Feature.zero : Feature F) with ID := k.ID, Typ := k.Typ, BoundingBox := k.BoundingBox, GeometryJson := k.GeometryJson, Properties := k.Properties } m5 = .ok k := by
    have hkk : k = { (Feature.zero : Feature F) with ID := k.ID, Typ := k.Typ, BoundingBox := k.BoundingBox, GeometryJson := k.GeometryJson, Properties := k.Properties, CRS := k.CRS } := by
      cases k; cases hg; rfl
    refine t5 (fun js hj => ?_) fun hv => ?_
    · conv_rhs => rw [hkk]
      simp [Feature.member, Feature.set, fieldOf, featureFields, Feature.zero, toMap, hj, bind, Except.bind, pure, Except.pure]
    · conv_rhs => rw [hkk]
      rw [hv]; rfl
  rw [bindE_ok s1, bindE_ok s2, bindE_ok s3, bindE_ok s4, s5]

theorem features_trip {l : List (Option (Feature F))} (h : ∀ f, some f ∈ l → f.Plain) :
    ∃ js, mapE featMarshal l = .ok js ∧ mapE toFeature js = .ok (l.map (Option.map Feature.kept)) := by
  induction l with
  | nil => exact ⟨[], rfl, rfl⟩
  | cons f l ih =>
    obtain ⟨js, h1, h2⟩ := ih fun f hf => h f (List.mem_cons_of_mem _ hf)
    cases f with
    | none => exact ⟨.null :: js, by rw [mapE, bindE_ok (show featMarshal (F := F) none = .ok .null from rfl), bindE_ok h1]; rfl, by rw [mapE, bindE_ok (show toFeature (F := F) .null = .ok none from rfl), bindE_ok h2]; rfl⟩
    | some f =>
      obtain ⟨m, e1, e2⟩ := feature_trip (h f List.mem_cons_self)
      have e2' : toFeature (.obj m) = .ok (some f.kept) := by
        show ((Feature.zero.unmarshal (.obj m)) >>= _) = _
        rw [bindE_ok e2]; rfl
      exact ⟨.obj m :: js, by rw [mapE, bindE_ok (show featMarshal (some f) = _ from e1), bindE_ok h1]; rfl,
        by rw [mapE, bindE_ok e2', bindE_ok h2]; rfl⟩

end GoGeo.GeoJson
