import Mathlib.Data.List.GetD
import Verif.GeoJson.Reuse
import Verif.Spec.GeoJsonRepeat
import Verif.Props.GeoJsonNames

/-! # C110: repeated `bbox` and `features` -/

set_option linter.unusedSectionVars false

namespace GoGeo.GeoJson.Reuse
open GoFloat Json

/-! ### reading into a slice -/

section
variable {F : Type} [GoFloat F] {α : Type}

theorem bindE_assoc {ε α β γ : Type} (x : Except ε α) (f : α → Except ε β) (g : β → Except ε γ) :
    (x >>= f >>= g) = (x >>= fun a => f a >>= g) := by cases x <;> rfl

/-- the length of a slice is at most its capacity -/
def Buf.WF (b : Buf α) : Prop := b.len ≤ b.cells.length

theorem grow_length (zero : α) {b : Buf α} {i : Nat} (h : b.WF) (hi : i ≤ b.len) : i < (b.grow zero i).length ∧ b.len ≤ (b.grow zero i).length := by
  unfold Buf.WF at h
  unfold Buf.grow
  split
  · rename_i hc
    simp only [Buf.elems, List.length_append, List.length_take, List.length_replicate]
    omega
  · omega

theorem grow_getD (zero : α) {b : Buf α} {i : Nat} (h : b.WF) (hi : i ≤ b.len) (n : Nat) : (b.grow zero i).getD n zero = b.cells.getD n zero := by
  unfold Buf.WF at h
  unfold Buf.grow
  split
  · rename_i hc
    have he : b.elems = b.cells := List.take_of_length_le (by omega)
    rw [he]
    by_cases hn : n < b.cells.length
    · rw [List.getD_append _ _ _ _ hn]
    · rw [List.getD_append_right _ _ _ _ (by omega), List.getD_eq_default _ _ (by omega : b.cells.length ≤ n)]
      rw [List.getD_eq_getElem?_getD, List.getElem?_replicate]
      split <;> rfl
  · rfl

theorem take_eq_of_getD (zero : α) {l l' : List α} {i : Nat} (h : i ≤ l.length) (h' : i ≤ l'.length) (H : ∀ n < i, l.getD n zero = l'.getD n zero) :
    l.take i = l'.take i := by
  refine List.ext_getElem (by simp only [List.length_take]; omega) fun n h1 h2 => ?_
  simp only [List.length_take] at h1 h2
  rw [List.getElem_take, List.getElem_take, ← List.getD_eq_getElem l zero (by omega), ← List.getD_eq_getElem l' zero (by omega)]
  exact H n (by omega)

theorem getD_set (zero : α) (l : List α) (i n : Nat) (x : α) : (l.set i x).getD n zero = if i = n ∧ n < l.length then x else l.getD n zero := by
  rw [List.getD_eq_getElem?_getD, List.getD_eq_getElem?_getD, List.getElem?_set]
  by_cases h : i = n
  · subst h
    by_cases hl : i < l.length <;> simp [hl]
  · simp [h]

theorem mapE_congr {β γ : Type} {f g : β → Except String γ} {l : List β} (h : ∀ a ∈ l, f a = g a) : mapE f l = mapE g l := by
  induction l with
  | nil => rfl
  | cons a l ih => rw [mapE, mapE, h a List.mem_cons_self, ih fun b hb => h b (List.mem_cons_of_mem _ hb)]

/-- reading element by element: each one into its old cell, or into a new one -/
theorem readFrom_spec (zero : α) (dec : α → Json F → Except String α) (js : List (Json F)) (i : Nat) (b : Buf α) (h : b.WF) (hi : i ≤ b.len) :
    (readFrom zero dec js i b >>= fun b' => pure b'.elems) =
      (mapE (fun p : Json F × Nat => dec (b.cells.getD p.2 zero) p.1) (js.zipIdx i) >>= fun rs => pure (b.cells.take i ++ rs)) ∧
    ∀ b', readFrom zero dec js i b = .ok b' → b'.WF := by
  induction js generalizing i b with
  | nil =>
    unfold Buf.WF at h
    have e : readFrom zero dec [] i b = .ok (if i = 0 then .nil else ⟨b.cells, i⟩) := rfl
    rw [e, bindE_ok rfl, List.zipIdx_nil, mapE, bindE_ok rfl, List.append_nil]
    refine ⟨?_, ?_⟩
    · by_cases h0 : i = 0
      · subst h0; rfl
      · rw [if_neg h0]; rfl
    · intro b' hb
      cases hb
      unfold Buf.WF
      split
      · exact Nat.le_refl _
      · show i ≤ b.cells.length
        omega
  | cons j js ih =>
    obtain ⟨g1, g2⟩ := grow_length zero h hi
    have e : readFrom zero dec (j :: js) i b = (dec ((b.grow zero i).getD i zero) j >>= fun x =>
        readFrom zero dec js (i + 1) ⟨(b.grow zero i).set i x, max b.len (i + 1)⟩) := rfl
    rw [e, List.zipIdx_cons, mapE, grow_getD zero h hi]
    cases hd : dec (b.cells.getD i zero) j with
    | error s =>
      refine ⟨rfl, fun b' hb => ?_⟩
      cases hb
    | ok x =>
      have hw : Buf.WF (⟨(b.grow zero i).set i x, max b.len (i + 1)⟩ : Buf α) := by
        unfold Buf.WF
        simp only [List.length_set]
        omega
      obtain ⟨h1, h2⟩ := ih (i + 1) ⟨(b.grow zero i).set i x, max b.len (i + 1)⟩ hw (Nat.le_max_right _ _)
      refine ⟨?_, fun b' hb => h2 b' hb⟩
      rw [bindE_ok rfl, h1, bindE_ok rfl]
      have hc : mapE (fun p : Json F × Nat => dec (((b.grow zero i).set i x).getD p.2 zero) p.1) (js.zipIdx (i + 1)) =
          mapE (fun p : Json F × Nat => dec (b.cells.getD p.2 zero) p.1) (js.zipIdx (i + 1)) := by
        refine mapE_congr fun p hp => ?_
        have := List.le_snd_of_mem_zipIdx hp
        rw [getD_set, if_neg (by omega), grow_getD zero h hi]
      show (mapE (fun p : Json F × Nat => dec (((b.grow zero i).set i x).getD p.2 zero) p.1) (js.zipIdx (i + 1)) >>= _) = _
      rw [hc, bindE_assoc]
      refine congrArg _ (funext fun rs => ?_)
      show Except.ok _ = Except.ok _
      congr 1
      have ht : ((b.grow zero i).set i x).take (i + 1) = b.cells.take i ++ [x] := by
        rw [List.take_add_one, List.getElem?_set_self g1, List.take_set_of_le (Nat.le_refl i)]
        congr 1
        unfold Buf.WF at h
        exact take_eq_of_getD zero (by omega) (by omega) fun n _ => grow_getD zero h hi n
      show ((b.grow zero i).set i x).take (i + 1) ++ rs = _
      rw [ht, List.append_assoc]
      rfl

theorem mapE_zipIdx {β γ : Type} (f : β → Except String γ) (l : List β) (i : Nat) : mapE (fun p : β × Nat => f p.1) (l.zipIdx i) = mapE f l := by
  induction l generalizing i with
  | nil => rfl
  | cons a l ih => rw [List.zipIdx_cons, mapE, mapE, ih]

/-- a new slice -/
theorem readFrom_nil (zero : α) (dec : α → Json F → Except String α) (js : List (Json F)) :
    (readFrom zero dec js 0 .nil >>= fun b' => pure b'.elems) = mapE (dec zero) js := by
  rw [(readFrom_spec zero dec js 0 .nil (Nat.le_refl _) (Nat.le_refl _)).1]
  have : (fun p : Json F × Nat => dec ((Buf.nil : Buf α).cells.getD p.2 zero) p.1) = fun p => dec zero p.1 := by
    funext p
    show dec (([] : List α).getD p.2 zero) p.1 = _
    rw [List.getD_nil]
  rw [this, mapE_zipIdx]
  cases mapE (dec zero) js <;> rfl

theorem numsInto_wf {b b' : Buf F} {j : Json F} (h : b.WF) (e : numsInto b j = .ok b') : b'.WF := by
  unfold numsInto at e
  split at e
  · cases e; exact Nat.le_refl _
  · exact (readFrom_spec _ _ _ _ _ h (Nat.zero_le _)).2 _ e
  · cases e

theorem numsInto_nil (j : Json F) : (numsInto .nil j >>= fun b => pure b.elems) = toNums j := by
  cases j with
  | arr l =>
    show (readFrom (lit 0) numInto l 0 .nil >>= fun b => pure b.elems) = mapE toNum l
    rw [readFrom_nil]
    refine mapE_congr fun a _ => ?_
    cases a <;> rfl
  | _ => rfl

theorem mapE_nums (g : F → Nat → F) (xs : List F) (i : Nat) :
    mapE (fun p : Json F × Nat => numInto (g (lit 0) p.2) p.1) ((xs.map Json.num).zipIdx i) = .ok xs := by
  induction xs generalizing i with
  | nil => rfl
  | cons x xs ih =>
    rw [List.map_cons, List.zipIdx_cons, mapE]
    show (Except.ok x >>= _) = _
    rw [bindE_ok rfl, ih]
    rfl

/-- an array of numbers replaces whatever was there -/
theorem numsInto_nums {b b' : Buf F} (h : b.WF) {xs : List F} (e : numsInto b (.arr (xs.map .num)) = .ok b') : b'.elems = xs := by
  have h1 := (readFrom_spec (lit 0) numInto (xs.map Json.num) 0 b h (Nat.zero_le _)).1
  have e' : readFrom (lit 0) numInto (xs.map Json.num) 0 b = .ok b' := e
  rw [e', mapE_nums (fun z n => b.cells.getD n z)] at h1
  injection h1

/-! ### names -/

theorem fieldOf_some {names : List String} {k n : String} (h : fieldOf names k = some n) : CaseVariant n k := by
  unfold fieldOf at h
  split at h
  · cases h; exact variant_self _
  · exact (equalFold_iff _ _).1 (by simpa using List.find?_some h)

/-- no member other than the first one found has the name `n`, in whatever mixture of cases -/
theorem none_after {n : String} {k : String} {j : Json F} {m : List (String × Json F)} (hk : CaseVariant n k) (h : Once n ((k, j) :: m)) :
    Absent n m := fun q hq hv => (List.pairwise_cons.1 h).1 q hq ⟨hk, hv⟩

/-! ### features -/

theorem feat_set_other {s : Feat F} {n : String} (hn : n ≠ "bbox") (j : Json F) : s.set n j = (s.f.set n j >>= fun f => pure ⟨f, s.bbox⟩) := by
  unfold Feat.set
  rw [if_neg hn]

theorem feature_set_bbox (f : Feature F) (j : Json F) : f.set "bbox" j = (toNums j >>= fun b => pure { f with BoundingBox := b }) := by
  unfold Feature.set
  rw [if_neg (by decide), if_neg (by decide), if_pos rfl]

theorem feat_members (m : List (String × Json F)) (s : Feat F) (h : s.bbox = .nil ∧ Once "bbox" m ∨ Absent "bbox" m) :
    (members Feat.member s m >>= fun s => pure s.f) = members Feature.member s.f m := by
  induction m generalizing s with
  | nil => rfl
  | cons p m ih =>
    obtain ⟨k, j⟩ := p
    have hm : Once "bbox" m ∨ Absent "bbox" m := h.imp (fun h => (List.pairwise_cons.1 h.2).2) fun h q hq => h q (List.mem_cons_of_mem _ hq)
    have ha : Absent "bbox" ((k, j) :: m) → Absent "bbox" m := fun h q hq => h q (List.mem_cons_of_mem _ hq)
    rw [members, members, bindE_assoc]
    have e1 : s.member k j = match fieldOf featureNames k with | some n => s.set n j | none => .ok s := rfl
    rw [e1, feature_member]
    cases hf : fieldOf featureNames k with
    | none =>
      exact ih s (h.imp (fun h => ⟨h.1, (List.pairwise_cons.1 h.2).2⟩) ha)
    | some n =>
      dsimp only
      by_cases hn : n = "bbox"
      · subst hn
        have hk := fieldOf_some hf
        rcases h with ⟨hb, h1⟩ | h1
        · have e2 : s.set "bbox" j = (numsInto s.bbox j >>= fun b => pure ⟨{ s.f with BoundingBox := b.elems }, b⟩) := rfl
          rw [e2, feature_set_bbox, hb, ← numsInto_nil, bindE_assoc, bindE_assoc, bindE_assoc]
          refine congrArg _ (funext fun b => ?_)
          exact ih ⟨{ s.f with BoundingBox := b.elems }, b⟩ (.inr (none_after hk h1))
        · exact absurd hk (h1 _ List.mem_cons_self)
      · rw [feat_set_other hn, bindE_assoc]
        refine congrArg _ (funext fun f => ?_)
        exact ih ⟨f, s.bbox⟩ (h.imp (fun h => ⟨h.1, (List.pairwise_cons.1 h.2).2⟩) ha)

theorem feat_unmarshal {j : Json F} (h : ∀ m, j = .obj m → Once "bbox" m) :
    (Feat.zero.unmarshal j >>= fun s => pure s.f) = Feature.zero.unmarshal j := by
  cases j with
  | obj m => exact feat_members m Feat.zero (.inl ⟨rfl, h m rfl⟩)
  | _ => rfl

/-- what holds of the slice after each member -/
theorem feat_wf {m : List (String × Json F)} {s s' : Feat F} (h : s.bbox.WF) (e : members Feat.member s m = .ok s') : s'.bbox.WF := by
  induction m generalizing s with
  | nil => cases e; exact h
  | cons p m ih =>
    obtain ⟨k, j⟩ := p
    rw [members] at e
    cases hs : s.member k j with
    | error x => rw [hs] at e; cases e
    | ok t =>
      rw [bindE_ok hs] at e
      refine ih ?_ e
      have e1 : s.member k j = match fieldOf featureNames k with | some n => s.set n j | none => .ok s := rfl
      rw [e1] at hs
      cases hf : fieldOf featureNames k with
      | none => rw [hf] at hs; cases hs; exact h
      | some n =>
        rw [hf] at hs
        dsimp only at hs
        by_cases hn : n = "bbox"
        · subst hn
          have e2 : s.set "bbox" j = (numsInto s.bbox j >>= fun b => pure ⟨{ s.f with BoundingBox := b.elems }, b⟩) := rfl
          rw [e2] at hs
          cases hb : numsInto s.bbox j with
          | error x => rw [hb] at hs; cases hs
          | ok b => rw [bindE_ok hb] at hs; cases hs; exact numsInto_wf h hb
        · rw [feat_set_other hn] at hs
          cases hb : s.f.set n j with
          | error x => rw [hb] at hs; cases hs
          | ok b => rw [bindE_ok hb] at hs; cases hs; exact h

/-- the members that are not `bbox` leave it alone -/
theorem feature_set_keeps {f f' : Feature F} {n : String} {j : Json F} (hn : n ≠ "bbox") (e : f.set n j = .ok f') : f'.BoundingBox = f.BoundingBox := by
  unfold Feature.set at e
  repeat' split at e
  all_goals first
    | exact absurd ‹n = "bbox"› hn
    | (cases e; rfl)
    | (revert e; intro e; cases e' : (toStr f.Typ j) <;> rw [e'] at e <;> cases e; rfl)
    | (revert e; intro e; cases e' : (toMap f.Properties j) <;> rw [e'] at e <;> cases e; rfl)
    | (revert e; intro e; cases e' : (toMap (some f.CRS) j) <;> rw [e'] at e <;> cases e; rfl)
    | (revert e; intro e; cases e' : ((f.GeometryJson.getD Obj.zero).unmarshal j) <;> rw [e'] at e <;> cases e; rfl)

theorem feat_keeps {m : List (String × Json F)} {s s' : Feat F} (h : Absent "bbox" m) (e : members Feat.member s m = .ok s') :
    s'.f.BoundingBox = s.f.BoundingBox := by
  induction m generalizing s with
  | nil => cases e; rfl
  | cons p m ih =>
    obtain ⟨k, j⟩ := p
    rw [members] at e
    cases hs : s.member k j with
    | error x => rw [hs] at e; cases e
    | ok t =>
      rw [bindE_ok hs] at e
      rw [ih (fun q hq => h q (List.mem_cons_of_mem _ hq)) e]
      have e1 : s.member k j = match fieldOf featureNames k with | some n => s.set n j | none => .ok s := rfl
      rw [e1] at hs
      cases hf : fieldOf featureNames k with
      | none => rw [hf] at hs; cases hs; rfl
      | some n =>
        rw [hf] at hs
        dsimp only at hs
        have hn : n ≠ "bbox" := fun hn => h _ List.mem_cons_self (hn ▸ fieldOf_some hf)
        rw [feat_set_other hn] at hs
        cases hb : s.f.set n j with
        | error x => rw [hb] at hs; cases hs
        | ok b => rw [bindE_ok hb] at hs; cases hs; exact feature_set_keeps hn hb

/-! ### collections -/

theorem coll_set_other {s : Coll F} {n : String} (hn : n ≠ "bbox") (hn' : n ≠ "features") (j : Json F) :
    s.set n j = (s.fc.set n j >>= fun fc => pure { s with fc := fc }) := by
  unfold Coll.set
  rw [if_neg hn, if_neg hn']

theorem coll_set_bbox (s : Coll F) (j : Json F) :
    s.set "bbox" j = (numsInto s.bbox j >>= fun b => pure { s with fc := { s.fc with BoundingBox := b.elems }, bbox := b }) := rfl

theorem collection_set_bbox (fc : FeatureCollection F) (j : Json F) :
    fc.set "bbox" j = (toNums j >>= fun b => pure { fc with BoundingBox := b }) := by
  unfold FeatureCollection.set
  rw [if_neg (by decide), if_pos rfl]

theorem featInto_none {j : Json F} (h : BoxOnce j) : (featInto none j >>= fun p => pure (p.map Feat.f)) = toFeature j := by
  cases j with
  | null => rfl
  | _ =>
    show ((Feat.zero.unmarshal _ >>= fun s => pure (some s)) >>= fun p => pure (p.map Feat.f)) = (Feature.zero.unmarshal _ >>= fun f => pure (some f))
    rw [← feat_unmarshal h, bindE_assoc, bindE_assoc]
    rfl

theorem mapE_map {β γ δ : Type} (f : β → Except String γ) (g : γ → δ) (l : List β) :
    (mapE f l >>= fun rs => pure (rs.map g)) = mapE (fun a => f a >>= fun r => pure (g r)) l := by
  induction l with
  | nil => rfl
  | cons a l ih =>
    rw [mapE, mapE, ← ih]
    cases f a with
    | error e => rfl
    | ok r => cases mapE f l <;> rfl

theorem coll_set_features {s : Coll F} (hb : s.features = .nil) {j : Json F} (h : ∀ l, j = .arr l → ∀ d ∈ l, BoxOnce d) :
    (s.set "features" j >>= fun s => pure s.fc) = s.fc.set "features" j := by
  have e : s.fc.set "features" j = match j with
      | .null => .ok { s.fc with Features := none }
      | .arr l => (mapE toFeature l >>= fun fs => pure { s.fc with Features := some fs })
      | _ => .error "json: cannot unmarshal into Go value of type []*geojson.Feature" := by
    unfold FeatureCollection.set
    rw [if_neg (by decide), if_neg (by decide), if_pos rfl]
    cases j <;> rfl
  rw [e]
  unfold Coll.set
  rw [if_neg (by decide), if_pos rfl]
  cases j with
  | arr l =>
    have h1 : mapE toFeature l = ((mapE (featInto none) l) >>= fun rs => pure (rs.map fun p => p.map Feat.f)) := by
      rw [mapE_map]
      exact mapE_congr fun d hd => (featInto_none (h l rfl d hd)).symm
    dsimp only
    rw [hb, h1, ← readFrom_nil, bindE_assoc, bindE_assoc, bindE_assoc]
    rfl
  | _ => rfl

/-- the members of the document that are still to come need no old elements of a slice -/
def Fresh (α : Type) (n : String) (b : Buf α) (m : List (String × Json F)) : Prop := b = .nil ∧ Once n m ∨ Absent n m

theorem Fresh.tail {n : String} {b : Buf α} {p : String × Json F} {m : List (String × Json F)} (h : Fresh α n b (p :: m)) : Fresh α n b m :=
  h.imp (fun h => ⟨h.1, (List.pairwise_cons.1 h.2).2⟩) fun h q hq => h q (List.mem_cons_of_mem _ hq)

theorem Fresh.head {n k : String} {b : Buf α} {j : Json F} {m : List (String × Json F)} (h : Fresh α n b ((k, j) :: m)) (hk : CaseVariant n k) :
    b = .nil ∧ Absent n m :=
  h.elim (fun h => ⟨h.1, none_after hk h.2⟩) fun h => absurd hk (h _ List.mem_cons_self)

theorem coll_members (m : List (String × Json F)) (s : Coll F) (h : Fresh F "bbox" s.bbox m) (h' : Fresh (Option (Feat F)) "features" s.features m)
    (hf : ∀ k l, (k, .arr l) ∈ m → CaseVariant "features" k → ∀ d ∈ l, BoxOnce d) :
    (members Coll.member s m >>= fun s => pure s.fc) = members FeatureCollection.member s.fc m := by
  induction m generalizing s with
  | nil => rfl
  | cons p m ih =>
    obtain ⟨k, j⟩ := p
    have hf' : ∀ k l, (k, .arr l) ∈ m → CaseVariant "features" k → ∀ d ∈ l, BoxOnce d := fun k l hm => hf k l (List.mem_cons_of_mem _ hm)
    rw [members, members, bindE_assoc]
    have e1 : s.member k j = match fieldOf collectionNames k with | some n => s.set n j | none => .ok s := rfl
    rw [e1, collection_member]
    cases hn : fieldOf collectionNames k with
    | none => exact ih s h.tail h'.tail hf'
    | some n =>
      have hk := fieldOf_some hn
      dsimp only
      by_cases h1 : n = "bbox"
      · subst h1
        rw [coll_set_bbox, collection_set_bbox, (h.head hk).1, ← numsInto_nil, bindE_assoc, bindE_assoc, bindE_assoc]
        refine congrArg _ (funext fun b => ?_)
        exact ih { s with fc := { s.fc with BoundingBox := b.elems }, bbox := b } (.inr (h.head hk).2) h'.tail hf'
      by_cases h2 : n = "features"
      · subst h2
        rw [← coll_set_features (h'.head hk).1 fun l hl d hd => hf k l (hl ▸ List.mem_cons_self) hk d hd, bindE_assoc]
        cases e : s.set "features" j with
        | error x => rfl
        | ok t =>
          have hb : t.bbox = s.bbox := by
            unfold Coll.set at e
            rw [if_neg (by decide), if_pos rfl] at e
            cases j with
            | null => cases e; rfl
            | arr l =>
              dsimp only at e
              cases e' : readFrom none featInto l 0 s.features with
              | error x => rw [e'] at e; cases e
              | ok b => rw [e'] at e; cases e; rfl
            | _ => cases e
          exact ih t (hb ▸ h.tail) (.inr (h'.head hk).2) hf'
      · rw [coll_set_other h1 h2, bindE_assoc]
        refine congrArg _ (funext fun fc => ?_)
        exact ih { s with fc := fc } h.tail h'.tail hf'

/-! ### the claims -/

/-- C110: a document without a repeated `bbox` is read as if every array went into a new slice. -/
theorem C110_once_feature {m : List (String × Json F)} (h : Once "bbox" m) : UnmarshalFeature (.obj m) = GeoJson.UnmarshalFeature (.obj m) :=
  feat_unmarshal fun _ e => by cases e; exact h

/-- C110: the same for a collection in which neither `bbox` nor `features` is repeated, nor `bbox` in one of the features. -/
theorem C110_once_collection {m : List (String × Json F)} (h : Once "bbox" m) (h' : Once "features" m)
    (hf : ∀ k l, (k, .arr l) ∈ m → CaseVariant "features" k → ∀ d ∈ l, BoxOnce d) :
    UnmarshalFeatureCollection (.obj m) = GeoJson.UnmarshalFeatureCollection (.obj m) :=
  coll_members m Coll.zero (.inl ⟨rfl, h⟩) (.inl ⟨rfl, h'⟩) hf

/-- C110, in part: of several members `bbox` of a feature the last one decides, if it is an array of numbers. -/
theorem C110_bbox_partial {a c : List (String × Json F)} {k : String} {xs : List F} {f : Feature F} (hk : CaseVariant "bbox" k)
    (hc : Absent "bbox" c) (e : UnmarshalFeature (.obj (a ++ (k, .arr (xs.map .num)) :: c)) = .ok f) : f.BoundingBox = xs := by
  have e1 : UnmarshalFeature (.obj (a ++ (k, .arr (xs.map .num)) :: c)) =
      (members Feat.member Feat.zero (a ++ (k, .arr (xs.map .num)) :: c) >>= fun s => pure s.f) := rfl
  rw [e1, members_append, bindE_assoc] at e
  cases ha : members Feat.member Feat.zero a with
  | error x => rw [ha] at e; cases e
  | ok s =>
    have hw : s.bbox.WF := feat_wf (Nat.le_refl _) ha
    rw [bindE_ok ha, members, bindE_assoc] at e
    have e2 : s.member k (.arr (xs.map .num)) = (numsInto s.bbox (.arr (xs.map .num)) >>= fun b => pure ⟨{ s.f with BoundingBox := b.elems }, b⟩) := by
      have e1 : s.member k (.arr (xs.map .num)) = match fieldOf featureNames k with | some n => s.set n (.arr (xs.map .num)) | none => .ok s := rfl
      rw [e1, fieldOf_variant letters_feature (by decide) hk]
      rfl
    rw [e2, bindE_assoc] at e
    cases hb : numsInto s.bbox (.arr (xs.map .num)) with
    | error x => rw [hb] at e; cases e
    | ok b =>
      rw [bindE_ok hb] at e
      change (members Feat.member ⟨{ s.f with BoundingBox := b.elems }, b⟩ c >>= fun s => pure s.f) = .ok f at e
      cases hm : members Feat.member ⟨{ s.f with BoundingBox := b.elems }, b⟩ c with
      | error x => rw [hm] at e; cases e
      | ok t =>
        rw [bindE_ok hm] at e
        cases e
        rw [feat_keeps hc hm]
        exact numsInto_nums hw hb

theorem feat_member {n : String} (hn : n ∈ featureNames) (s : Feat F) (j : Json F) : s.member n j = s.set n j := by
  have e1 : s.member n j = match fieldOf featureNames n with | some n => s.set n j | none => .ok s := rfl
  rw [e1, fieldOf_variant letters_feature hn (variant_self n)]

theorem coll_member {n : String} (hn : n ∈ collectionNames) (s : Coll F) (j : Json F) : s.member n j = s.set n j := by
  have e1 : s.member n j = match fieldOf collectionNames n with | some n => s.set n j | none => .ok s := rfl
  rw [e1, fieldOf_variant letters_collection hn (variant_self n)]

/-- C110 fails: a null in the second `bbox` of a feature lets the number of the first one through, for any numbers; a third `bbox` can bring back
a number the second one had dropped. -/
theorem C110_bbox_false (x y z : F) :
    (∃ f, UnmarshalFeature (.obj [("type", .str "Feature"), ("bbox", .arr [.num x, .num y]), ("bbox", .arr [.null, .num z])]) = .ok f ∧
      f.BoundingBox = [x, z]) ∧
    (∃ f, UnmarshalFeature (.obj [("bbox", .arr [.num x, .num y]), ("bbox", .arr [.num z]), ("bbox", .arr [.null, .null])]) = .ok f ∧
      f.BoundingBox = [z, y]) := by
  refine ⟨⟨{ Feature.zero with Typ := "Feature", BoundingBox := [x, z] }, ?_, rfl⟩, ⟨{ Feature.zero with BoundingBox := [z, y] }, ?_, rfl⟩⟩
  all_goals
    unfold UnmarshalFeature Feat.unmarshal
    simp [members, feat_member (n := "type") (by decide), feat_member (n := "bbox") (by decide), Feat.set, Feature.set, toStr, numsInto, readFrom,
      numInto, Buf.grow, Buf.elems, Buf.nil, Feat.zero, Feature.zero, Bind.bind, Except.bind, pure, Except.pure]

/-- C110 fails: of two members `features` the second is read into the features of the first, whose ids and properties show through. -/
theorem C110_features_false (id : String) (x : F) :
    ∃ fc f, UnmarshalFeatureCollection (.obj [("type", .str "FeatureCollection"),
        ("features", .arr [.obj [("type", .str "Feature"), ("id", .str id), ("properties", .obj [("height", .num x)])]]),
        ("features", .arr [.obj [("type", .str "Feature"), ("properties", .obj [("width", .num x)])]])]) = .ok fc ∧
      fc.Features = some [some f] ∧ f.ID = .str id ∧ f.Properties = some [("height", .float x), ("width", .float x)] := by
  refine ⟨⟨"FeatureCollection", [], some [some { Feature.zero with ID := .str id, Typ := "Feature", Properties := some [("height", .float x), ("width", .float x)] }], []⟩,
    _, ?_, rfl, rfl, rfl⟩
  have h0 : setKey "height" (Val.float x) [] = [("height", .float x)] := rfl
  have h1 : setKey "width" (Val.float x) [("height", .float x)] = [("height", .float x), ("width", .float x)] := by
    unfold setKey
    rw [if_neg (by decide), if_neg (by decide)]
    rfl
  unfold UnmarshalFeatureCollection
  simp [members, coll_member (n := "type") (by decide), coll_member (n := "features") (by decide), Coll.set, FeatureCollection.set, toStr,
    readFrom, featInto, Feat.unmarshal, feat_member (n := "type") (by decide), feat_member (n := "id") (by decide),
    feat_member (n := "properties") (by decide), Feat.set, Feature.set, toMap, decodeMembers, decode, h0, h1, Buf.grow, Buf.elems, Buf.nil, Coll.zero,
    Feat.zero, Feature.zero, Bind.bind, Except.bind, pure, Except.pure]

end

/-- hypotheses of C110_bbox_partial, with a `bbox` before and a foreign member after, and of C110_once_feature -/
example : Absent "bbox" [("name", (.null : Json Float))] ∧ Once "bbox" [("bbox", (.null : Json Float)), ("name", .null)] ∧
    (match UnmarshalFeature (F := Float) (.obj ([("BBOX", .arr [.null, .num 7, .num 8])] ++ ("bbox", .arr ([1, 2].map .num)) :: [("name", .null)])) with
      | .ok f => some f.BoundingBox | .error _ => none) = some [1, 2] := by
  refine ⟨?_, ?_, rfl⟩
  · intro q hq h
    rw [List.mem_singleton.1 hq] at h
    have h' := (equalFold_iff _ _).2 h
    revert h'
    decide +kernel
  · refine List.pairwise_pair.2 fun h => ?_
    have h' := (equalFold_iff _ _).2 h.2
    revert h'
    decide +kernel
end GoGeo.GeoJson.Reuse
