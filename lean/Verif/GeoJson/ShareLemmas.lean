import Verif.Spec.Share

/-! # The memory of features and collections agrees with what a program is to see -/

set_option linter.unusedSectionVars false

namespace GoGeo.GeoJson
open GoFloat Json

variable {F : Type} [GoFloat F]

/-- the invariant of the features -/
structure FInv (h : List (Call F)) (s : Store F) : Prop where
  len : s.feats.length = features h
  bound : ∀ (i : Nat) c p, s.feats[i]? = some c → c.props = some p → p < s.maps.length
  has : ∀ (i : Nat) c, s.feats[i]? = some c → c.props.isSome = hasMap h i
  share : ∀ (i j : Nat) ci cj, s.feats[i]? = some ci → s.feats[j]? = some cj →
    (shares h i j = true ↔ i = j ∨ (ci.props = cj.props ∧ ci.props ≠ none))
  now : ∀ i, i < features h → s.feature i = featureNow h i

theorem feature_some {s : Store F} {i : Nat} {c : Cell F} (h : s.feats[i]? = some c) :
    s.feature i = { c.rest with Properties := c.props.map fun p => s.maps.getD p [] } := by
  unfold Store.feature; rw [h]

theorem get_push {α : Type} {l : List α} {x c : α} {i : Nat} (h : (l ++ [x])[i]? = some c) : (i < l.length ∧ l[i]? = some c) ∨ (i = l.length ∧ c = x) := by
  rcases Nat.lt_trichotomy i l.length with h1 | h1 | h1
  · rw [List.getElem?_append_left h1] at h; exact .inl ⟨h1, h⟩
  · subst h1; rw [List.getElem?_concat_length] at h; cases h; exact .inr ⟨rfl, rfl⟩
  · rw [List.getElem?_eq_none (by simp; omega)] at h; cases h

theorem getD_push {α : Type} {l : List α} {x d : α} {p : Nat} (h : p < l.length) : (l ++ [x]).getD p d = l.getD p d := by
  simp only [List.getD]; rw [List.getElem?_append_left h]

theorem getD_push' {α : Type} {l : List α} {x d : α} : (l ++ [x]).getD l.length d = x := by
  simp only [List.getD]; rw [List.getElem?_concat_length]; rfl

theorem FInv.idx {h : List (Call F)} {s : Store F} (H : FInv h s) {i : Nat} (hi : i < features h) : ∃ c, s.feats[i]? = some c :=
  ⟨_, List.getElem?_eq_getElem (H.len ▸ hi)⟩

theorem FInv.ofEq {h h' : List (Call F)} {s s' : Store F} (H : FInv h s) (e1 : s'.feats = s.feats) (e2 : s'.maps = s.maps)
    (e3 : features h' = features h) (e4 : hasMap h' = hasMap h) (e5 : shares h' = shares h) (e6 : featureNow h' = featureNow h) : FInv h' s' := by
  have e : ∀ i, s'.feature i = s.feature i := by intro i; unfold Store.feature; rw [e1, e2]
  refine ⟨by rw [e1, e3]; exact H.len, ?_, ?_, ?_, ?_⟩
  · rw [e1, e2]; exact H.bound
  · rw [e1, e4]; exact H.has
  · rw [e1, e5]; exact H.share
  · rw [e3, e6]; intro i hi; rw [e]; exact H.now i hi

theorem FInv.newFeature {h : List (Call F)} {s : Store F} (H : FInv h s) (f : Feature F) : FInv (.feature f :: h) (s.newFeature f) := by
  have hl := H.len
  -- both cases at once
  have key : ∃ ms q, (s.newFeature f) = { s with maps := ms, feats := s.feats ++ [⟨f, q⟩] } ∧ (∀ p, p < s.maps.length → p < ms.length ∧ ms.getD p [] = s.maps.getD p []) ∧
      q.isSome = f.Properties.isSome ∧ (∀ p, q = some p → p < ms.length ∧ s.maps.length ≤ p) ∧ (q.map fun p => ms.getD p []) = f.Properties := by
    unfold Store.newFeature
    rcases hp : f.Properties with _ | m
    · exact ⟨s.maps, none, rfl, fun p hp => ⟨hp, rfl⟩, rfl, by simp, rfl⟩
    · refine ⟨s.maps ++ [m], some s.maps.length, rfl, fun p hp => ⟨by simp; omega, getD_push hp⟩, rfl, ?_, ?_⟩
      · intro p hp; cases hp; exact ⟨by simp, le_refl _⟩
      · simp only [Option.map_some, getD_push']
  obtain ⟨ms, q, e, k1, k2, k3, k4⟩ := key
  rw [e]
  refine ⟨by simp [features, hl], ?_, ?_, ?_, ?_⟩
  · intro i c p hc hp
    rcases get_push hc with ⟨_, h1⟩ | ⟨_, rfl⟩
    · exact (k1 p (H.bound i c p h1 hp)).1
    · exact (k3 p hp).1
  · intro i c hc
    rcases get_push hc with ⟨h0, h1⟩ | ⟨rfl, rfl⟩
    · rw [hasMap, if_neg (by omega)]; exact H.has i c h1
    · rw [hasMap, if_pos (by omega)]; exact k2
  · intro i j ci cj hi hj
    by_cases hij : i = j
    · subst hij; simp [shares]
    rw [shares, if_neg hij]
    rcases get_push hi with ⟨h0, h1⟩ | ⟨rfl, rfl⟩ <;> rcases get_push hj with ⟨g0, g1⟩ | ⟨rfl, rfl⟩
    · rw [if_neg (by omega)]; exact H.share i j ci cj h1 g1
    · rw [if_pos (by omega)]
      simp only [Bool.false_eq_true, false_iff, not_or, hij, not_false_iff, true_and, not_and, not_not]
      intro he
      rcases hp : ci.props with _ | p
      · rfl
      · have := H.bound i ci p h1 hp; have := k3 p (by rw [← he, hp]); omega
    · rw [if_pos (by omega)]
      simp only [Bool.false_eq_true, false_iff, not_or, hij, not_false_iff, true_and, not_and, not_not]
      intro he
      rcases hp : cj.props with _ | p
      · rw [he, hp]
      · have := H.bound j cj p g1 hp; have := k3 p (by rw [he, hp]); omega
    · exact absurd rfl hij
  · intro i hi
    simp only [features] at hi
    rw [featureNow]
    by_cases h0 : i = features h
    · rw [if_pos h0, feature_some (c := ⟨f, q⟩) (by show (s.feats ++ [_])[i]? = _; rw [h0, ← hl, List.getElem?_concat_length])]
      show ({ f with Properties := q.map fun p => ms.getD p [] } : Feature F) = f
      rw [k4]
    · obtain ⟨c, hc⟩ := H.idx (i := i) (by omega)
      rw [if_neg h0, ← H.now i (by omega), feature_some hc, feature_some (c := c) (by
        show (s.feats ++ [_])[i]? = _; rw [List.getElem?_append_left (by omega)]; exact hc)]
      rcases hp : c.props with _ | p
      · rfl
      · simp only [Option.map_some]
        rw [(k1 p (H.bound i c p hc hp)).2]

theorem FInv.copyFeature {h : List (Call F)} {s : Store F} (H : FInv h s) (k : Nat) (hk : k < features h) :
    FInv (.copy k :: h) (s.copyFeature k) := by
  have hl := H.len
  obtain ⟨d, hd⟩ := H.idx hk
  have e : s.copyFeature k = { s with feats := s.feats ++ [d] } := by unfold Store.copyFeature; rw [hd]
  rw [e]
  have hnone : d.props = none ↔ hasMap h k = false := by rw [← H.has k d hd]; cases d.props <;> simp
  have comm : ∀ i c, s.feats[i]? = some c → (hasMap h k = true ∧ (k = i ∨ (d.props = c.props ∧ d.props ≠ none)) ↔ d.props = c.props ∧ d.props ≠ none) := by
    intro i c hc
    rw [← H.has k d hd]
    constructor
    · rintro ⟨h1, h2 | h2⟩
      · subst h2; rw [hd] at hc; cases hc
        exact ⟨rfl, fun e => by rw [e] at h1; cases h1⟩
      · exact h2
    · rintro ⟨h1, h2⟩
      refine ⟨?_, .inr ⟨h1, h2⟩⟩
      rcases hp : d.props with _ | p
      · exact absurd hp h2
      · rfl
  refine ⟨by simp [features, hl], ?_, ?_, ?_, ?_⟩
  · intro i c p hc hp
    rcases get_push hc with ⟨_, h1⟩ | ⟨_, rfl⟩
    · exact H.bound i c p h1 hp
    · exact H.bound k _ p hd hp
  · intro i c hc
    rcases get_push hc with ⟨h0, h1⟩ | ⟨rfl, rfl⟩
    · rw [hasMap, if_neg (by omega)]; exact H.has i c h1
    · rw [hasMap, if_pos (by omega)]; exact H.has k _ hd
  · intro i j ci cj hi hj
    by_cases hij : i = j
    · subst hij; simp [shares]
    rw [shares, if_neg hij]
    rcases get_push hi with ⟨h0, h1⟩ | ⟨rfl, rfl⟩ <;> rcases get_push hj with ⟨g0, g1⟩ | ⟨rfl, rfl⟩
    · rw [if_neg (by omega), if_neg (by omega)]; exact H.share i j ci cj h1 g1
    · rw [if_neg (by omega), if_pos (by omega), Bool.and_eq_true, H.share i k ci cj h1 hd]
      have := comm i ci h1
      constructor
      · rintro ⟨a, b⟩
        refine .inr ?_
        have := this.1 ⟨a, b.elim (fun b => .inl b.symm) fun b => .inr ⟨b.1.symm, b.1 ▸ b.2⟩⟩
        exact ⟨this.1.symm, this.1 ▸ this.2⟩
      · rintro (a | b)
        · exact absurd a hij
        · have := this.2 ⟨b.1.symm, b.1 ▸ b.2⟩
          exact ⟨this.1, this.2.elim (fun b => .inl b.symm) fun b => .inr ⟨b.1.symm, b.1 ▸ b.2⟩⟩
    · rw [if_pos (by omega), Bool.and_eq_true, H.share k j ci cj hd g1, comm j cj g1]
      exact ⟨.inr, fun h => h.resolve_left hij⟩
    · exact absurd rfl hij
  · intro i hi
    simp only [features] at hi
    rw [featureNow]
    by_cases h0 : i = features h
    · rw [if_pos h0, ← H.now k hk, feature_some hd, feature_some (c := d) (by show (s.feats ++ [_])[i]? = _; rw [h0, ← hl, List.getElem?_concat_length])]
    · obtain ⟨c, hc⟩ := H.idx (i := i) (by omega)
      rw [if_neg h0, ← H.now i (by omega), feature_some hc, feature_some (c := c) (by
        show (s.feats ++ [_])[i]? = _; rw [List.getElem?_append_left (by omega)]; exact hc)]

theorem FInv.setProperty {h : List (Call F)} {s : Store F} (H : FInv h s) (k : Nat) (key : String) (v : Val F) (hk : k < features h) :
    FInv (.set k key v :: h) (s.setProperty k key v) := by
  have hl := H.len
  obtain ⟨d, hd⟩ := H.idx hk
  have hkl : k < s.feats.length := hl ▸ hk
  rcases hp : d.props with _ | q
  · have e : s.setProperty k key v = { s with maps := s.maps ++ [setKey key v []], feats := s.feats.set k { d with props := some s.maps.length } } := by
      unfold Store.setProperty; rw [hd]; simp only; rw [hp]
    rw [e]
    have get : ∀ i c, (s.feats.set k { d with props := some s.maps.length })[i]? = some c →
        (i = k ∧ c = { d with props := some s.maps.length }) ∨ (i ≠ k ∧ s.feats[i]? = some c) := by
      intro i c hc
      by_cases hik : i = k
      · subst hik; rw [List.getElem?_set_self hkl] at hc; cases hc; exact .inl ⟨rfl, rfl⟩
      · rw [List.getElem?_set_ne (Ne.symm hik)] at hc; exact .inr ⟨hik, hc⟩
    refine ⟨by simp [features, hl], ?_, ?_, ?_, ?_⟩
    · intro i c p hc hcp
      rcases get i c hc with ⟨rfl, rfl⟩ | ⟨_, h1⟩
      · cases hcp; simp
      · have := H.bound i c p h1 hcp; simp; omega
    · intro i c hc
      rcases get i c hc with ⟨rfl, rfl⟩ | ⟨hn, h1⟩
      · rw [hasMap, if_pos rfl]; rfl
      · rw [hasMap, if_neg hn]; exact H.has i c h1
    · intro i j ci cj hi hj
      show shares h i j = true ↔ _
      rcases get i ci hi with ⟨rfl, rfl⟩ | ⟨hn, h1⟩ <;> rcases get j cj hj with ⟨rfl, rfl⟩ | ⟨gn, g1⟩
      · rw [H.share _ _ d d hd hd]; simp
      · rw [H.share i j d cj hd g1, hp]
        simp only [ne_eq, not_true, and_false, or_false]
        refine ⟨.inl, fun h => h.elim id fun h => ?_⟩
        have := H.bound j cj _ g1 h.1.symm; omega
      · rw [H.share i j ci d h1 hd, hp]
        refine ⟨fun h => h.imp id fun h => absurd h.1 h.2, fun h => h.imp id fun h => ?_⟩
        have := H.bound i ci _ h1 h.1; omega
      · exact H.share i j ci cj h1 g1
    · intro i hi
      simp only [features] at hi
      obtain ⟨c, hc⟩ := H.idx (i := i) hi
      have hsh := H.share i k c d hc hd
      rw [featureNow, ← H.now i hi, feature_some hc]
      by_cases hik : i = k
      · subst hik
        rw [hd] at hc; cases hc
        rw [if_pos (hsh.2 (.inl rfl)), feature_some (c := { d with props := some s.maps.length }) (by
          show (s.feats.set i _)[i]? = _; rw [List.getElem?_set_self hkl]), hp]
        simp only [SetProperty, Option.map_none, Option.map_some, Option.getD_none, getD_push']
      · rw [if_neg (fun h => by
          rcases hsh.1 h with h | h
          · exact hik h
          · rw [hp] at h; exact h.2 h.1), feature_some (c := c) (by
          show (s.feats.set k _)[i]? = _; rw [List.getElem?_set_ne (Ne.symm hik)]; exact hc)]
        rcases hcp : c.props with _ | p
        · rfl
        · simp only [Option.map_some]
          rw [getD_push (H.bound i c p hc hcp)]
  · have e : s.setProperty k key v = { s with maps := s.maps.modify q (setKey key v) } := by
      unfold Store.setProperty; rw [hd]; simp only; rw [hp]
    rw [e]
    refine ⟨hl, fun i c p hc hcp => by simpa using H.bound i c p hc hcp, ?_, ?_, ?_⟩
    · intro i c hc
      rw [hasMap]
      split_ifs with hik
      · subst hik; have hc' : s.feats[i]? = some c := hc; rw [hd] at hc'; cases hc'; rw [hp]; rfl
      · exact H.has i c hc
    · intro i j ci cj hi hj
      exact H.share i j ci cj hi hj
    · intro i hi
      simp only [features] at hi
      obtain ⟨c, hc⟩ := H.idx (i := i) hi
      have hsh := H.share i k c d hc hd
      have hq := H.bound k d q hd hp
      rw [featureNow, ← H.now i hi, feature_some hc, feature_some (c := c) (by exact hc)]
      by_cases hs : c.props = some q
      · rw [if_pos (hsh.2 (.inr (by rw [hs, hp]; simp)))]
        simp only [SetProperty, hs, Option.map_some, Option.getD_some]
        congr 2
        simp [List.getD, List.getElem?_eq_getElem hq]
      · rw [if_neg (fun h => by
          rcases hsh.1 h with h | h
          · subst h; rw [hd] at hc; cases hc; exact hs hp
          · exact hs (h.1.trans hp))]
        rcases hcp : c.props with _ | p
        · rfl
        · have : q ≠ p := fun h => hs (by rw [hcp, h])
          simp [List.getD, List.getElem?_modify, this]

theorem FInv.after (grow : Nat → Nat → Nat) (h : List (Call F)) (hok : Ok h) : FInv h (Store.after grow h) := by
  induction h with
  | nil => exact ⟨rfl, by simp [Store.after, Store.empty], by simp [Store.after, Store.empty], by simp [Store.after, Store.empty], by simp [features]⟩
  | cons e h ih =>
    cases e with
    | feature f => exact (ih hok).newFeature f
    | copy i => exact (ih hok.2).copyFeature i hok.1
    | set i k v => exact (ih hok.2).setProperty i k v hok.1
    | collection => exact (ih hok).ofEq rfl rfl rfl rfl rfl rfl
    | copyCollection c =>
      refine (ih hok.2).ofEq ?_ ?_ rfl rfl rfl rfl <;>
      · simp only [Store.after, Store.copyCollection]; split <;> rfl
    | add c p =>
      refine (ih hok.2.2).ofEq ?_ ?_ rfl rfl rfl rfl <;>
      · simp only [Store.after, Store.addFeature]; split <;> rfl

/-- the invariant of the collections -/
structure CInv (h : List (Call F)) (s : Store F) : Prop where
  len : s.colls.length = collections h
  cell : ∀ (c : Nat) d, s.colls[c]? = some d → d.Typ = "FeatureCollection" ∧ d.BoundingBox = [] ∧ d.CRS = [] ∧
    ∃ t, d.Features = some t ∧ s.mem.Valid t ∧ t.off = 0 ∧ s.mem.read t = added h c
  /-- the array of a collection that is no copy is not longer for anyone else -/
  below : ∀ (c c' : Nat) d d' t t', s.colls[c]? = some d → s.colls[c']? = some d' → d.Features = some t → d'.Features = some t' →
    isCopy h c = false → c ≠ c' → t'.arr = t.arr → t'.len ≤ t.len ∨ t.cap = 0
  /-- two collections that are no copies have different arrays -/
  apart : ∀ (c c' : Nat) d d' t t', s.colls[c]? = some d → s.colls[c']? = some d' → d.Features = some t → d'.Features = some t' →
    isCopy h c = false → isCopy h c' = false → c ≠ c' → t'.arr = t.arr → t.cap = 0 ∨ t'.cap = 0

theorem CInv.ofEq {h h' : List (Call F)} {s s' : Store F} (H : CInv h s) (e1 : s'.colls = s.colls) (e2 : s'.mem = s.mem)
    (e3 : collections h' = collections h) (e4 : added h' = added h) (e5 : isCopy h' = isCopy h) : CInv h' s' := by
  refine ⟨by rw [e1, e3]; exact H.len, ?_, ?_, ?_⟩
  · rw [e1, e2, e4]; exact H.cell
  · rw [e1, e5]; exact H.below
  · rw [e1, e5]; exact H.apart

theorem CInv.newCollection {h : List (Call F)} {s : Store F} (H : CInv h s) : CInv (.collection :: h) s.newCollection := by
  have hl := H.len
  refine ⟨by simp [Store.newCollection, collections, hl], ?_, ?_, ?_⟩
  · intro c d hc
    rw [added]
    rcases get_push hc with ⟨h0, h1⟩ | ⟨rfl, rfl⟩
    · rw [if_neg (by omega)]; exact H.cell c d h1
    · rw [if_pos hl]
      exact ⟨rfl, rfl, rfl, _, rfl, ⟨le_refl _, by simp [Slice.nil]⟩, rfl, by simp [Mem.read, Slice.nil]⟩
  · intro c c' d d' t t' hc hc' ht ht' hk hne he
    rw [isCopy] at hk
    rcases get_push hc with ⟨h0, h1⟩ | ⟨rfl, rfl⟩ <;> rcases get_push hc' with ⟨g0, g1⟩ | ⟨rfl, rfl⟩
    · rw [if_neg (by omega)] at hk
      exact H.below c c' d d' t t' h1 g1 ht ht' hk hne he
    · cases ht'; exact .inl (Nat.zero_le _)
    · cases ht; exact .inr rfl
    · exact absurd rfl hne
  · intro c c' d d' t t' hc hc' ht ht' hk hk' hne he
    rw [isCopy] at hk hk'
    rcases get_push hc with ⟨h0, h1⟩ | ⟨rfl, rfl⟩ <;> rcases get_push hc' with ⟨g0, g1⟩ | ⟨rfl, rfl⟩
    · rw [if_neg (by omega)] at hk hk'
      exact H.apart c c' d d' t t' h1 g1 ht ht' hk hk' hne he
    · cases ht'; exact .inr rfl
    · cases ht; exact .inl rfl
    · exact absurd rfl hne

theorem CInv.copyCollection {h : List (Call F)} {s : Store F} (H : CInv h s) (k : Nat) (hk : k < collections h) :
    CInv (.copyCollection k :: h) (s.copyCollection k) := by
  have hl := H.len
  obtain ⟨e, he⟩ : ∃ e, s.colls[k]? = some e := ⟨_, List.getElem?_eq_getElem (hl ▸ hk)⟩
  have e1 : s.copyCollection k = { s with colls := s.colls ++ [e] } := by unfold Store.copyCollection; rw [he]
  rw [e1]
  refine ⟨by simp [collections, hl], ?_, ?_, ?_⟩
  · intro c d hc
    rw [added]
    rcases get_push hc with ⟨h0, h1⟩ | ⟨rfl, rfl⟩
    · rw [if_neg (by omega)]; exact H.cell c d h1
    · rw [if_pos hl]; exact H.cell k _ he
  · intro c c' d d' t t' hc hc' ht ht' hkc hne hea
    rw [isCopy] at hkc
    rcases get_push hc with ⟨h0, h1⟩ | ⟨rfl, rfl⟩
    · rw [if_neg (by omega)] at hkc
      rcases get_push hc' with ⟨g0, g1⟩ | ⟨rfl, rfl⟩
      · exact H.below c c' d d' t t' h1 g1 ht ht' hkc hne hea
      · by_cases hck : c = k
        · subst hck; rw [h1] at he; cases he; rw [ht] at ht'; cases ht'; exact .inl (le_refl _)
        · exact H.below c k d d' t t' h1 he ht ht' hkc hck hea
    · rw [if_pos hl] at hkc; cases hkc
  · intro c c' d d' t t' hc hc' ht ht' hkc hkc' hne hea
    rw [isCopy] at hkc hkc'
    rcases get_push hc with ⟨h0, h1⟩ | ⟨rfl, rfl⟩ <;> rcases get_push hc' with ⟨g0, g1⟩ | ⟨rfl, rfl⟩
    · rw [if_neg (by omega)] at hkc hkc'
      exact H.apart c c' d d' t t' h1 g1 ht ht' hkc hkc' hne hea
    · rw [if_pos hl] at hkc'; cases hkc'
    · rw [if_pos hl] at hkc; cases hkc
    · exact absurd rfl hne

theorem append_cap {α : Type} [Inhabited α] (grow : Nat → Nat → Nat) (m : Mem α) (s : Slice) (x : α) (h : s.cap < s.len + 1) (hv : s.len ≤ s.cap) :
    (m.append grow s [x]).2.arr = m.arrs.length ∧ (m.append grow s [x]).2.off = 0 := by
  unfold Mem.append; rw [if_neg (by simp; omega)]; exact ⟨rfl, rfl⟩

theorem append_in {α : Type} [Inhabited α] (grow : Nat → Nat → Nat) (m : Mem α) (s : Slice) (x : α) (h : s.len + 1 ≤ s.cap) :
    (m.append grow s [x]).2 = { s with len := s.len + 1 } := by
  unfold Mem.append; rw [if_pos (by simpa using h)]; rfl

theorem CInv.addFeature (grow : Nat → Nat → Nat) {h : List (Call F)} {s : Store F} (H : CInv h s) (k : Nat) (p : Option Nat)
    (hk : k < collections h) (hcopy : isCopy h k = false) : CInv (.add k p :: h) (s.addFeature grow k p) := by
  have hl := H.len
  have hkl : k < s.colls.length := hl ▸ hk
  obtain ⟨e, he⟩ : ∃ e, s.colls[k]? = some e := ⟨_, List.getElem?_eq_getElem hkl⟩
  obtain ⟨k1, k2, k3, u, hu, uv, u0, ur⟩ := H.cell k e he
  obtain ⟨a1, a2, a3, a4⟩ := Mem.append_spec grow uv [p]
  have e1 : s.addFeature grow k p = { s with
      mem := (s.mem.append grow u [p]).1, colls := s.colls.set k { e with Features := some (s.mem.append grow u [p]).2 } } := by
    unfold Store.addFeature; rw [he]; simp only [hu, Option.getD_some]
  have aoff : (s.mem.append grow u [p]).2.off = 0 := by
    by_cases hc : u.len + 1 ≤ u.cap
    · rw [append_in grow _ _ _ hc]; exact u0
    · exact (append_cap grow _ _ _ (by omega) uv.len).2
  have get : ∀ i c, (s.colls.set k { e with Features := some (s.mem.append grow u [p]).2 })[i]? = some c →
      (i = k ∧ c = { e with Features := some (s.mem.append grow u [p]).2 }) ∨ (i ≠ k ∧ s.colls[i]? = some c) := by
    intro i c hc
    by_cases hik : i = k
    · subst hik; rw [List.getElem?_set_self hkl] at hc; cases hc; exact .inl ⟨rfl, rfl⟩
    · rw [List.getElem?_set_ne (Ne.symm hik)] at hc; exact .inr ⟨hik, hc⟩
  -- a slice of another collection, and the new slice
  have newer : ∀ (c : Nat) d t, c ≠ k → s.colls[c]? = some d → d.Features = some t → t.arr = (s.mem.append grow u [p]).2.arr →
      t.len ≤ (s.mem.append grow u [p]).2.len ∧ (isCopy h c = false → t.cap = 0) := by
    intro c d t hne hd ht ha
    obtain ⟨-, -, -, t', ht', tv, t0, -⟩ := H.cell c d hd
    rw [ht] at ht'; cases ht'
    by_cases hc : u.len + 1 ≤ u.cap
    · rw [append_in grow _ _ _ hc] at ha ⊢
      have ha' : t.arr = u.arr := ha
      refine ⟨?_, fun hcc => ?_⟩
      · show t.len ≤ u.len + 1
        rcases H.below k c e d u t he hd hu ht hcopy hne.symm ha' with h | h <;> omega
      · rcases H.apart k c e d u t he hd hu ht hcopy hcc hne.symm ha' with h | h <;> omega
    · rw [(append_cap grow _ _ _ (by omega) uv.len).1] at ha
      have hz : t.cap = 0 := by
        by_contra hn
        have := tv.lt (by omega); omega
      have := tv.len
      exact ⟨by omega, fun _ => hz⟩
  rw [e1]
  refine ⟨by simp [collections, hl], ?_, ?_, ?_⟩
  · intro c d hc
    rw [added]
    rcases get c d hc with ⟨rfl, rfl⟩ | ⟨hne, h1⟩
    · rw [if_pos rfl]
      exact ⟨k1, k2, k3, _, rfl, a2, aoff, by rw [a1, ur]⟩
    · rw [if_neg hne]
      obtain ⟨q1, q2, q3, t, ht, tv, t0, tr⟩ := H.cell c d h1
      refine ⟨q1, q2, q3, t, ht, a3 t tv, t0, ?_⟩
      rw [a4 t tv ?_, tr]
      intro ha
      rcases H.below k c e d u t he h1 hu ht hcopy (Ne.symm hne) ha with h | h
      · left; omega
      · right; omega
  · intro c c' d d' t t' hc hc' ht ht' hkc hne hea
    rcases get c d hc with ⟨rfl, rfl⟩ | ⟨hn, h1⟩ <;> rcases get c' d' hc' with ⟨rfl, rfl⟩ | ⟨gn, g1⟩
    · exact absurd rfl hne
    · cases ht; exact .inl (newer c' d' t' gn g1 ht' hea).1
    · cases ht'; exact .inr ((newer c d t hn h1 ht hea.symm).2 hkc)
    · exact H.below c c' d d' t t' h1 g1 ht ht' hkc hne hea
  · intro c c' d d' t t' hc hc' ht ht' hkc hkc' hne hea
    rcases get c d hc with ⟨rfl, rfl⟩ | ⟨hn, h1⟩ <;> rcases get c' d' hc' with ⟨rfl, rfl⟩ | ⟨gn, g1⟩
    · exact absurd rfl hne
    · cases ht; exact .inr ((newer c' d' t' gn g1 ht' hea).2 hkc')
    · cases ht'; exact .inl ((newer c d t hn h1 ht hea.symm).2 hkc)
    · exact H.apart c c' d d' t t' h1 g1 ht ht' hkc hkc' hne hea

theorem CInv.after (grow : Nat → Nat → Nat) (h : List (Call F)) (hok : Ok h) (hk : CopiesKept h) : CInv h (Store.after grow h) := by
  induction h with
  | nil => exact ⟨rfl, by simp [Store.after, Store.empty], by simp [Store.after, Store.empty], by simp [Store.after, Store.empty]⟩
  | cons e h ih =>
    cases e with
    | feature f =>
      refine (ih hok hk).ofEq ?_ ?_ rfl rfl rfl <;>
      · simp only [Store.after, Store.newFeature]; split <;> rfl
    | copy i =>
      refine (ih hok.2 hk).ofEq ?_ ?_ rfl rfl rfl <;>
      · simp only [Store.after, Store.copyFeature]; split <;> rfl
    | set i k v =>
      refine (ih hok.2 hk).ofEq ?_ ?_ rfl rfl rfl <;>
      · simp only [Store.after, Store.setProperty]; split <;> [rfl; (split <;> rfl)]
    | collection => exact (ih hok hk).newCollection
    | copyCollection c => exact (ih hok.2 hk).copyCollection c hok.1
    | add c p => exact (ih hok.2.2 hk.2).addFeature grow c p hok.1 hk.1

/-- what was added are features that exist -/
theorem added_lt (h : List (Call F)) (hok : Ok h) (c i : Nat) (hi : some i ∈ added h c) : i < features h := by
  induction h generalizing c with
  | nil => cases hi
  | cons e h ih =>
    cases e with
    | feature f => exact Nat.lt_succ_of_lt (ih hok c hi)
    | copy j => exact Nat.lt_succ_of_lt (ih hok.2 c hi)
    | set j k v => exact ih hok.2 c hi
    | collection =>
      rw [added] at hi
      split_ifs at hi
      · cases hi
      · exact ih hok c hi
    | copyCollection d =>
      rw [added] at hi
      split_ifs at hi
      · exact ih hok.2 d hi
      · exact ih hok.2 c hi
    | add d p =>
      rw [added] at hi
      split_ifs at hi
      · rcases List.mem_append.1 hi with h1 | h1
        · exact ih hok.2.2 c h1
        · exact hok.2.1 i (List.mem_singleton.1 h1).symm
      · exact ih hok.2.2 c hi

end GoGeo.GeoJson
