import Verif.GeoJson.ShareLemmas
import Verif.Props.GeoJson
import Mathlib.Data.List.Induction

/-!
# C126: features and collections that share memory

`Store.after grow h` is the memory after the calls `h` (the latest first), for any growth policy of `append`.
-/

set_option linter.unusedSectionVars false

namespace GoGeo
open GoFloat Json GeoJson

section
variable {F : Type} [GoFloat F]

/-- C126.  After any calls a feature is what it was created as, with the properties set on it and on the features that share its map. -/
theorem C126_feature (grow : Nat → Nat → Nat) (h : List (Call F)) (hok : Ok h) (i : Nat) (hi : i < features h) :
    (Store.after grow h).feature i = featureNow h i :=
  (FInv.after grow h hok).now i hi

/-- C126.  After any calls in which nothing is added to a copied collection, a collection shows the features added to it, in order, as they
are now: also what was set after the feature was added. -/
theorem C126_collection (grow : Nat → Nat → Nat) (h : List (Call F)) (hok : Ok h) (hk : CopiesKept h) (c : Nat) (hc : c < collections h) :
    (Store.after grow h).collection c = ⟨"FeatureCollection", [], some ((added h c).map fun p => p.map (featureNow h)), []⟩ := by
  have H := CInv.after grow h hok hk
  have hd := List.getElem?_eq_getElem (H.len ▸ hc : c < (Store.after grow h).colls.length)
  obtain ⟨h1, h2, h3, t, h4, -, -, h5⟩ := H.cell c _ hd
  unfold Store.collection
  rw [hd]
  simp only [h1, h2, h3, h4, h5, Option.map_some]
  congr 2
  refine List.map_congr_left fun p hp => ?_
  cases p with
  | none => rfl
  | some i => exact congrArg some (C126_feature grow h hok i (added_lt h hok c i hp))

theorem noCopy_shares {h : List (Call F)} (hn : NoCopy h) (hok : Ok h) (i j : Nat) : shares h i j = decide (i = j) := by
  induction h with
  | nil => rfl
  | cons e h ih =>
    have hn' : NoCopy h := fun e' he' => hn e' (List.mem_cons_of_mem _ he')
    cases e with
    | copy k => exact absurd rfl ((hn _ List.mem_cons_self).1 k)
    | copyCollection k => exact absurd rfl ((hn _ List.mem_cons_self).2 k)
    | feature f =>
      rw [shares, ih hn' hok]
      split_ifs with h1 h2 <;> simp [h1]
    | set k a b => exact ih hn' hok.2
    | collection => exact ih hn' hok
    | add c p => exact ih hn' hok.2.2

theorem noCopy_featureNow {h : List (Call F)} (hn : NoCopy h) (hok : Ok h) (i : Nat) (hi : i < features h) :
    featureNow h i = setAll (created h i) (setOn h i) := by
  -- nothing was set on a feature that does not exist yet
  have fresh : ∀ h : List (Call F), Ok h → ∀ i, features h ≤ i → setOn h i = [] := by
    intro h
    induction h with
    | nil => intro _ i _; rfl
    | cons e h ih =>
      intro hok i hi
      cases e with
      | copy k => exact ih hok.2 i (by simp only [features] at hi; omega)
      | copyCollection k => exact ih hok.2 i hi
      | feature f => exact ih hok i (by simp only [features] at hi; omega)
      | set k a b =>
        simp only [features] at hi
        have := hok.1
        rw [setOn, if_neg (by omega)]; exact ih hok.2 i hi
      | collection => exact ih hok i hi
      | add c p => exact ih hok.2.2 i hi
  induction h with
  | nil => cases hi
  | cons e h ih =>
    have hn' : NoCopy h := fun e' he' => hn e' (List.mem_cons_of_mem _ he')
    cases e with
    | copy k => exact absurd rfl ((hn _ List.mem_cons_self).1 k)
    | copyCollection k => exact absurd rfl ((hn _ List.mem_cons_self).2 k)
    | feature f =>
      simp only [features] at hi
      rw [featureNow, created, show setOn (.feature f :: h) i = setOn h i from rfl]
      split_ifs with h1
      · rw [fresh h hok i (by omega)]; rfl
      · exact ih hn' hok (by omega)
    | set k a b =>
      rw [featureNow, noCopy_shares hn' hok.2, ih hn' hok.2 hi, setOn, show created (.set k a b :: h) i = created h i from rfl]
      by_cases hik : i = k
      · simp only [hik, decide_true, if_true, setAll, List.foldl_append, List.foldl_cons, List.foldl_nil]
      · simp only [hik, decide_false, if_false, Bool.false_eq_true]
    | collection => exact ih hn' hok hi
    | add c p => exact ih hn' hok.2.2 hi

theorem noCopy_kept {h : List (Call F)} (hn : NoCopy h) : CopiesKept h := by
  have no : ∀ h : List (Call F), NoCopy h → ∀ c, isCopy h c = false := by
    intro h
    induction h with
    | nil => intro _ _; rfl
    | cons e h ih =>
      intro hn c
      have hn' : NoCopy h := fun e' he' => hn e' (List.mem_cons_of_mem _ he')
      cases e with
      | copyCollection k => exact absurd rfl ((hn _ List.mem_cons_self).2 k)
      | collection => rw [isCopy, ih hn' c, ite_self]
      | _ => exact ih hn' c
  induction h with
  | nil => trivial
  | cons e h ih =>
    have hn' : NoCopy h := fun e' he' => hn e' (List.mem_cons_of_mem _ he')
    cases e with
    | add c p => exact ⟨no h hn' c, ih hn'⟩
    | _ => exact ih hn'

theorem addAll_new (fs : List (Option (Feature F))) : addAll NewFeatureCollection fs = ⟨"FeatureCollection", [], some fs, []⟩ := by
  by_cases h : fs = []
  · subst h; rfl
  · rw [addAll_eq _ _ h]; rfl

/-- C126.  In a program that copies no structs, the order of `AddFeature` and `SetProperty` does not matter: every collection is the one that
`AddFeature` makes of the finished features, each created and then given all its properties. -/
theorem C126_late (grow : Nat → Nat → Nat) (h : List (Call F)) (hok : Ok h) (hn : NoCopy h) (c : Nat) (hc : c < collections h) :
    (Store.after grow h).collection c =
      addAll NewFeatureCollection ((added h c).map fun p => p.map fun i => setAll (created h i) (setOn h i)) := by
  rw [C126_collection grow h hok (noCopy_kept hn) c hc, addAll_new]
  congr 2
  refine List.map_congr_left fun p hp => ?_
  cases p with
  | none => rfl
  | some i => exact congrArg some (noCopy_featureNow hn hok i (added_lt h hok c i hp))

/-- C126.  A copied collection keeps what it had: what is added to the original afterwards is not seen in the copy. -/
theorem C126_snapshot (grow : Nat → Nat → Nat) (h : List (Call F)) (hok : Ok h) (hk : CopiesKept h) (c : Nat) (hc : c < collections h)
    (ps : List (Option Nat)) (hp : ∀ i, some i ∈ ps → i < features h) (hcopy : isCopy h c = false) :
    (Store.after grow ((ps.map (.add c)).reverse ++ .copyCollection c :: h)).collection (collections h) = (Store.after grow h).collection c ∧
    (Store.after grow ((ps.map (.add c)).reverse ++ .copyCollection c :: h)).collection c =
      ⟨"FeatureCollection", [], some ((added h c ++ ps).map fun p => p.map (featureNow h)), []⟩ := by
  have key : ∀ ps : List (Option Nat), (∀ i, some i ∈ ps → i < features h) →
      Ok ((ps.map (.add c)).reverse ++ .copyCollection c :: h) ∧ CopiesKept ((ps.map (.add c)).reverse ++ .copyCollection c :: h) ∧
      features ((ps.map (.add c)).reverse ++ .copyCollection c :: h) = features h ∧
      collections ((ps.map (.add c)).reverse ++ .copyCollection c :: h) = collections h + 1 ∧
      isCopy ((ps.map (.add c)).reverse ++ .copyCollection c :: h) c = false ∧
      featureNow ((ps.map (.add c)).reverse ++ .copyCollection c :: h) = featureNow h ∧
      added ((ps.map (.add c)).reverse ++ .copyCollection c :: h) (collections h) = added h c ∧
      added ((ps.map (.add c)).reverse ++ .copyCollection c :: h) c = added h c ++ ps := by
    intro ps
    induction ps using List.reverseRecOn with
    | nil =>
      intro _
      refine ⟨⟨hc, hok⟩, hk, rfl, rfl, ?_, rfl, ?_, ?_⟩
      · show isCopy (.copyCollection c :: h) c = false
        rw [isCopy, if_neg (by omega)]; exact hcopy
      · show added (.copyCollection c :: h) (collections h) = _
        rw [added, if_pos rfl]
      · show added (.copyCollection c :: h) c = _
        rw [added, if_neg (by omega), List.append_nil]
    | append_singleton ps p ih =>
      intro hp
      obtain ⟨h1, h2, h3, h4, h5, h6, h7, h8⟩ := ih fun i hi => hp i (List.mem_append_left _ hi)
      rw [List.map_append, List.reverse_append]
      refine ⟨⟨lt_of_lt_of_le hc (le_of_lt (h4 ▸ Nat.lt_succ_self _)), fun i hi => ?_, h1⟩, ⟨h5, h2⟩, h3, h4, h5, h6, ?_, ?_⟩
      · show i < features ((ps.map (.add c)).reverse ++ .copyCollection c :: h)
        rw [h3]; exact hp i (by rw [hi]; simp)
      · show added (.add c p :: ((ps.map (.add c)).reverse ++ .copyCollection c :: h)) (collections h) = _
        rw [added, if_neg (by omega), h7]
      · show added (.add c p :: ((ps.map (.add c)).reverse ++ .copyCollection c :: h)) c = _
        rw [added, if_pos rfl, h8, List.append_assoc]
  obtain ⟨h1, h2, h3, h4, -, h6, h7, h8⟩ := key ps hp
  refine ⟨?_, ?_⟩
  · rw [C126_collection grow _ h1 h2 _ (by omega), C126_collection grow h hok hk c hc, h6, h7]
  · rw [C126_collection grow _ h1 h2 _ (by omega), h6, h8]

/-- C126 fails for a copied collection that is added to: with Go's growth of capacities (0, 1, 2, 4), adding a feature to the copy replaces
the fourth feature of the original by it. -/
theorem C126_copy_false (grow : Nat → Nat → Nat) (g1 : grow 0 1 = 0) (g2 : grow 1 2 = 0) (g3 : grow 2 3 = 1) (f g : Feature F) :
    let h : List (Call F) := [.add 1 (some 1), .add 0 (some 0), .copyCollection 0, .add 0 (some 0), .add 0 (some 0), .add 0 (some 0), .collection,
      .feature g, .feature f]
    Ok h ∧ added h 0 = [some 0, some 0, some 0, some 0] ∧
      ((Store.after grow h).collection 0).Features = some [some f, some f, some f, some g] := by
  refine ⟨by simp [Ok, features, collections], by simp [added, collections], ?_⟩
  have hf : ∀ i, i < 2 → (Store.after grow ([.add 1 (some 1), .add 0 (some 0), .copyCollection 0, .add 0 (some 0), .add 0 (some 0),
      .add 0 (some 0), .collection, .feature g, .feature f] : List (Call F))).feature i = if i = 1 then g else f := by
    intro i hi
    rw [C126_feature grow _ (by simp [Ok, features, collections]) i (by simpa [features] using hi)]
    simp only [featureNow, features]
    rcases i with _ | _ | i
    · rfl
    · rfl
    · omega
  have hc : (Store.after grow ([.add 1 (some 1), .add 0 (some 0), .copyCollection 0, .add 0 (some 0), .add 0 (some 0),
      .add 0 (some 0), .collection, .feature g, .feature f] : List (Call F))).colls[0]? = some ⟨"FeatureCollection", [], some ⟨2, 0, 4, 4⟩, []⟩ ∧
      (Store.after grow ([.add 1 (some 1), .add 0 (some 0), .copyCollection 0, .add 0 (some 0), .add 0 (some 0),
      .add 0 (some 0), .collection, .feature g, .feature f] : List (Call F))).mem = ⟨[[some 0], [some 0, some 0], [some 0, some 0, some 0, some 1]]⟩ := by
    rcases f with ⟨f1, f2, f3, f4, _ | f5, f6, f7⟩ <;> rcases g with ⟨e1, e2, e3, e4, _ | e5, e6, e7⟩ <;>
    simp [Store.after, Store.addFeature, Store.newFeature, Store.newCollection, Store.copyCollection, Store.empty, Mem.append, Mem.poke,
      Mem.read, Mem.arr, Slice.nil, g1, g2, g3, List.modify]
  unfold Store.collection
  rw [hc.1]
  simp only [hc.2, Mem.read, Mem.arr, Option.map_some]
  simp [hf]

/-- C126 fails for a copied feature: a property set on the copy is seen in the original. -/
theorem C126_feature_copy_false (grow : Nat → Nat → Nat) (g : Geometry F) (k : String) (v : Val F) :
    (Store.after grow [.set 1 k v, .copy 0, .feature (NewFeature g)]).feature 0 = SetProperty (NewFeature g) k v := by
  rw [C126_feature grow _ (by simp [Ok, features]) 0 (by simp [features])]
  simp [featureNow, shares, hasMap, features, NewFeature]

/-- C126: the hypotheses hold for two features, one added twice and changed afterwards, a copy of the collection, and nil. -/
example (f g : Feature F) (v : Val F) :
    let h : List (Call F) := [.set 0 "a" v, .add 0 none, .copyCollection 0, .add 0 (some 0), .add 0 (some 1), .add 0 (some 0), .collection, .feature g, .feature f]
    Ok h ∧ CopiesKept h ∧ added h 0 = [some 0, some 1, some 0, none] ∧ added h 1 = [some 0, some 1, some 0] ∧
      featureNow h 0 = SetProperty f "a" v ∧ featureNow h 1 = g := by
  refine ⟨by simp [Ok, features, collections], by simp [CopiesKept, isCopy, collections], ?_, ?_, ?_, ?_⟩ <;>
  simp [added, collections, featureNow, shares, features]

/-- C126_late: a history without copies. -/
example (f : Feature F) (v w : Val F) :
    let h : List (Call F) := [.set 0 "b" w, .add 0 (some 0), .set 0 "a" v, .collection, .feature f]
    Ok h ∧ NoCopy h ∧ setOn h 0 = [("a", v), ("b", w)] ∧ created h 0 = f := by
  refine ⟨by simp [Ok, features, collections], by simp [NoCopy], by simp [setOn], by simp [created, features]⟩

end
end GoGeo
