import Verif.GeoJson.Share

/-!
# What a program sees of shared features and collections

A history is the list of the calls made so far, the latest one first.  Features and collections are numbered in the order of their creation.
-/

namespace GoGeo.GeoJson
open Json

/-- a call: a new feature, a copy of a struct, `SetProperty`, a new collection, a copy of a collection, `AddFeature` -/
inductive Call (F : Type)
  | feature (f : Feature F)
  | copy (i : Nat)
  | set (i : Nat) (key : String) (value : Val F)
  | collection
  | copyCollection (c : Nat)
  | add (c : Nat) (feature : Option Nat)

section
variable {F : Type} [GoFloat F]

/-- the memory after a history -/
def Store.after (grow : Nat → Nat → Nat) : List (Call F) → Store F
  | [] => Store.empty
  | .feature f :: h => (Store.after grow h).newFeature f
  | .copy i :: h => (Store.after grow h).copyFeature i
  | .set i k v :: h => (Store.after grow h).setProperty i k v
  | .collection :: h => (Store.after grow h).newCollection
  | .copyCollection c :: h => (Store.after grow h).copyCollection c
  | .add c p :: h => (Store.after grow h).addFeature grow c p

/-- the number of features -/
def features : List (Call F) → Nat
  | [] => 0
  | .feature _ :: h => features h + 1
  | .copy _ :: h => features h + 1
  | _ :: h => features h

/-- the number of collections -/
def collections : List (Call F) → Nat
  | [] => 0
  | .collection :: h => collections h + 1
  | .copyCollection _ :: h => collections h + 1
  | _ :: h => collections h

/-- every call is made on features and collections that exist -/
def Ok : List (Call F) → Prop
  | [] => True
  | .copy i :: h => i < features h ∧ Ok h
  | .set i _ _ :: h => i < features h ∧ Ok h
  | .copyCollection c :: h => c < collections h ∧ Ok h
  | .add c p :: h => c < collections h ∧ (∀ i, p = some i → i < features h) ∧ Ok h
  | _ :: h => Ok h

/-- has feature `i` a map of properties? -/
def hasMap : List (Call F) → Nat → Bool
  | [], _ => false
  | .feature f :: h, i => if i = features h then f.Properties.isSome else hasMap h i
  | .copy j :: h, i => if i = features h then hasMap h j else hasMap h i
  | .set j _ _ :: h, i => if i = j then true else hasMap h i
  | _ :: h, i => hasMap h i

/-- have features `i` and `j` the same map?  Only by copies of structs, and only if there was a map when the copy was made -/
def shares : List (Call F) → Nat → Nat → Bool
  | .copy k :: h, i, j =>
    if i = j then true
    else if i = features h then hasMap h k && shares h k j
    else if j = features h then hasMap h k && shares h i k
    else shares h i j
  | .feature _ :: h, i, j => if i = j then true else if i = features h ∨ j = features h then false else shares h i j
  | _ :: h, i, j => shares h i j
  | [], i, j => i == j

/-- feature `i` as it is now: `SetProperty` is seen on the feature it was called on and on all that share its map -/
def featureNow : List (Call F) → Nat → Feature F
  | [], _ => Feature.zero
  | .feature f :: h, i => if i = features h then f else featureNow h i
  | .copy j :: h, i => if i = features h then featureNow h j else featureNow h i
  | .set j k v :: h, i => if shares h i j then SetProperty (featureNow h i) k v else featureNow h i
  | _ :: h, i => featureNow h i

/-- what was added to collection `c`, in order -/
def added : List (Call F) → Nat → List (Option Nat)
  | [], _ => []
  | .collection :: h, c => if c = collections h then [] else added h c
  | .copyCollection d :: h, c => if c = collections h then added h d else added h c
  | .add d p :: h, c => if c = d then added h c ++ [p] else added h c
  | _ :: h, c => added h c

/-- was collection `c` made by copying another one? -/
def isCopy : List (Call F) → Nat → Bool
  | [], _ => false
  | .collection :: h, c => if c = collections h then false else isCopy h c
  | .copyCollection _ :: h, c => if c = collections h then true else isCopy h c
  | _ :: h, c => isCopy h c

/-- nothing was added to a collection that is a copy: copies are only looked at -/
def CopiesKept : List (Call F) → Prop
  | [] => True
  | .add c _ :: h => isCopy h c = false ∧ CopiesKept h
  | _ :: h => CopiesKept h

/-- no structs are copied -/
def NoCopy (h : List (Call F)) : Prop := ∀ e ∈ h, (∀ i, e ≠ .copy i) ∧ ∀ c, e ≠ .copyCollection c

/-- the feature that `i` was created as -/
def created : List (Call F) → Nat → Feature F
  | [], _ => Feature.zero
  | .feature f :: h, i => if i = features h then f else created h i
  | _ :: h, i => created h i

/-- the properties set on feature `i`, in order -/
def setOn : List (Call F) → Nat → List (String × Val F)
  | [], _ => []
  | .set j k v :: h, i => if i = j then setOn h i ++ [(k, v)] else setOn h i
  | _ :: h, i => setOn h i

end
end GoGeo.GeoJson
