import Verif.Go.Num
import Verif.Go.Panic

/-!
# Package encoding/json, as far as the code uses it

Here a JSON document is a tree, and a number in it is the `float64` it is read as.  The text is modelled on top of this, in
`Verif.Go.JsonText`: that printing a tree and reading the text gives the tree back is proved there (`read_enc`), with the limit of 10000 on
nesting.  A map is the list of its entries in the order of their keys, which is the order in which encoding/json prints them.
-/

namespace GoGeo

/-- a JSON document -/
inductive Json (F : Type) where
  | null
  | bool (b : Bool)
  | num (x : F)
  | str (s : String)
  | arr (l : List (Json F))
  | obj (m : List (String × Json F))

/-- a value of type `interface{}`: its dynamic type and value.  Slices of slices of numbers are nil exactly when they have no elements
(as are all that the code makes); `[]float64`, `[]interface{}` and maps are non-nil. -/
inductive Val (F : Type) where
  | nil
  | bool (b : Bool)
  | int (i : Int)
  | float (x : F)
  | str (s : String)
  /-- `[]interface{}` -/
  | slice (l : List (Val F))
  /-- `map[string]interface{}` -/
  | map (m : List (String × Val F))
  /-- `[]float64` -/
  | nums (l : List F)
  /-- `[][]float64` -/
  | nums2 (l : List (List F))
  /-- `[][][]float64` -/
  | nums3 (l : List (List (List F)))
  /-- `[][][][]float64` -/
  | nums4 (l : List (List (List (List F))))
  /-- a value that cannot be marshalled, such as a channel or a function -/
  | other (n : Nat)

namespace Json
open GoFloat
variable {F : Type} [GoFloat F]

/-- `math.IsInf(x, 0) || math.IsNaN(x)`: the check of encoding/json before it prints a number -/
def unprintable (x : F) : Bool := eq x inf || eq x (-inf) || isNaN x

/-- run `f` on every element, up to the first error -/
def mapE {α β : Type} (f : α → Except String β) : List α → Except String (List β)
  | [] => .ok []
  | a :: as => do
    let b ← f a
    let bs ← mapE f as
    return b :: bs

def number (x : F) : Except String (Json F) :=
  if unprintable x then .error "json: unsupported value" else .ok (.num x)

def nums1 (l : List F) : Except String (Json F) := do return .arr (← mapE number l)

/-- a slice of slices: a nil slice is printed as null -/
def numsUp {α : Type} (f : α → Except String (Json F)) (l : List α) : Except String (Json F) :=
  match l with
  | [] => .ok .null
  | _ :: _ => do return .arr (← mapE f l)

def nums2 (l : List (List F)) : Except String (Json F) := numsUp nums1 l
def nums3 (l : List (List (List F))) : Except String (Json F) := numsUp nums2 l
def nums4 (l : List (List (List (List F)))) : Except String (Json F) := numsUp nums3 l

mutual
/-- `json.Marshal` of a value -/
def marshal : Val F → Except String (Json F)
  | .nil => .ok .null
  | .bool b => .ok (.bool b)
  | .int i => .ok (.num (ofInt i))
  | .float x => number x
  | .str s => .ok (.str s)
  | .slice l => do return .arr (← marshalList l)
  | .map m => do return .obj (← marshalMembers m)
  | .nums l => nums1 l
  | .nums2 l => nums2 l
  | .nums3 l => nums3 l
  | .nums4 l => nums4 l
  | .other _ => .error "json: unsupported type"
def marshalList : List (Val F) → Except String (List (Json F))
  | [] => .ok []
  | v :: vs => do
    let j ← marshal v
    let js ← marshalList vs
    return j :: js
def marshalMembers : List (String × Val F) → Except String (List (String × Json F))
  | [] => .ok []
  | (k, v) :: vs => do
    let j ← marshal v
    let js ← marshalMembers vs
    return (k, j) :: js
end

/-- `m[k] = v` on the entries of a map, which are kept in the order of their keys -/
def setKey {α : Type} (k : String) (v : α) : List (String × α) → List (String × α)
  | [] => [(k, v)]
  | (k', v') :: m => if k = k' then (k, v) :: m else if k < k' then (k, v) :: (k', v') :: m else (k', v') :: setKey k v m

mutual
/-- `json.Unmarshal` into an `interface{}` -/
def decode : Json F → Val F
  | .null => .nil
  | .bool b => .bool b
  | .num x => .float x
  | .str s => .str s
  | .arr l => .slice (decodeList l)
  | .obj m => .map (decodeMembers m [])
def decodeList : List (Json F) → List (Val F)
  | [] => []
  | j :: js => decode j :: decodeList js
/-- `json.Unmarshal` of the members of an object into a map that already has entries -/
def decodeMembers : List (String × Json F) → List (String × Val F) → List (String × Val F)
  | [], acc => acc
  | (k, j) :: js, acc => decodeMembers js (setKey k (decode j) acc)
end

/-- one letter of a field name and one character of a member name (encoding/json/fold.go `equalFoldRight`; for names without k and s
`simpleLetterEqualFold` and `asciiEqualFold` do the same) -/
def foldChar (a b : Char) : Bool :=
  b == a || b == a.toUpper || (a == 's' && b == 'ſ') || (a == 'k' && b == '\u212A')

/-- `ff.equalFold(ff.nameBytes, key)` for a name of small letters -/
def equalFold : List Char → List Char → Bool
  | [], [] => true
  | a :: as, b :: bs => foldChar a b && equalFold as bs
  | _, _ => false

/-- the struct field for a member name: an exact match, or else the first one that is equal up to case (encoding/json/decode.go `object`) -/
def fieldOf (fields : List String) (k : String) : Option String :=
  if fields.contains k then some k else fields.find? fun n => equalFold n.toList k.toList

/-- `json.Unmarshal` into a `string` -/
def toStr (old : String) : Json F → Except String String
  | .null => .ok old
  | .str s => .ok s
  | _ => .error "json: cannot unmarshal into Go value of type string"

/-- `json.Unmarshal` into a `map[string]interface{}`; `none` is the nil map -/
def toMap (old : Option (List (String × Val F))) : Json F → Except String (Option (List (String × Val F)))
  | .null => .ok none
  | .obj m => .ok (some (decodeMembers m (old.getD [])))
  | _ => .error "json: cannot unmarshal into Go value of type map"

/-- `json.Unmarshal` into a new `float64` -/
def toNum : Json F → Except String F
  | .null => .ok (lit 0)
  | .num x => .ok x
  | _ => .error "json: cannot unmarshal into Go value of type float64"

/-- `json.Unmarshal` into a new `[]float64` (simplification: when a member is repeated, old elements are not kept for nulls; see
`Verif/GeoJson/Reuse.lean`) -/
def toNums : Json F → Except String (List F)
  | .null => .ok []
  | .arr l => mapE toNum l
  | _ => .error "json: cannot unmarshal into Go value of type []float64"

end Json
end GoGeo
