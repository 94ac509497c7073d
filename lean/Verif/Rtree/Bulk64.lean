import Verif.Rtree.Bulk
import Verif.Go.ErrReal
import Verif.Go.IntConv

/-!
# rtree.go: `bulkLoad` with its `float64` arithmetic

`Verif.Rtree.Bulk` leaves the numbers that `bulkLoad` computes with package math open; here they are computed as in the code.
-/

namespace GoGeo
open GoFloat GoSqrt GoInt

/-- the functions of package math that `bulkLoad` calls, apart from `math.Sqrt` -/
structure Math64 where
  log2 : Float → Float
  ceil : Float → Float
  floor : Float → Float
  pow : Float → Float → Float

/-- `int(h)`, `int(S)` and `int(s)` (rtree.go:144-159) for `n` objects and `MaxChildren = M` -/
def omtSizes (lib : Math64) (n : Nat) (M : Int) : Nat × Nat × Nat :=
  let N : Float := ofInt n
  let M : Float := ofInt M
  let h := lib.ceil (lib.log2 N / lib.log2 M)
  let nsub := lib.pow M (h - lit 1)
  let s := lib.ceil (N / nsub)
  let S := lib.floor (sqrt s)
  ((toInt h).toNat, (toInt S).toNat, (toInt s).toNat)

/-- `bulkLoad` (rtree.go:131-168) -/
def bulkLoad64 (lib : Math64) (srt : GoSort) (grow : Nat → Nat) (st : RState Float) (objs : List (Spatial Float)) : Go (RState Float) := do
  let n := objs.length
  let h := { st.h with arrs := st.h.arrs ++ [objs.map fun o => ⟨BoundingBox o.Geom, none, o⟩] }
  let entries : Slice := ⟨st.h.arrs.length, 0, n, n⟩
  let (hh, S, s) := omtSizes lib n st.t.MaxChildren
  let h := sortByDim srt 0 h entries
  let (h, root) ← omt srt grow hh st.t.MaxChildren.toNat (hh + 1) h hh S entries s
  .ok ⟨h, { st.t with height := hh, size := n, root := root }⟩

/-- `NewMinMaxTree` (rtree.go:60-81) -/
def NewMinMaxTree64 (lib : Math64) (srt : GoSort) (grow : Nat → Nat) (min max : Int) (objs : List (Spatial Float)) : Go (RState Float) :=
  if (objs.length : Int) ≤ max then objs.foldlM (fun s o => Insert grow s o) (NewEmptyTree min max)
  else bulkLoad64 lib srt grow (NewEmptyTree min max) objs

/-- `NewTree` (rtree.go:35-45) and `NewTreeWith` (rtree.go:47-57) -/
def NewTree64 (lib : Math64) (srt : GoSort) (grow : Nat → Nat) (objs : List (Spatial Float)) : Go (RState Float) :=
  if objs.length < 10 then NewMinMaxTree64 lib srt grow 2 10 objs
  else NewMinMaxTree64 lib srt grow ((objs.length / 6 : Nat) : Int) ((objs.length / 2 : Nat) : Int) objs

end GoGeo
