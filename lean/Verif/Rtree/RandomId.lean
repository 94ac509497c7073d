import Verif.Rtree.Bulk

/-!
# rtree.go: ids taken from the clock

`time.Now().UnixNano()` is an argument of the model (a signed integer, nothing is assumed about it).
-/

namespace GoGeo
open GoFloat
variable {F : Type} [GoFloat F]

/-- `fmt.Sprintf("%d_0_%d", rid, i)` (rtree.go:30) -/
def newId (rid : Int) (i : Nat) : String := toString rid ++ "_0_" ++ toString i

/-- loop of `NewRandomIDTree` (rtree.go:29-31) from index `i` -/
def randomSpatials (rid : Int) : Nat → List (Geometry F) → List (Spatial F)
  | _, [] => []
  | i, v :: vs => ⟨newId rid i, .nil, v⟩ :: randomSpatials rid (i + 1) vs

/-- `NewRandomIDTree` (rtree.go:18-33), called at time `now` -/
def NewRandomIDTree (cfg : OmtCfg) (srt : GoSort) (grow : Nat → Nat) (now : Int) (objs : List (Geometry F)) :
    Go (RState F) :=
  let sps := randomSpatials now 0 objs
  if objs.length < 10 then NewMinMaxTree cfg srt grow 2 10 sps
  else NewMinMaxTree cfg srt grow ((objs.length / 6 : Nat) : Int) ((objs.length / 2 : Nat) : Int) sps

/-- `fmt.Sprintf("%d_1_%d", time.Now().UnixNano(), tree.Size)` (rtree.go:272).  `tree.Size` is the method
itself, not its result: `%d` prints the address of its code, `code`, the same for all trees and calls of
one run of the program. -/
def insertId (now : Int) (code : Nat) : String := toString now ++ "_1_" ++ toString code

/-- `InsertWithRandomId` (rtree.go:271-275), called at time `now` -/
def InsertWithRandomId (code : Nat) (grow : Nat → Nat) (s : RState F) (now : Int) (geom : Geometry F) : Go (RState F) := do
  let s ← insert grow s ⟨BoundingBox geom, none, ⟨insertId now code, .nil, geom⟩⟩ 1
  .ok ⟨s.h, { s.t with size := s.t.size + 1 }⟩

end GoGeo
