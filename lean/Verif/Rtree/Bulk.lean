import Verif.Rtree.Model
import Verif.Go.Sort

/-!
# rtree.go: bulk loading

All leaves of a bulk-loaded tree are subslices of the one array made in `bulkLoad`.
-/

namespace GoGeo
open GoFloat
variable {F : Type} [GoFloat F]

namespace Heap

/-- `&node{leaf, level, entries: s}` for an existing slice `s` -/
def allocSlice (h : Heap F) (leaf : Bool) (level : Int) (s : Slice) : Heap F × Nat :=
  ({ h with nodes := h.nodes ++ [⟨none, leaf, s, level⟩] }, h.nodes.length)

/-- `&node{level, entries: make([]entry, 0, m)}` -/
def allocCap (h : Heap F) (level : Int) (m : Nat) : Heap F × Nat :=
  ({ nodes := h.nodes ++ [⟨none, false, ⟨h.arrs.length, 0, 0, m⟩, level⟩]
     arrs := h.arrs ++ [List.replicate m Entry.zero] }, h.nodes.length)

/-- replace the elements of a slice in place -/
def setSlice (h : Heap F) (s : Slice) (es : List (Entry F)) : Heap F :=
  { h with arrs := h.arrs.modify s.arr fun a => a.take s.off ++ es ++ a.drop (s.off + s.len) }

end Heap

/-- `s[a:]` and `s[a:b]` of a slice: the capacity reaches to the end of the old one -/
def Slice.sub (s : Slice) (a len : Nat) : Slice := ⟨s.arr, s.off + a, len, s.cap - a⟩

/-- `dimSorter.Less` (rtree.go:106-112): dimension 0 compares `MinX`, any other `MaxX` -/
def dimLess (dim : Int) (a b : Entry F) : Bool :=
  if dim = 0 then lt a.bb.MinX b.bb.MinX else lt a.bb.MaxX b.bb.MaxX

/-- `sortByDim` (rtree.go:125-127): sorts the slice in place -/
def sortByDim (srt : GoSort) (dim : Int) (h : Heap F) (s : Slice) : Heap F :=
  h.setSlice s (srt (Entry F) (dimLess dim) (h.slice s))

/-- the loop of `walkPartitions` (rtree.go:119-121), for `i = 1 .. n-1` counting down, followed by the
rest of the slice (rtree.go:122); `pos` is `(i-1)*k` -/
def walkLoop (k : Nat) (s : Slice) : Nat → Nat → List Slice
  | 0, pos => [s.sub pos (s.len - pos)]
  | n + 1, pos => s.sub pos k :: walkLoop k s n (pos + k)

/-- the slices passed to `iter` by `walkPartitions` (rtree.go:116-123) -/
def walkPartitions (k : Nat) (s : Slice) : Go (List Slice) :=
  if k = 0 then .error .divZero
  else
    let n := (s.len + k - 1) / k
    if n = 0 then .error .slice else .ok (walkLoop k s (n - 1) 0)

/-- `omt` (rtree.go:172-228).  `height`, `M` are `tree.height` and `tree.MaxChildren`. -/
def omt (srt : GoSort) (grow : Nat → Nat) (height : Int) (M : Nat) :
    Nat → Heap F → Int → Nat → Slice → Nat → Go (Heap F × Nat)
  | 0, _, _, _, _, _ => .error .fuel
  | fuel + 1, h, level, nSlices, objs, m =>
    if objs.len ≤ m then
      if level > 1 then do
        let (h, child) ← omt srt grow height M fuel h (level - 1) nSlices objs m
        let (_, cv) ← h.deref (some child)
        let (h, n) := h.alloc none false level [⟨computeBoundingBox cv.entries, some child, Spatial.zero⟩]
        .ok (h.setParent child (some n), n)
      else .ok (h.allocSlice true level objs)
    else if m = 0 then .error .divZero
    else do
      let (h, n) := h.allocCap level m
      let k := (objs.len + m - 1) / m
      let vertSize := if nSlices > 1 then nSlices * k else objs.len
      let verts ← walkPartitions vertSize objs
      let h ← verts.foldlM (fun h vert => do
        let h := sortByDim srt ((height - level + 1) % 2) h vert
        let parts ← walkPartitions k vert
        parts.foldlM (fun h part => do
          let (h, child) ← omt srt grow height M fuel h (level - 1) 1 part M
          let h := h.setParent child (some n)
          let (_, cv) ← h.deref (some child)
          .ok (h.append grow n ⟨computeBoundingBox cv.entries, some child, Spatial.zero⟩)) h) h
      .ok (h, n)

/-- the numbers `bulkLoad` computes with `math.Log2`, `math.Ceil` and `math.Sqrt` (rtree.go:144-159).
`height n M` is `int(h)`, `slices s` is `int(S)`; both are left open. -/
structure OmtCfg where
  height : Nat → Nat → Nat
  slices : Nat → Nat

/-- `bulkLoad` (rtree.go:131-168).  Simplification: `nsub = M^(h-1)` and `s = ceil(N / nsub)` are
computed exactly (`float64` agrees while they are below `2^53`). -/
def bulkLoad (cfg : OmtCfg) (srt : GoSort) (grow : Nat → Nat) (st : RState F) (objs : List (Spatial F)) :
    Go (RState F) := do
  let n := objs.length
  let h := { st.h with arrs := st.h.arrs ++ [objs.map fun o => ⟨BoundingBox o.Geom, none, o⟩] }
  let entries : Slice := ⟨st.h.arrs.length, 0, n, n⟩
  let M := st.t.MaxChildren.toNat
  let hh := cfg.height n M
  let nsub := M ^ (hh - 1)
  let s := (n + nsub - 1) / nsub
  let S := cfg.slices s
  let h := sortByDim srt 0 h entries
  let (h, root) ← omt srt grow hh M (hh + 1) h hh S entries s
  .ok ⟨h, { st.t with height := hh, size := n, root := root }⟩

/-- `NewMinMaxTree` (rtree.go:60-81) -/
def NewMinMaxTree (cfg : OmtCfg) (srt : GoSort) (grow : Nat → Nat) (min max : Int) (objs : List (Spatial F)) :
    Go (RState F) :=
  if (objs.length : Int) ≤ max then objs.foldlM (fun s o => Insert grow s o) (NewEmptyTree min max)
  else bulkLoad cfg srt grow (NewEmptyTree min max) objs

/-- `NewTree` (rtree.go:35-45) and `NewTreeWith` (rtree.go:47-57) -/
def NewTree (cfg : OmtCfg) (srt : GoSort) (grow : Nat → Nat) (objs : List (Spatial F)) : Go (RState F) :=
  if objs.length < 10 then NewMinMaxTree cfg srt grow 2 10 objs
  else NewMinMaxTree cfg srt grow ((objs.length / 6 : Nat) : Int) ((objs.length / 2 : Nat) : Int) objs

end GoGeo
