/-!
# `sort.Sort` of Go 1.15 (package sort, sort.go)

`go.mod` of the repository names Go 1.15.  This is the library's `quickSort`, written over a list with `Less` and `Swap` acting on the
list as it is at the moment (`less p i j`), because `hullPts.Less` (convexhull.go:20-37) looks at `p[0]`.  The library's source is not in
the repository; the model follows the published text.  Every loop has fuel, enough for the number of its iterations.
-/

namespace GoGeo.Sort115
variable {α : Type} [Inhabited α] (less : List α → Nat → Nat → Bool)

/-- `data.Swap(i, j)` -/
def swap (p : List α) (i j : Nat) : List α := (p.set i (p.getD j default)).set j (p.getD i default)

/-- `insertionSort`, inner loop: `for j := i; j > a && data.Less(j, j-1); j-- { data.Swap(j, j-1) }` -/
def insLoop (a : Nat) : Nat → List α → List α
  | 0, p => p
  | j + 1, p => if a < j + 1 && less p (j + 1) j then insLoop a j (swap p (j + 1) j) else p

/-- `insertionSort(data, a, b)` -/
def insertion (p : List α) (a b : Nat) : List α := (List.range' (a + 1) (b - a - 1)).foldl (fun p i => insLoop less a i p) p

/-- the gap-6 pass at the end of `quickSort` -/
def shell (p : List α) (a b : Nat) : List α :=
  (List.range' (a + 6) (b - a - 6)).foldl (fun p i => if less p i (i - 6) then swap p i (i - 6) else p) p

/-- `medianOfThree(data, m1, m0, m2)` -/
def medianOfThree (p : List α) (m1 m0 m2 : Nat) : List α :=
  let p := if less p m1 m0 then swap p m1 m0 else p
  if less p m2 m1 then
    let p := swap p m2 m1
    if less p m1 m0 then swap p m1 m0 else p
  else p

/-- `for ; i < j && cond(i); i++ {}` -/
def up (cond : Nat → Bool) (j : Nat) : Nat → Nat → Nat
  | 0, i => i
  | n + 1, i => if i < j && cond i then up cond j n (i + 1) else i

/-- `for ; i < j && cond(j-1); j-- {}` -/
def down (cond : Nat → Bool) (i : Nat) : Nat → Nat → Nat
  | 0, j => j
  | n + 1, j => if i < j && cond (j - 1) then down cond i n (j - 1) else j

/-- the partition loop of `doPivot`: `b` and `c` at its end -/
def partLoop (pivot : Nat) : Nat → List α → Nat → Nat → List α × Nat × Nat
  | 0, p, b, c => (p, b, c)
  | n + 1, p, b, c =>
    let b := up (fun b => !less p pivot b) c p.length b
    let c := down (fun c => less p pivot c) b p.length c
    if b ≥ c then (p, b, c) else partLoop pivot n (swap p b (c - 1)) (b + 1) (c - 1)

/-- the loop of `doPivot` that protects against duplicates: `b` at its end -/
def protLoop (pivot : Nat) : Nat → List α → Nat → Nat → List α × Nat
  | 0, p, _, b => (p, b)
  | n + 1, p, a, b =>
    let b := down (fun b => !less p b pivot) a p.length b
    let a := up (fun a => less p a pivot) b p.length a
    if a ≥ b then (p, b) else protLoop pivot n (swap p a (b - 1)) (a + 1) (b - 1)

/-- `doPivot(data, lo, hi)` -/
def doPivot (p : List α) (lo hi : Nat) : List α × Nat × Nat :=
  let m := (lo + hi) / 2
  let p := if hi - lo > 40 then
      let s := (hi - lo) / 8
      let p := medianOfThree less p lo (lo + s) (lo + 2 * s)
      let p := medianOfThree less p m (m - s) (m + s)
      medianOfThree less p (hi - 1) (hi - 1 - s) (hi - 1 - 2 * s)
    else p
  let p := medianOfThree less p lo m (hi - 1)
  let pivot := lo
  let a := up (fun a => less p a pivot) (hi - 1) p.length (lo + 1)
  let r := partLoop less pivot p.length p a (hi - 1)
  let p := r.1
  let b := r.2.1
  let c := r.2.2
  let protect := decide (hi - c < 5)
  let r := if !protect && decide (hi - c < (hi - lo) / 4) then
      let r1 := if !less p pivot (hi - 1) then (swap p c (hi - 1), c + 1, 1) else (p, c, 0)
      let p := r1.1
      let c := r1.2.1
      let d := r1.2.2
      let r2 := if !less p (b - 1) pivot then (b - 1, d + 1) else (b, d)
      let b := r2.1
      let d := r2.2
      let r3 := if !less p m pivot then (swap p m (b - 1), b - 1, d + 1) else (p, b, d)
      (r3.1, r3.2.1, c, decide (r3.2.2 > 1))
    else (p, b, c, protect)
  let p := r.1
  let b := r.2.1
  let c := r.2.2.1
  let r := if r.2.2.2 then protLoop less pivot p.length p a b else (p, b)
  (swap r.1 pivot (r.2 - 1), r.2 - 1, c)

/-- `siftDown(data, lo, hi, first)` -/
def siftDown (hi first : Nat) : Nat → List α → Nat → List α
  | 0, p, _ => p
  | n + 1, p, root =>
    let child := 2 * root + 1
    if child ≥ hi then p
    else
      let child := if child + 1 < hi && less p (first + child) (first + child + 1) then child + 1 else child
      if !less p (first + root) (first + child) then p
      else siftDown hi first n (swap p (first + root) (first + child)) child

/-- `heapSort(data, a, b)` -/
def heapSort (p : List α) (a b : Nat) : List α :=
  let hi := b - a
  let p := (List.range ((hi - 1) / 2 + 1)).reverse.foldl (fun p i => siftDown less hi a p.length p i) p
  (List.range hi).reverse.foldl (fun p i => siftDown less i a p.length (swap p a (a + i)) 0) p

/-- `quickSort(data, a, b, maxDepth)`; the second argument of each recursive call is the loop's next round -/
def quickSort : Nat → Nat → List α → Nat → Nat → List α
  | 0, _, p, _, _ => p
  | fuel + 1, depth, p, a, b =>
    if b - a > 12 then
      if depth = 0 then heapSort less p a b
      else
        let r := doPivot less p a b
        let mlo := r.2.1
        let mhi := r.2.2
        if mlo - a < b - mhi then
          quickSort fuel (depth - 1) (quickSort fuel (depth - 1) r.1 a mlo) mhi b
        else
          quickSort fuel (depth - 1) (quickSort fuel (depth - 1) r.1 mhi b) a mlo
    else if b - a > 1 then insertion less (shell less p a b) a b
    else p

/-- `maxDepth(n)`: twice the bit length -/
def maxDepth (n : Nat) : Nat := 2 * (if n = 0 then 0 else Nat.log2 n + 1)

/-- `Sort(data)` -/
def sort (p : List α) : List α := quickSort less (p.length + 1) (maxDepth p.length) p 0 p.length

end GoGeo.Sort115
