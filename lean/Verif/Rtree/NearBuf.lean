import Verif.Rtree.Near

/-!
# rtree.go: nearest neighbours with the buffers as they are in memory

`Verif.Rtree.Near` keeps `dists` and `nearest` by value and the two branch buffers as a number of free places. Here the four arrays that
`NearestNeighbors` allocates are arrays: every write goes to an index, `copy` moves elements within one array, and the loop over the branches
reads each branch from the shared buffer when its turn comes, after the calls for the earlier branches have written to that buffer.
-/

set_option linter.unusedSectionVars false

namespace GoGeo
open GoFloat
variable {F : Type} [GoFloat F]

/-- a slice that starts at the beginning of its array, as `dists` and `nearest` do: the array and the length; the capacity is `arr.length` -/
structure Arr (α : Type) where
  arr : List α
  len : Nat

/-- the elements of the slice -/
def Arr.elems {α : Type} (a : Arr α) : List α := a.arr.take a.len

/-- the length is within the capacity -/
def Arr.Ok {α : Type} (a : Arr α) : Prop := a.len ≤ a.arr.length

/-- `append(a, x)` (rtree.go:815-816): in place if there is capacity left, else in a new array -/
def Arr.push {α : Type} (a : Arr α) (x : α) : Arr α :=
  if a.len < a.arr.length then ⟨a.arr.set a.len x, a.len + 1⟩ else ⟨a.arr.take a.len ++ [x], a.len + 1⟩

/-- write `xs` into the array from position `pos` on -/
def copyAt {α : Type} (arr : List α) (pos : Nat) (xs : List α) : List α := arr.take pos ++ xs ++ arr.drop (pos + xs.length)

/-- rtree.go:819-822 (and 824-827): `left, right := a[:i], a[i:len(a)-1]`, `copy(a, left)`, `copy(a[i+1:], right)`, `a[i] = x`.
`right` is read when it is copied. -/
def Arr.shiftIn {α : Type} (a : Arr α) (i : Nat) (x : α) : Go (Arr α) :=
  if i < a.len then
    let arr := copyAt a.arr 0 (a.arr.take i)
    let arr := copyAt arr (i + 1) ((arr.drop i).take (a.len - 1 - i))
    .ok ⟨arr.set i x, a.len⟩
  else .error .slice

/-- `insertNearest` (rtree.go:804-830) -/
def insertNearestBuf (k : Int) (dists : Arr F) (nearest : Arr (Spatial F)) (dist : F) (obj : Spatial F) : Go (Arr F × Arr (Spatial F)) := do
  let i ← searchFloat64s dists.elems dist
  let i ← skipNotFarther dists.elems dist nearest.len (nearest.len + 1) i
  if k ≤ i then .ok (dists, nearest)
  else
    let (dists, nearest) := if (nearest.len : Int) < k then (dists.push (lit 0), nearest.push Spatial.zero) else (dists, nearest)
    let dists ← dists.shiftIn i dist
    let nearest ← nearest.shiftIn i obj
    .ok (dists, nearest)

/-- the loop over the entries of a leaf (rtree.go:835-841) -/
def nearestLeafBuf (k : Int) (p : Point F) : List (Entry F) → Arr F → Arr (Spatial F) → Go (Arr (Spatial F) × Arr F)
  | [], dists, nearest => .ok (nearest, dists)
  | e :: es, dists, nearest => do
    let (dists, nearest) ← insertNearestBuf k dists nearest (minDist p e.bb) e.obj
    nearestLeafBuf k p es dists nearest

/-- what a call leaves behind: the slices `nearest` and `dists` it returns and the contents of the two branch buffers -/
abbrev NearOut (F : Type) := Arr (Spatial F) × Arr F × List (Entry F) × List F

/-- `sortPreallocEntries` (rtree.go:743-754) on the parts of the buffers that begin at `off`: the entries and their distances are written there,
then sorted in place, every `Swap` exchanging in both buffers -/
def sortPrealloc (srt : GoSort) (p : Point F) (entries : List (Entry F)) (off : Nat) (b : List (Entry F)) (bd : List F) : List (Entry F) × List F :=
  let b := copyAt b off entries
  let bd := copyAt bd off (entries.map fun e => minDist p e.bb)
  let sorted := srt (F × Entry F) (fun x y => lt x.1 y.1) (((bd.drop off).take entries.length).zip ((b.drop off).take entries.length))
  (copyAt b off (sorted.map Prod.snd), copyAt bd off (sorted.map Prod.fst))

/-- the number of branches that `pruneEntriesMinDist` (rtree.go:756-764) leaves, reading `minDists[i]` for `i` from `i` on -/
def pruneLen (d : F) (minDists : List F) (n : Nat) : Nat → Nat → Go Nat
  | 0, _ => .error .fuel
  | fuel + 1, i =>
    if i < n then do
      if gt (← goGet minDists i) d then .ok i else pruneLen d minDists n fuel (i + 1)
    else .ok i

/-- the loop over the branches (rtree.go:848-853): `rem` branches are left, the next one is element `i` of the buffer -/
def nearestBranchesBuf (rec : Option Nat → Arr F → Arr (Spatial F) → List (Entry F) → List F → Go (NearOut F)) :
    Nat → Nat → Arr F → Arr (Spatial F) → List (Entry F) → List F → Go (NearOut F)
  | 0, _, dists, nearest, b, bd => .ok (nearest, dists, b, bd)
  | rem + 1, i, dists, nearest, b, bd => do
    let e ← goGet b i
    let (nearest, dists, b, bd) ← rec e.child dists nearest b bd
    nearestBranchesBuf rec rem (i + 1) dists nearest b bd

/-- `nearestNeighbors` (rtree.go:832-856); `b[off:]` and `bd[off:]` are its buffers -/
def nearestNodeBuf (srt : GoSort) (h : Heap F) (k : Int) (p : Point F) :
    Nat → Nat → Option Nat → Arr F → Arr (Spatial F) → List (Entry F) → List F → Go (NearOut F)
  | 0, _, _, _, _, _, _ => .error .fuel
  | fuel + 1, off, n, dists, nearest, b, bd => do
    let (_, v) ← h.deref n
    if v.leaf then do
      let (nearest, dists) ← nearestLeafBuf k p v.entries dists nearest
      .ok (nearest, dists, b, bd)
    else if b.length < off + v.entries.length then .error .slice
    else do
      let (b, bd) := sortPrealloc srt p v.entries off b bd
      let m ← (if k ≤ dists.len then do
          let d ← (if 0 < dists.len then goGet dists.elems (dists.len - 1) else .error .index : Go F)
          pruneLen d ((bd.drop off).take v.entries.length) v.entries.length (v.entries.length + 1) 0
        else .ok v.entries.length : Go Nat)
      nearestBranchesBuf (nearestNodeBuf srt h k p fuel (off + v.entries.length)) m off dists nearest b bd

/-- `NearestNeighbors` (rtree.go:790-801) with its four allocations -/
def NearestNeighborsBuf (srt : GoSort) (s : RState F) (k : Int) (p : Point F) : Go (List (Spatial F)) := do
  let maxBufSize := s.t.MaxChildren * Depth s
  if maxBufSize < 0 then .error .makeNeg
  else if k < 0 then .error .makeNeg
  else do
    let branches := List.replicate maxBufSize.toNat Entry.zero
    let branchDists := List.replicate maxBufSize.toNat (lit 0)
    let (objs, _) ← nearestNodeBuf srt s.h k p (s.h.nodes.length + 1) 0 (some s.t.root) ⟨List.replicate k.toNat (lit 0), 0⟩
      ⟨List.replicate k.toNat Spatial.zero, 0⟩ branches branchDists
    .ok objs.elems

/-! ## The buffers never get in each other's way -/

theorem copyAt_length {α : Type} (arr : List α) (pos : Nat) (xs : List α) (h : pos + xs.length ≤ arr.length) : (copyAt arr pos xs).length = arr.length := by
  simp only [copyAt, List.length_append, List.length_take, List.length_drop]
  omega

theorem copyAt_take {α : Type} (arr : List α) (pos : Nat) (xs : List α) (h : pos ≤ arr.length) : (copyAt arr pos xs).take pos = arr.take pos := by
  rw [copyAt, List.append_assoc, List.take_append_of_le_length (by simp; omega), List.take_take, Nat.min_self]

theorem copyAt_drop {α : Type} (arr : List α) (pos : Nat) (xs : List α) (h : pos ≤ arr.length) :
    ((copyAt arr pos xs).drop pos).take xs.length = xs := by
  rw [copyAt, List.append_assoc, List.drop_left' (by simp; omega), List.take_left' rfl]

theorem copyAt_zero_take {α : Type} (arr : List α) (i : Nat) : copyAt arr 0 (arr.take i) = arr := by
  simp only [copyAt, List.take_zero, List.nil_append, List.length_take, Nat.zero_add]
  rcases Nat.le_total i arr.length with h | h
  · rw [Nat.min_eq_left h, List.take_append_drop]
  · rw [Nat.min_eq_right h, List.drop_length, List.append_nil, List.take_of_length_le h]

theorem Arr.push_elems {α : Type} {a : Arr α} (h : a.Ok) (x : α) : (a.push x).elems = a.elems ++ [x] ∧ (a.push x).Ok := by
  unfold Arr.push
  split
  · rename_i hl
    refine ⟨?_, by simp [Arr.Ok]; omega⟩
    simp only [Arr.elems]
    rw [List.take_add_one, List.take_set_of_le (Nat.le_refl _), List.getElem?_set_self hl]
    rfl
  · have : (a.arr.take a.len).length = a.len := by simp; exact h
    refine ⟨?_, by simp only [Arr.Ok, List.length_append, this, List.length_singleton]; omega⟩
    simp only [Arr.elems]
    rw [List.take_of_length_le (by simp only [List.length_append, this, List.length_singleton]; omega)]

theorem Arr.elems_length {α : Type} {a : Arr α} (h : a.Ok) : a.elems.length = a.len := by
  simp only [Arr.elems, List.length_take]
  exact Nat.min_eq_left h

theorem Arr.shiftIn_elems {α : Type} {a : Arr α} (h : a.Ok) (i : Nat) (x : α) :
    (a.shiftIn i x).map Arr.elems = GoGeo.shiftIn a.elems i x ∧ ∀ a', a.shiftIn i x = .ok a' → a'.Ok := by
  unfold Arr.shiftIn GoGeo.shiftIn
  rw [Arr.elems_length h]
  split
  · rename_i hi
    unfold Arr.Ok at h
    have hl : (List.take (a.len - 1 - i) (List.drop i a.arr)).length = a.len - 1 - i := by simp; omega
    refine ⟨?_, ?_⟩
    · simp only [Except.map, copyAt_zero_take, Arr.elems]
      congr 1
      obtain ⟨n, l⟩ := a
      simp only at h hi hl ⊢
      obtain ⟨L, y, R, rfl, hL⟩ : ∃ L y R, n = L ++ y :: R ∧ L.length = i :=
        ⟨n.take i, n[i]'(by omega), n.drop (i + 1), by rw [← List.drop_eq_getElem_cons (by omega), List.take_append_drop], by simp; omega⟩
      rw [List.drop_left' hL] at hl ⊢
      generalize hm : l - 1 - i = m at hl ⊢
      have e1 : (L ++ y :: R).take (i + 1) = L ++ [y] := by
        rw [← hL, List.take_append, List.take_of_length_le (by omega)]
        simp
      rw [copyAt, e1, List.append_assoc, List.append_assoc, List.set_append_right _ _ (by omega), hL, Nat.sub_self, List.singleton_append,
        List.set_cons_zero, List.take_take, Nat.min_eq_left (by omega : i ≤ l), List.take_left' hL, List.take_take, Nat.min_eq_left (by omega : l - 1 ≤ l)]
      have e2 : l = L.length + (m + 1) := by omega
      have e3 : l - 1 = L.length + m := by omega
      rw [e3, List.take_length_add_append, List.drop_left' hL, e2, List.take_length_add_append, List.take_succ_cons, List.take_left' hl]
    · intro a' e
      simp only [Except.ok.injEq] at e
      subst e
      simp only [Arr.Ok, copyAt_zero_take, List.length_set]
      rw [copyAt_length _ _ _ (by rw [hl]; omega)]
      exact h
  · exact ⟨rfl, fun _ e => by cases e⟩

/-- two outcomes agree: the same panic, or related results -/
def SameGo {α β : Type} (R : α → β → Prop) : Go α → Go β → Prop
  | .ok a, .ok b => R a b
  | .error e, .error e' => e = e'
  | _, _ => False

theorem SameGo.bind {α β γ δ : Type} {R : α → β → Prop} {S : γ → δ → Prop} {x : Go α} {y : Go β} {f : α → Go γ} {g : β → Go δ}
    (h : SameGo R x y) (hfg : ∀ a b, R a b → SameGo S (f a) (g b)) : SameGo S (x >>= f) (y >>= g) := by
  cases x <;> cases y <;> simp only [SameGo] at h
  · subst h; rfl
  · exact hfg _ _ h

theorem insertNearest_buf (k : Int) {dists : Arr F} {nearest : Arr (Spatial F)} (hd : dists.Ok) (hn : nearest.Ok) (dist : F) (obj : Spatial F) :
    SameGo (fun a b => b.1.elems = a.1 ∧ b.1.Ok ∧ b.2.elems = a.2 ∧ b.2.Ok) (insertNearest k dists.elems nearest.elems dist obj)
      (insertNearestBuf k dists nearest dist obj) := by
  unfold insertNearest insertNearestBuf
  rw [Arr.elems_length hn]
  refine SameGo.bind (R := Eq) (by cases searchFloat64s dists.elems dist <;> rfl) ?_
  rintro i _ rfl
  refine SameGo.bind (R := Eq) (by cases skipNotFarther dists.elems dist nearest.len (nearest.len + 1) i <;> rfl) ?_
  rintro i _ rfl
  split
  · exact ⟨rfl, hd, rfl, hn⟩
  · have key : ∀ {α : Type} {a : Arr α} (_ : a.Ok) (x : α), SameGo (fun l b => b.elems = l ∧ b.Ok) (shiftIn a.elems i x) (a.shiftIn i x) := by
      intro α a ha x
      obtain ⟨h1, h2⟩ := Arr.shiftIn_elems ha i x
      rw [← h1]
      cases e : a.shiftIn i x with
      | error => rfl
      | ok a' => exact ⟨rfl, h2 _ e⟩
    have fin : ∀ {d : Arr F} {m : Arr (Spatial F)} (_ : d.Ok) (_ : m.Ok),
        SameGo (fun a b => b.1.elems = a.1 ∧ b.1.Ok ∧ b.2.elems = a.2 ∧ b.2.Ok)
          (do let d ← shiftIn d.elems i dist; let m ← shiftIn m.elems i obj; .ok (d, m))
          (do let d ← d.shiftIn i dist; let m ← m.shiftIn i obj; .ok (d, m)) := by
      intro d m h1 h2
      refine (key h1 dist).bind fun a b h => (key h2 obj).bind fun a' b' h' => ⟨h.1, h.2, h'.1, h'.2⟩
    by_cases hk : (nearest.len : Int) < k
    · obtain ⟨e1, o1⟩ := Arr.push_elems hd (lit 0 : F)
      obtain ⟨e2, o2⟩ := Arr.push_elems hn (Spatial.zero : Spatial F)
      have := fin o1 o2
      rw [e1, e2] at this
      simp only [if_pos hk]
      exact this
    · simp only [if_neg hk]
      exact fin hd hn

theorem nearestLeaf_buf (k : Int) (p : Point F) (es : List (Entry F)) : ∀ {dists : Arr F} {nearest : Arr (Spatial F)} (_ : dists.Ok) (_ : nearest.Ok),
    SameGo (fun a b => b.1.elems = a.1 ∧ b.1.Ok ∧ b.2.elems = a.2 ∧ b.2.Ok) (nearestLeaf k p es dists.elems nearest.elems)
      (nearestLeafBuf k p es dists nearest) := by
  induction es with
  | nil => intro d n hd hn; exact ⟨rfl, hn, rfl, hd⟩
  | cons e es ih =>
    intro d n hd hn
    refine (insertNearest_buf k hd hn _ _).bind ?_
    rintro ⟨a1, a2⟩ ⟨b1, b2⟩ ⟨h1, h2, h3, h4⟩
    simp only at h1 h3
    subst h1 h3
    exact ih h2 h4

/-- what a call returns and leaves behind, against what the simpler model returns: the same lists; the buffers keep their lengths and what is before `off` -/
def NearRel (off : Nat) (b : List (Entry F)) (bd : List F) (x : List (Spatial F) × List F) (y : NearOut F) : Prop :=
  y.1.elems = x.1 ∧ y.1.Ok ∧ y.2.1.elems = x.2 ∧ y.2.1.Ok ∧ y.2.2.1.length = b.length ∧ y.2.2.2.length = bd.length ∧ y.2.2.1.take off = b.take off

theorem pruneLen_eq (d : F) (br : List (F × Entry F)) : ∀ (pre : List (F × Entry F)) (rest : List (F × Entry F)), br = pre ++ rest →
    pruneLen d (br.map Prod.fst) br.length (rest.length + 1) pre.length = .ok (pre.length + (pruneEntriesMinDist d rest).length) := by
  intro pre rest
  induction rest generalizing pre with
  | nil => rintro rfl; simp [pruneLen, pruneEntriesMinDist]
  | cons x rest ih =>
    rintro rfl
    rw [pruneLen, if_pos (by simp)]
    have : goGet ((pre ++ x :: rest).map Prod.fst) pre.length = .ok x.1 := by
      simp [goGet]
    rw [this]
    simp only [bind, Except.bind, pruneEntriesMinDist, List.takeWhile_cons]
    cases h : gt x.1 d with
    | true => simp
    | false =>
      have := ih (pre ++ [x]) (by simp)
      rw [show (pre ++ [x]).length = pre.length + 1 by simp] at this
      simp only [Bool.not_false, if_true, List.length_cons, Bool.false_eq_true, if_false]
      rw [this, pruneEntriesMinDist]
      congr 1
      omega

theorem nearestBranches_buf {rec : Option Nat → List F → List (Spatial F) → Go (List (Spatial F) × List F)}
    {rec' : Option Nat → Arr F → Arr (Spatial F) → List (Entry F) → List F → Go (NearOut F)} {off B D : Nat}
    (hrec : ∀ c {d : Arr F} {n : Arr (Spatial F)} {b : List (Entry F)} {bd : List F}, d.Ok → n.Ok → b.length = B → bd.length = D →
      SameGo (NearRel off b bd) (rec c d.elems n.elems) (rec' c d n b bd)) (br : List (F × Entry F)) :
    ∀ (i : Nat) {d : Arr F} {n : Arr (Spatial F)} {b : List (Entry F)} {bd : List F}, d.Ok → n.Ok → b.length = B → bd.length = D →
      i + br.length ≤ off → off ≤ B → (b.drop i).take br.length = br.map Prod.snd →
      SameGo (NearRel off b bd) (nearestBranches rec br d.elems n.elems) (nearestBranchesBuf rec' br.length i d n b bd) := by
  induction br with
  | nil => intro i d n b bd hd hn hb hbd _ _ _; exact ⟨rfl, hn, rfl, hd, rfl, rfl, rfl⟩
  | cons x br ih =>
    intro i d n b bd hd hn hb hbd hi hoff hread
    have hi' : i < b.length := by simp at hi; omega
    rw [List.drop_eq_getElem_cons hi', List.length_cons, List.take_succ_cons, List.map_cons, List.cons.injEq] at hread
    rw [nearestBranches, List.length_cons, nearestBranchesBuf]
    have hg : goGet b i = .ok x.2 := by
      rw [goGet, List.getElem?_eq_getElem hi', hread.1]
    rw [hg]
    simp only [bind, Except.bind]
    refine SameGo.bind (hrec x.2.child hd hn hb hbd) ?_
    rintro ⟨a1, a2⟩ ⟨n', d', b', bd'⟩ ⟨h1, h2, h3, h4, h5, h6, h7⟩
    simp only at h1 h2 h3 h4 h5 h6 h7
    subst h1 h3
    have hkeep : (b'.drop (i + 1)).take br.length = br.map Prod.snd := by
      rw [← hread.2]
      have e : ∀ l : List (Entry F), (l.drop (i + 1)).take br.length = ((l.take off).drop (i + 1)).take br.length := by
        intro l
        rw [List.drop_take, List.take_take, Nat.min_eq_left (by simp at hi; omega)]
      rw [e b', e b, h7]
    have := ih (i + 1) h4 h2 (h5.trans hb) (h6.trans hbd) (by simp at hi; omega) hoff hkeep
    revert this
    generalize nearestBranches rec br d'.elems n'.elems = X
    generalize nearestBranchesBuf rec' br.length (i + 1) d' n' b' bd' = Y
    cases X <;> cases Y <;> simp only [SameGo] <;> intro h
    · exact h
    · exact h
    · exact h
    · obtain ⟨r1, r2, r3, r4, r5, r6, r7⟩ := h
      exact ⟨r1, r2, r3, r4, r5.trans h5, r6.trans h6, r7.trans h7⟩

theorem nearestNode_buf {srt : GoSort} (hsrt : SortOk srt) (h : Heap F) (k : Int) (p : Point F) (fuel : Nat) :
    ∀ (off : Nat) (c : Option Nat) {d : Arr F} {n : Arr (Spatial F)} {b : List (Entry F)} {bd : List F}, d.Ok → n.Ok → off ≤ b.length → bd.length = b.length →
      SameGo (NearRel off b bd) (nearestNode srt h k p fuel ((b.length : Int) - off) c d.elems n.elems) (nearestNodeBuf srt h k p fuel off c d n b bd) := by
  induction fuel with
  | zero => intros; rfl
  | succ fuel ih =>
    intro off c d n b bd hd hn hoff hbd
    rw [nearestNode, nearestNodeBuf]
    refine SameGo.bind (R := Eq) (by cases h.deref c <;> rfl) ?_
    rintro ⟨_, v⟩ _ rfl
    simp only
    split
    · have := nearestLeaf_buf k p v.entries hd hn
      revert this
      generalize nearestLeaf k p v.entries d.elems n.elems = X
      generalize nearestLeafBuf k p v.entries d n = Y
      cases X <;> cases Y <;> simp only [SameGo] <;> intro h
      · exact h
      · exact h
      · exact h
      · obtain ⟨r1, r2, r3, r4⟩ := h
        exact ⟨r1, r2, r3, r4, rfl, rfl, rfl⟩
    · by_cases hlen : b.length < off + v.entries.length
      · rw [if_pos (by omega), if_pos hlen]
        rfl
      · rw [if_neg (by omega), if_neg hlen]
        generalize hbr : srt (F × Entry F) (fun a b => lt a.1 b.1) (v.entries.map fun e => (minDist p e.bb, e)) = br
        have hbl : br.length = v.entries.length := by
          rw [← hbr, (hsrt.perm _ _ _).length_eq, List.length_map]
        obtain ⟨b2, bd2, hsp, hb2, hbd2, rb, rbd, kb⟩ : ∃ b2 bd2, sortPrealloc srt p v.entries off b bd = (b2, bd2) ∧ b2.length = b.length ∧ bd2.length = b.length ∧
            (b2.drop off).take br.length = br.map Prod.snd ∧ (bd2.drop off).take br.length = br.map Prod.fst ∧ b2.take off = b.take off := by
          have c1 := copyAt_length b off v.entries (by omega)
          have c2 := copyAt_length bd off (v.entries.map fun e => minDist p e.bb) (by rw [List.length_map]; omega)
          have r1 := copyAt_drop b off v.entries hoff
          have r2 := copyAt_drop bd off (v.entries.map fun e => minDist p e.bb) (by omega)
          rw [List.length_map] at r2
          refine ⟨_, _, rfl, ?_⟩
          simp only [r1, r2]
          have hz : (v.entries.map fun e => minDist p e.bb).zip v.entries = v.entries.map fun e => (minDist p e.bb, e) := by
            generalize v.entries = l
            induction l with
            | nil => rfl
            | cons a l ih => simp [ih]
          rw [hz, hbr]
          refine ⟨?_, ?_, ?_, ?_, ?_⟩
          · rw [copyAt_length _ _ _ (by rw [List.length_map, c1]; omega), c1]
          · rw [copyAt_length _ _ _ (by rw [List.length_map, c2]; omega), c2, hbd]
          · have := copyAt_drop (copyAt b off v.entries) off (br.map Prod.snd) (by omega)
            rwa [List.length_map] at this
          · have := copyAt_drop (copyAt bd off (v.entries.map fun e => minDist p e.bb)) off (br.map Prod.fst) (by omega)
            rwa [List.length_map] at this
          · rw [copyAt_take _ _ _ (by omega), copyAt_take _ _ _ (by omega)]
        rw [hsp]
        simp only
        have hm : SameGo (fun a m => a = br.take m ∧ m ≤ br.length)
            (if k ≤ d.elems.length then
              match d.elems.getLast? with
              | none => .error .index
              | some d => .ok (pruneEntriesMinDist d br)
            else .ok br : Go (List (F × Entry F)))
            (if k ≤ d.len then do
              let x ← (if 0 < d.len then goGet d.elems (d.len - 1) else .error .index : Go F)
              pruneLen x ((bd2.drop off).take v.entries.length) v.entries.length (v.entries.length + 1) 0
            else .ok v.entries.length : Go Nat) := by
          rw [Arr.elems_length hd]
          split
          · have hl := Arr.elems_length hd
            by_cases h0 : 0 < d.len
            · rw [if_pos h0]
              have hne : d.len - 1 < d.elems.length := by omega
              have e1 : d.elems.getLast? = some d.elems[d.len - 1] := by
                rw [List.getLast?_eq_getElem?, hl, List.getElem?_eq_getElem hne]
              have e2 : goGet d.elems (d.len - 1) = .ok d.elems[d.len - 1] := by
                rw [goGet, List.getElem?_eq_getElem hne]
              rw [e1, e2]
              simp only [bind, Except.bind]
              have := pruneLen_eq d.elems[d.len - 1] br [] br rfl
              rw [← hbl, rbd]
              simp only [List.length_nil, Nat.zero_add] at this
              rw [this]
              refine ⟨?_, ?_⟩
              · exact (List.prefix_iff_eq_take.1 (List.takeWhile_prefix _))
              · exact (List.takeWhile_prefix _).length_le
            · rw [if_neg h0]
              have : d.elems = [] := List.eq_nil_of_length_eq_zero (by omega)
              rw [this]
              rfl
          · exact ⟨by rw [← hbl, List.take_length], by omega⟩
        refine hm.bind ?_
        rintro _ m ⟨rfl, hml⟩
        have hml' : (br.take m).length = m := by simp; omega
        have key := nearestBranches_buf (F := F) (off := off + v.entries.length) (B := b.length) (D := bd2.length)
          (rec := nearestNode srt h k p fuel ((b.length : Int) - off - v.entries.length)) (rec' := nearestNodeBuf srt h k p fuel (off + v.entries.length))
          (fun c {d n b' bd'} h1 h2 h3 h4 => by
            have := ih (off + v.entries.length) c h1 h2 (b := b') (bd := bd') (by omega) (by omega)
            rw [h3] at this
            rw [show (b.length : Int) - off - v.entries.length = (b.length : Int) - ((off + v.entries.length : Nat) : Int) by push_cast; omega]
            exact this) (br.take m) off hd hn hb2 rfl (by omega) (by omega) (by
              rw [hml', List.map_take, ← rb, List.take_take, Nat.min_eq_left hml])
        rw [hml'] at key
        revert key
        generalize nearestBranches _ _ _ _ = X
        generalize nearestBranchesBuf _ _ _ _ _ _ _ = Y
        cases X <;> cases Y <;> simp only [SameGo] <;> intro h
        · exact h
        · exact h
        · exact h
        · obtain ⟨r1, r2, r3, r4, r5, r6, r7⟩ := h
          refine ⟨r1, r2, r3, r4, r5.trans hb2, r6.trans (hbd2.trans hbd.symm), ?_⟩
          rw [← kb]
          have e : ∀ l : List (Entry F), l.take off = (l.take (off + v.entries.length)).take off := by
            intro l; rw [List.take_take, Nat.min_eq_left (by omega)]
          rw [e b2, ← r7, ← e]

/-- the buffers as they are in memory give the answers, and the panics, of the model without them -/
theorem nearestNeighbors_buf {srt : GoSort} (hsrt : SortOk srt) (s : RState F) (k : Int) (p : Point F) :
    NearestNeighborsBuf srt s k p = NearestNeighbors srt s k p := by
  unfold NearestNeighborsBuf NearestNeighbors
  simp only
  split
  · rfl
  · split
    · rfl
    · rename_i h1 h2
      have := nearestNode_buf hsrt s.h k p (s.h.nodes.length + 1) 0 (some s.t.root) (d := ⟨List.replicate k.toNat (lit 0), 0⟩)
        (n := ⟨List.replicate k.toNat Spatial.zero, 0⟩) (b := List.replicate (s.t.MaxChildren * Depth s).toNat Entry.zero)
        (bd := List.replicate (s.t.MaxChildren * Depth s).toNat (lit 0)) (Nat.zero_le _) (Nat.zero_le _) (Nat.zero_le _) (by simp)
      simp only [Arr.elems, List.take_zero, List.length_replicate] at this
      rw [show (((s.t.MaxChildren * Depth s).toNat : Nat) : Int) - ((0 : Nat) : Int) = s.t.MaxChildren * Depth s by omega] at this
      revert this
      generalize nearestNode srt s.h k p (s.h.nodes.length + 1) (s.t.MaxChildren * Depth s) (some s.t.root) [] [] = X
      generalize nearestNodeBuf (F := F) _ _ _ _ _ _ _ _ _ _ _ = Y
      cases X <;> cases Y <;> simp only [SameGo] <;> intro h
      · subst h; rfl
      · exact h.elim
      · exact h.elim
      · obtain ⟨r1, -⟩ := h
        simp only [bind, Except.bind]
        rw [r1]

end GoGeo
