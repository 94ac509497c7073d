import Verif.Props.RtreeDelete
import Verif.Props.Bulk64

/-!
# C116: the depth of the tree and the number of its objects

`Depth` is what bounds the work of a search for one object.  A node has at most `max` entries, so a tree
of depth `d` holds at most `max ^ d` objects, after every history of calls.  Every node of a tree built by
insertions has at least `min` entries (the root two), so the depth is at most logarithmic in the number
of objects; for a bulk-loaded tree the base of the logarithm is `max`.  Deletions break this.
-/

set_option linter.unusedSectionVars false

namespace GoGeo
open GoFloat Spec
variable {F : Type}

namespace Item

theorem length_flatMap_le {α β : Type} (f : α → List β) (n : Nat) :
    ∀ l : List α, (∀ a ∈ l, (f a).length ≤ n) → (l.flatMap f).length ≤ l.length * n
  | [], _ => by simp
  | a :: l, h => by
    have := length_flatMap_le f n l fun b hb => h b (by simp [hb])
    have := h a (by simp)
    rw [List.flatMap_cons, List.length_append, List.length_cons, Nat.add_mul]
    omega

theorem le_length_flatMap {α β : Type} (f : α → List β) (n : Nat) :
    ∀ l : List α, (∀ a ∈ l, n ≤ (f a).length) → l.length * n ≤ (l.flatMap f).length
  | [], _ => by simp
  | a :: l, h => by
    have := le_length_flatMap f n l fun b hb => h b (by simp [hb])
    have := h a (by simp)
    rw [List.flatMap_cons, List.length_append, List.length_cons, Nat.add_mul]
    omega

/-- the number of objects of a node whose nodes have between `lo` and `hi` entries -/
theorem size_bounds [GoFloat F] {lo hi : Nat} : ∀ {j : Nat} (x : Item F j), x.Cnt lo hi → x.Fill lo hi →
    lo ^ j ≤ x.objs.length ∧ x.objs.length ≤ hi ^ j
  | 0, _, _, _ => ⟨le_refl 1, le_refl 1⟩
  | j + 1, x, hc, hf => by
    have h : ∀ p ∈ x.es, lo ^ j ≤ p.2.objs.length ∧ p.2.objs.length ≤ hi ^ j := fun p hp =>
      size_bounds p.2 (hf p hp).1 (hf p hp).2
    rw [objs_succ, Nat.pow_succ, Nat.pow_succ, Nat.mul_comm, Nat.mul_comm (hi ^ j)]
    exact ⟨(Nat.mul_le_mul_right _ hc.1).trans (le_length_flatMap _ _ _ fun p hp => (h p hp).1),
      (length_flatMap_le _ _ _ fun p hp => (h p hp).2).trans (Nat.mul_le_mul_right _ hc.2)⟩

end Item

theorem TInv.capacity [GoFloat F] {q : Bool} {lo hi r : Nat} {s : RState F} {K : Nat} {X : Item F (K + 1)} (ti : TInv q lo hi r s X) :
    (contents s).length ≤ hi ^ (K + 1) ∧ (K ≠ 0 → r * lo ^ K ≤ (contents s).length) := by
  have h : ∀ p ∈ X.es, lo ^ K ≤ p.2.objs.length ∧ p.2.objs.length ≤ hi ^ K := fun p hp =>
    Item.size_bounds p.2 (ti.fill p hp).1 (ti.fill p hp).2
  rw [contents_eq ti, Item.objs_succ, Nat.pow_succ, Nat.mul_comm (hi ^ K)]
  exact ⟨(Item.length_flatMap_le _ _ _ fun p hp => (h p hp).2).trans (Nat.mul_le_mul_right _ ti.cnt.1),
    fun hK => (Nat.mul_le_mul_right _ (ti.cnt.2 hK)).trans (Item.le_length_flatMap _ _ _ fun p hp => (h p hp).1)⟩

section
variable [GoFloat F] [FloatOrd F]

/-- **C116**, capacity: after any history of calls, a tree of depth `d` holds at most `max ^ d` objects (so no search path is shorter
than the logarithm of their number). -/
theorem C116_capacity (grow : Nat → Nat) (min max : Int) (hmax : 2 ≤ max) (s : RState F) (hs : Reached grow min max s) :
    1 ≤ Depth s ∧ Size s ≤ max ^ (Depth s).toNat := by
  obtain ⟨⟨K, X, ti⟩, hz, -⟩ := hs.sound hmax
  have hd : Depth s = (K : Int) + 1 := ti.height
  have e : (Depth s).toNat = K + 1 := by omega
  refine ⟨by omega, ?_⟩
  obtain ⟨M, rfl⟩ : ∃ M : Nat, max = M := ⟨max.toNat, by omega⟩
  rw [Int.toNat_natCast] at ti
  unfold Size
  rw [e, hz]
  exact_mod_cast ti.capacity.1

/-- **C116**, insertions: a tree of depth `d > 1` built by insertions holds at least `2 * min ^ (d - 1)` objects, so for `min ≥ 2` its depth is at most
the logarithm to base `min` of the number of its objects. -/
theorem C116_insert (grow : Nat → Nat) (min max : Int) (hp : ParamsOk min max) (objs : List (Spatial F))
    (s : RState F) (hs : insertAll grow (NewEmptyTree min max) objs = .ok s) :
    1 ≤ Depth s ∧ (1 < Depth s → 2 * min ^ ((Depth s).toNat - 1) ≤ (objs.length : Int)) ∧ (objs.length : Int) ≤ max ^ (Depth s).toNat := by
  have h1 := hp.pos
  have h2 := hp.half
  obtain ⟨K, X, ti, hperm, -, hm⟩ := insertAll_spec (lo := min.toNat) (hi := max.toNat) (r := 2) grow objs
    (TInv.empty (min := min) (max := max) (le_refl 2)
      ⟨by omega, by simp [NewEmptyTree]; omega, Or.inr ⟨by simp [NewEmptyTree]; omega, by omega⟩⟩) hs
  have hd : Depth s = (K : Int) + 1 := ti.height
  have e : (Depth s).toNat = K + 1 := by omega
  have hl : (contents s).length = objs.length := by
    rw [contents_eq ti, hperm.length_eq]
    simp [objs_eq]
  obtain ⟨m, rfl⟩ : ∃ m : Nat, min = m := ⟨min.toNat, by omega⟩
  obtain ⟨M, rfl⟩ : ∃ M : Nat, max = M := ⟨max.toNat, by omega⟩
  rw [Int.toNat_natCast, Int.toNat_natCast] at ti
  have h3 := ti.capacity
  rw [hl] at h3
  rw [e, Nat.add_sub_cancel]
  exact ⟨by omega, fun h => by exact_mod_cast h3.2 (by omega), by exact_mod_cast h3.1⟩

/-- the same bound with a logarithm: `Depth ≤ log_min (n / 2) + 1` -/
theorem C116_insert_log (grow : Nat → Nat) (min max : Int) (hp : ParamsOk min max) (h2 : 2 ≤ min) (objs : List (Spatial F))
    (s : RState F) (hs : insertAll grow (NewEmptyTree min max) objs = .ok s) :
    Depth s ≤ Nat.log min.toNat (objs.length / 2) + 1 ∧ (Nat.clog max.toNat objs.length : Int) ≤ Depth s := by
  obtain ⟨h0, h1, h3⟩ := C116_insert grow min max hp objs s hs
  have hp2 := hp.half
  obtain ⟨m, rfl⟩ : ∃ m : Nat, min = m := ⟨min.toNat, by omega⟩
  obtain ⟨M, rfl⟩ : ∃ M : Nat, max = M := ⟨max.toNat, by omega⟩
  rw [Int.toNat_natCast, Int.toNat_natCast]
  obtain ⟨d, hd⟩ : ∃ d : Nat, Depth s = d := ⟨(Depth s).toNat, by omega⟩
  rw [hd] at h0 h1 h3 ⊢
  rw [Int.toNat_natCast] at h1 h3
  constructor
  · by_cases hd1 : 1 < d
    · have h4 : 2 * m ^ (d - 1) ≤ objs.length := by exact_mod_cast h1 (by omega)
      have h5 : d - 1 ≤ Nat.log m (objs.length / 2) := Nat.le_log_of_pow_le (by omega) (by omega)
      omega
    · omega
  · have h4 : objs.length ≤ M ^ d := by exact_mod_cast h3
    exact_mod_cast Nat.clog_le_of_le_pow h4

end

/-- **C116**, bulk loading, as it runs: the depth is the logarithm to base `max` of the number of objects, rounded up; when that number is a power
of `max` it may be one more. -/
theorem C116_bulk (lib : Math64) (hl : Math64Ok lib) (grow : Nat → Nat) (min max : Int) (hmax : 2 ≤ max)
    (objs : List (Spatial Float)) (hn : max < objs.length) (hN : objs.length ≤ 2 ^ 40) (s : RState Float)
    (hs : NewMinMaxTree64 lib goSort grow min max objs = .ok s) :
    1 ≤ Depth s ∧ max ^ ((Depth s).toNat - 1) ≤ (objs.length : Int) ∧ (objs.length : Int) ≤ max ^ (Depth s).toNat := by
  obtain ⟨cfg, e, hh, -, h4⟩ := bulkLoad64_eq hl goSort grow (min := min) hmax objs hn hN
  unfold NewMinMaxTree64 at hs
  rw [if_neg (by omega), e] at hs
  have hd : Depth s = cfg.height objs.length max.toNat := by
    unfold bulkLoad at hs
    simp only [bind, Except.bind] at hs
    split at hs
    · cases hs
    · cases hs
      rfl
  rw [hd, Int.toNat_natCast]
  obtain ⟨a, b⟩ := hh
  obtain ⟨M, rfl⟩ : ∃ M : Nat, max = M := ⟨max.toNat, by omega⟩
  rw [Int.toNat_natCast] at *
  exact ⟨by exact_mod_cast a, by exact_mod_cast h4, by exact_mod_cast b⟩

/-! ### deletions -/

/-- `n` points on a line -/
def linePoints (n : Nat) : List (Spatial Float) := (List.range n).map fun i => ⟨toString i, .nil, .point ⟨Float.ofNat i, 0⟩⟩

/-- the trees of the examples below, built by insertions -/
example : (insertAll id (NewEmptyTree 2 4) (linePoints 20)).map Depth = .ok 3 := by decide +kernel

/-- a hundred points bulk-loaded with `max = 4` give a tree of depth 4, since `4 ^ 3 < 100 ≤ 4 ^ 4` -/
example : ∃ s : RState Float, NewMinMaxTree64 someMath64 goSort id 2 4 (linePoints 100) = .ok s ∧ Depth s = 4 := by
  have hl : (linePoints 100).length = 100 := by simp [linePoints]
  obtain ⟨s, hs, -⟩ := C12_float64 someMath64 someMath64_ok id 2 4 (by omega) (linePoints 100) (by omega) (by omega)
  obtain ⟨h1, h2, h3⟩ := C116_bulk someMath64 someMath64_ok id 2 4 (by omega) (linePoints 100) (by omega) (by omega) s hs
  refine ⟨s, hs, ?_⟩
  obtain ⟨d, hd⟩ : ∃ d : Nat, Depth s = d := ⟨(Depth s).toNat, by omega⟩
  rw [hd, hl, Int.toNat_natCast] at h2 h3
  rw [hd]
  have h2' : 4 ^ (d - 1) ≤ 100 := by exact_mod_cast h2
  have h3' : 100 ≤ 4 ^ d := by exact_mod_cast h3
  have a : d ≤ 4 := by
    by_contra hc
    have : 4 ^ 4 ≤ 4 ^ (d - 1) := Nat.pow_le_pow_right (by norm_num) (by omega)
    omega
  have b : 4 ≤ d := by
    by_contra hc
    have : 4 ^ d ≤ 4 ^ 3 := Nat.pow_le_pow_right (by norm_num) (by omega)
    omega
  omega

/-- **C116** is false after deletions: a node left with too few entries is put back as a whole, so twenty-four points of which sixteen are deleted leave a
tree of depth 4 holding 8 objects, fewer than the `2 * min ^ 3 = 16` of a tree of that depth built by insertions. -/
theorem C116_false : ParamsOk 2 4 ∧ ∃ s : RState Float, Reached id 2 4 s ∧ Size s = 8 ∧ Depth s = 4 := by
  refine ⟨⟨by omega, by omega⟩, ?_⟩
  have h : (runAll id ((linePoints 24).map Op.insert ++ ((linePoints 24).reverse.take 16).map Op.delete) (NewEmptyTree 2 4)).map
      (fun r => (Size r.1, Depth r.1)) = .ok (8, 4) := by decide +kernel
  obtain ⟨⟨s, bs⟩, h1, h2⟩ := ok_of_map h
  simp only [Prod.mk.injEq] at h2
  exact ⟨s, ⟨_, bs, h1⟩, h2⟩

/-- A deletion can even make the tree deeper: of twenty points inserted in a tree of depth 3, the deletion of the third makes the depth 4. -/
theorem C116_delete_deeper : ∃ (s s' : RState Float) (o : Spatial Float), Reached id 2 4 s ∧ Delete id s o = .ok (s', true) ∧
    Size s = 18 ∧ Depth s = 3 ∧ Size s' = 17 ∧ Depth s' = 4 := by
  have h : (runAll id ((linePoints 20).map Op.insert ++ ((linePoints 20).take 2).map Op.delete) (NewEmptyTree 2 4)).map
      (fun r => ((Size r.1, Depth r.1), (Delete id r.1 ⟨"2", .nil, .point ⟨2, 0⟩⟩).map fun r' => (Size r'.1, Depth r'.1, r'.2))) =
      .ok ((18, 3), .ok (17, 4, true)) := by decide +kernel
  obtain ⟨⟨s, bs⟩, h1, h2⟩ := ok_of_map h
  simp only [Prod.mk.injEq] at h2
  obtain ⟨⟨s', b⟩, h3, h4⟩ := ok_of_map h2.2
  simp only [Prod.mk.injEq] at h4
  obtain ⟨h5, h6, rfl⟩ := h4
  exact ⟨s, s', _, ⟨_, bs, h1⟩, h3, h2.1.1, h2.1.2, h5, h6⟩

end GoGeo
