import Verif.Rtree.Search
import Verif.Spec.Rtree
import Verif.Go.Val

/-!
# `chooseNode` finds a node: bounded coordinates keep the enlargement below `math.MaxFloat64`
-/

set_option linter.unusedSectionVars false

namespace GoGeo
open GoFloat Spec
variable {F : Type} [GoFloat F]

section
variable {K : Type} [Field K] [LinearOrder K] [IsStrictOrderedRing K] [FloatVal F K]
include K
open FloatVal

/-- the value is a number of magnitude at most `B` -/
def VB (B : K) (x : F) : Prop := ∃ r : K, val x = .fin r ∧ |r| ≤ B

theorem rnd_pow {k : ℕ} (hk : k ≤ 1023) : rnd F (.fin ((2 : K) ^ k)) = .fin ((2 : K) ^ k) := by
  by_cases h : k ≤ 970
  · have := rnd_rep (F := F) (K := K) 1 k (by norm_num) h
    simpa using this
  · obtain ⟨m, rfl⟩ : ∃ m, k = m + 970 := ⟨k - 970, by omega⟩
    have := rnd_rep (F := F) (K := K) (2 ^ m) 970 (Nat.pow_le_pow_right (by norm_num) (by omega)) le_rfl
    rw [pow_add]
    simpa using this

theorem rnd_bound {k : ℕ} (hk : k ≤ 1023) {r : K} (hr : |r| ≤ 2 ^ k) :
    ∃ r' : K, rnd F (.fin r) = .fin r' ∧ |r'| ≤ 2 ^ k := by
  obtain ⟨h1, h2⟩ := abs_le.1 hr
  have hu := rnd_mono (F := F) (.fin r) (.fin ((2 : K) ^ k)) (by simpa [XR.le] using h2)
  rw [rnd_pow hk] at hu
  have hl := rnd_mono (F := F) (XR.neg (.fin ((2 : K) ^ k))) (.fin r) (by simpa [XR.le, XR.neg] using h1)
  rw [rnd_neg, rnd_pow hk] at hl
  cases hr' : rnd F (.fin r) with
  | fin r' =>
    rw [hr'] at hu hl
    simp only [XR.le, XR.neg, decide_eq_true_eq] at hu hl
    exact ⟨r', rfl, abs_le.2 ⟨hl, hu⟩⟩
  | nan => rw [hr'] at hu; simp [XR.le] at hu
  | pinf => rw [hr'] at hu; simp [XR.le] at hu
  | ninf => rw [hr'] at hl; simp [XR.le, XR.neg] at hl

theorem VB.sub {k : ℕ} (hk : k + 1 ≤ 1023) {a b : F} (ha : VB ((2 : K) ^ k) a) (hb : VB ((2 : K) ^ k) b) :
    VB ((2 : K) ^ (k + 1)) (a - b) := by
  obtain ⟨r, h1, h2⟩ := ha
  obtain ⟨t, h3, h4⟩ := hb
  have : |r - t| ≤ 2 ^ (k + 1) := by
    rw [pow_succ]; have := abs_sub r t; linarith
  obtain ⟨r', h5, h6⟩ := rnd_bound (F := F) hk this
  refine ⟨r', ?_, h6⟩
  rw [val_sub, h1, h3]
  simpa [XR.sub, XR.add, XR.neg, sub_eq_add_neg] using h5

theorem VB.mul {k l : ℕ} (hk : k + l ≤ 1023) {a b : F} (ha : VB ((2 : K) ^ k) a) (hb : VB ((2 : K) ^ l) b) :
    VB ((2 : K) ^ (k + l)) (a * b) := by
  obtain ⟨r, h1, h2⟩ := ha
  obtain ⟨t, h3, h4⟩ := hb
  have : |r * t| ≤ 2 ^ (k + l) := by
    rw [abs_mul, pow_add]
    exact mul_le_mul h2 h4 (abs_nonneg _) (by positivity)
  obtain ⟨r', h5, h6⟩ := rnd_bound (F := F) hk this
  refine ⟨r', ?_, h6⟩
  rw [val_mul, h1, h3]
  simpa [XR.mul] using h5

theorem val_litpow {k : ℕ} (hk : k ≤ 1023) : val (lit (2 ^ k) : F) = .fin ((2 : K) ^ k) := by
  rw [lit, val_dec]
  have := rnd_pow (F := F) (K := K) hk
  simpa using this

theorem VB_iff {x : F} : Bounded500 x ↔ VB ((2 : K) ^ 500) x := by
  unfold Bounded500 Le VB
  rw [val_le, val_le, val_neg, val_litpow (F := F) (by norm_num : (500 : ℕ) ≤ 1023)]
  cases val x with
  | fin r => simp [XR.le, XR.neg, abs_le]
  | _ => simp [XR.le, XR.neg]

theorem lt_maxFloat64 {x : F} {k : ℕ} (hk : k ≤ 1022) (h : VB ((2 : K) ^ k) x) : lt x maxFloat64 = true := by
  obtain ⟨r, h1, h2⟩ := h
  have h3 : XR.le (.fin ((2 : K) ^ 1023)) (val (maxFloat64 : F)) = true := by
    unfold maxFloat64 lit
    rw [val_dec, ← rnd_pow (F := F) (K := K) (le_refl 1023)]
    apply rnd_mono
    simp only [XR.le, decide_eq_true_eq, pow_zero, div_one]
    have e1 : (2 : K) ^ 1023 = 2 ^ 52 * 2 ^ 971 := by rw [← pow_add]
    have e2 : (((2 ^ 53 - 1) * 2 ^ 971 : ℕ) : K) = ((2 ^ 53 - 1 : ℕ) : K) * 2 ^ 971 := by push_cast; rfl
    rw [e1]
    refine le_trans (mul_le_mul_of_nonneg_right (?_ : (2 : K) ^ 52 ≤ ((2 ^ 53 - 1 : ℕ) : K)) (by positivity))
      (le_of_eq ?_)
    · norm_num
    · exact_mod_cast e2.symm
  have h4 : r < (2 : K) ^ 1023 := by
    have h5 := (abs_le.1 h2).2
    have h6 : (2 : K) ^ k ≤ 2 ^ 1022 := pow_le_pow_right₀ (by norm_num) hk
    have h7 : (2 : K) ^ 1022 < 2 ^ 1023 := pow_lt_pow_right₀ (by norm_num) (by norm_num)
    exact lt_of_le_of_lt (le_trans h5 h6) h7
  rw [val_lt, h1]
  cases hm : val (maxFloat64 : F) with
  | fin m =>
    rw [hm] at h3
    simp only [XR.le, decide_eq_true_eq] at h3
    simp only [XR.lt, decide_eq_true_eq]
    exact lt_of_lt_of_le h4 h3
  | nan => rw [hm] at h3; simp [XR.le] at h3
  | pinf => rfl
  | ninf => rw [hm] at h3; simp [XR.le] at h3

/-- all sides have magnitude at most `2^500` -/
structure BBox (b : Box F) : Prop where
  minX : Bounded500 b.MinX
  minY : Bounded500 b.MinY
  maxX : Bounded500 b.MaxX
  maxY : Bounded500 b.MaxY

theorem Bounded500.min {x y : F} (hx : Bounded500 x) (hy : Bounded500 y) : Bounded500 (GoFloat.min x y) := by
  obtain ⟨-, h1, -, h3⟩ := min_spec hx.2.left hy.2.left
  refine ⟨?_, Le.trans h1 hx.2⟩
  rcases h3 with h3 | h3
  · exact Le.trans hx.1 h3
  · exact Le.trans hy.1 h3

theorem Bounded500.max {x y : F} (hx : Bounded500 x) (hy : Bounded500 y) : Bounded500 (GoFloat.max x y) := by
  obtain ⟨-, h1, -, h3⟩ := max_spec hx.2.left hy.2.left
  refine ⟨Le.trans hx.1 h1, ?_⟩
  rcases h3 with h3 | h3
  · exact Le.trans h3 hx.2
  · exact Le.trans h3 hy.2

theorem BBox.union {a b : Box F} (ha : BBox a) (hb : BBox b) : BBox (a.Union b) :=
  ⟨Bounded500.min ha.1 hb.1, Bounded500.min ha.2 hb.2, Bounded500.max ha.3 hb.3, Bounded500.max ha.4 hb.4⟩

theorem bounded_lit {k : ℕ} (hk : k ≤ 500) : Bounded500 (lit (2 ^ k) : F) := by
  rw [VB_iff (K := K)]
  refine ⟨2 ^ k, val_litpow (by omega), ?_⟩
  rw [abs_of_nonneg (by positivity)]
  exact pow_le_pow_right₀ (by norm_num) hk

theorem bounded_neg {x : F} (h : Bounded500 x) : Bounded500 (-x) := by
  rw [VB_iff (K := K)] at h ⊢
  obtain ⟨r, h1, h2⟩ := h
  exact ⟨-r, by rw [val_neg, h1]; rfl, by rwa [abs_neg]⟩

theorem bounded_zero : Bounded500 (lit 0 : F) := by
  rw [VB_iff (K := K)]
  exact ⟨0, val_lit0, by simp⟩

theorem BBox_zero : BBox (Box.zero : Box F) := ⟨bounded_zero, bounded_zero, bounded_zero, bounded_zero⟩

theorem BBox_calBox (l : List (Point F))
    (hl : ∀ p ∈ l, (IsNum p.X → Bounded500 p.X) ∧ (IsNum p.Y → Bounded500 p.Y)) : BBox (calBox l) := by
  have step : ∀ (l : List (Point F)) (b : Box F), BBox b →
      (∀ p ∈ l, (IsNum p.X → Bounded500 p.X) ∧ (IsNum p.Y → Bounded500 p.Y)) →
      BBox (l.foldl calBoxStep b) := by
    intro l
    induction l with
    | nil => intro b hb _; exact hb
    | cons p l ih =>
      intro b hb hl
      refine ih _ ?_ (fun p' hp' => hl p' (by simp [hp']))
      obtain ⟨hx, hy⟩ := hl p (by simp)
      refine ⟨?_, ?_, ?_, ?_⟩
      · unfold calBoxStep; dsimp only; split
        · rename_i h; exact hx (nn_of_lt h).1
        · exact hb.1
      · unfold calBoxStep; dsimp only; split
        · rename_i h; exact hy (nn_of_lt h).1
        · exact hb.2
      · unfold calBoxStep; dsimp only; split
        · rename_i h; exact hx (nn_of_lt h).2
        · exact hb.3
      · unfold calBoxStep; dsimp only; split
        · rename_i h; exact hy (nn_of_lt h).2
        · exact hb.4
  have hI : Bounded500 (INF : F) := bounded_lit (by norm_num)
  exact step l _ ⟨hI, hI, bounded_neg hI, bounded_neg hI⟩ hl

theorem BBox_BoundingBox {g : Geometry F} (hg : CoordsOk g) : BBox (BoundingBox g) := by
  cases g with
  | polygon rs =>
    refine BBox_calBox _ ?_
    cases rs with
    | nil => intro p hp; cases hp
    | cons r rs => exact fun p hp => hg p (by simp only [vertices]; simp only [GetExteriorRing] at hp; simp [hp])
  | _ => first | exact BBox_calBox _ hg | exact BBox_zero

theorem BBox_BoxUnion (l : List (Box F)) (hl : ∀ x ∈ l, BBox x) : BBox (BoxUnion l) := by
  cases l with
  | nil => exact BBox_zero
  | cons b l =>
    show BBox (l.foldl Box.Union b)
    have hb := hl b (by simp)
    have hl' : ∀ x ∈ l, BBox x := fun x hx => hl x (by simp [hx])
    clear hl
    induction l generalizing b with
    | nil => exact hb
    | cons c l ih => exact ih _ (hb.union (hl' c (by simp))) (fun x hx => hl' x (by simp [hx]))

theorem Item.box_bounded {j : Nat} (x : Item F j) (gx : x.Good) (ho : ∀ o ∈ x.objs, CoordsOk o.Geom) :
    BBox x.box := by
  induction j with
  | zero => exact BBox_BoundingBox (ho x List.mem_cons_self)
  | succ j ih =>
    refine BBox_BoxUnion _ ?_
    intro b hb
    obtain ⟨p, hp, rfl⟩ := List.mem_map.1 hb
    rw [(gx p hp).1]
    exact ih p.2 (gx p hp).2 (fun o h => ho o (by rw [Item.objs_succ]; exact List.mem_flatMap.2 ⟨p, hp, h⟩))

theorem size_bounded {b : Box F} (hb : BBox b) : VB ((2 : K) ^ 1002) b.Size := by
  have h1 := VB.sub (by norm_num) ((VB_iff (K := K)).1 hb.maxX) ((VB_iff (K := K)).1 hb.minX)
  have h2 := VB.sub (by norm_num) ((VB_iff (K := K)).1 hb.maxY) ((VB_iff (K := K)).1 hb.minY)
  exact VB.mul (by norm_num) h1 h2

/-- the enlargement is below `math.MaxFloat64` -/
theorem enlarge_lt {a b : Box F} (ha : BBox a) (hb : BBox b) :
    lt ((a.Union b).Size - a.Size) maxFloat64 = true :=
  lt_maxFloat64 (k := 1003) (by norm_num) (VB.sub (by norm_num) (size_bounded (ha.union hb)) (size_bounded ha))
end

theorem chooseLoop_some (e : Entry F) (es : List (Entry F)) (diff : F) (c : Entry F) :
    ∃ en, chooseLoop e es diff (some c) = .ok (some en) := by
  induction es generalizing diff c with
  | nil => exact ⟨c, rfl⟩
  | cons a es ih =>
    unfold chooseLoop
    dsimp only
    split
    · exact ih _ _
    · split
      · split
        · exact ih _ _
        · exact ih _ _
      · exact ih _ _

section
variable {K : Type} [Field K] [LinearOrder K] [IsStrictOrderedRing K] [FloatVal F K]
include K

theorem chooseNode_total {h : Heap F} {lo hi : Nat} (hlo : 1 ≤ lo) (e : Entry F) (he : BBox e.bb) (lvl : Int)
    (fuel : Nat) :
    ∀ (j : Nat) (x : Item F (j + 1)), x.ids.length ≤ fuel → x.Rep h → x.Good → x.Fill lo hi →
    (0 < j → x.es ≠ []) → (∀ o ∈ x.objs, CoordsOk o.Geom) →
    ∃ res, chooseNode h e lvl fuel (some x.id) = .ok res := by
  induction fuel with
  | zero => intro j x hf; rw [ids_eq] at hf; simp at hf
  | succ fuel ih =>
    intro j x hf hx gx fx hne ho
    obtain ⟨⟨par, hv⟩, hch⟩ := id hx
    rw [chooseNode, Heap.deref_some hv]
    simp only [bind, Except.bind]
    split
    · exact ⟨_, rfl⟩
    · rename_i hc
      obtain ⟨k, rfl⟩ : ∃ k, j = k + 1 := by
        cases j with
        | zero => simp at hc
        | succ k => exact ⟨k, rfl⟩
      have hcl : ∃ en, chooseLoop e (x.es.map Item.entry) maxFloat64 none = .ok (some en) := by
        cases hes : x.es with
        | nil => exact absurd hes (hne (by omega))
        | cons p ps =>
          have hp : p ∈ x.es := by rw [hes]; simp
          have hbp : BBox p.1 := by
            rw [(gx p hp).1]
            exact Item.box_bounded p.2 (gx p hp).2
              (fun o h => ho o (by rw [Item.objs_succ]; exact List.mem_flatMap.2 ⟨p, hp, h⟩))
          rw [List.map_cons, chooseLoop]
          have := enlarge_lt (F := F) (a := (Item.entry p).bb) hbp he
          rw [if_pos this]
          exact chooseLoop_some _ _ _ _
      obtain ⟨en, hcl⟩ := hcl
      rw [hcl]
      rcases chooseLoop_mem _ _ _ _ _ hcl with hm | hm
      swap
      · cases hm
      obtain ⟨p, hp, rfl⟩ := List.mem_map.1 hm
      simp only [Option.bind_some, Item.entry_child, Item.child_succ]
      refine ih k p.2 (by have := ids_lt_of_mem hp; omega) (hch p hp).1 (gx p hp).2 (fx p hp).2 ?_ ?_
      · intro _ h0
        have := (fx p hp).1.1
        rw [h0] at this; simp at this; omega
      · exact fun o h => ho o (by rw [Item.objs_succ]; exact List.mem_flatMap.2 ⟨p, hp, h⟩)
end

end GoGeo
