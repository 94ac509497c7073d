import Verif.Props.HullOrder

/-!
# Points inside do not matter for the hull: C159
-/
set_option linter.unusedSectionVars false

namespace GoGeo
open GoFloat FloatVal Spec

variable {K : Type} [Field K] [LinearOrder K] [IsStrictOrderedRing K]

namespace Spec

/-- `x` is strictly inside what `pts` span: every half-plane that contains `pts` contains `x` off its edge -/
def StrictlyInside (pts : List (K × K)) (x : K × K) : Prop := ∀ a b : K × K, a ≠ b → (∀ y ∈ pts, 0 ≤ turn a b y) → 0 < turn a b x

end Spec

/-- what the scan drops makes a right turn between two points of the input -/
theorem hullScan_dropped (o : K × K) (rest : List (K × K)) : ∀ (fuel : Nat) (st st' : List (K × K)), (st.reverse ++ rest).Pairwise (BefNe o) →
    hullScan fuel (st.map pt) (rest.map pt) = .ok (st'.map pt) →
    ∀ x ∈ st ++ rest, x ∈ st' ∨ ∃ p ∈ st ++ rest, ∃ q ∈ st ++ rest, BefNe o p x ∧ BefNe o x q ∧ turn p x q < 0 := by
  intro fuel
  have inj : ∀ {a b : List (K × K)}, a.map pt = b.map pt → a = b := fun h => List.map_injective_iff.2 (fun _ _ h => pt_inj h) h
  induction fuel generalizing rest with
  | zero =>
    intro st st' h5 e x hx
    cases rest with
    | nil =>
      simp only [List.map_nil, hullScan, Except.ok.injEq] at e
      rw [← inj e]; exact Or.inl (by simpa using hx)
    | cons pi rest => simp [hullScan] at e
  | succ fuel ih =>
    intro st st' h5 e x hx
    cases rest with
    | nil =>
      simp only [List.map_nil, hullScan, Except.ok.injEq] at e
      rw [← inj e]; exact Or.inl (by simpa using hx)
    | cons pi rest =>
      rcases st with _ | ⟨p2, _ | ⟨p1, st⟩⟩
      · simp [hullScan] at e
      · simp [hullScan] at e
      simp only [List.map_cons, hullScan] at e
      have hs : (pi :: p2 :: p1 :: st).Pairwise fun x y => BefNe o y x := by
        have e : (p2 :: p1 :: st).reverse ++ pi :: rest = ((pi :: p2 :: p1 :: st).reverse) ++ rest := by simp
        rw [e, List.pairwise_append] at h5
        exact List.pairwise_reverse.1 h5.1
      by_cases hl : isLeft (pt p1) (pt p2) (pt pi) = true
      · rw [if_pos hl] at e
        have := ih rest (pi :: p2 :: p1 :: st) st' (by simpa using h5) e x (by simp at hx ⊢; tauto)
        rcases this with h | ⟨p, hp, q, hq, h⟩
        · exact Or.inl h
        · exact Or.inr ⟨p, by simp at hp ⊢; tauto, q, by simp at hq ⊢; tauto, h⟩
      · rw [if_neg hl] at e
        have hneg : turn p1 p2 pi < 0 := by
          rw [isLeft_fin] at hl; exact not_le.1 hl
        rw [List.pairwise_cons, List.pairwise_cons] at hs
        have b12 := hs.2.1 p1 (by simp)
        have b2p := hs.1 p2 (by simp)
        by_cases hx2 : x = p2
        · subst hx2
          exact Or.inr ⟨p1, by simp, pi, by simp, b12, b2p, hneg⟩
        have := ih (pi :: rest) (p1 :: st) st' (by
            refine List.Pairwise.sublist ?_ h5
            simp only [List.reverse_cons, List.append_assoc]
            exact (List.Sublist.refl _).append ((List.Sublist.refl _).append (by simp))) e x (by simp at hx ⊢; tauto)
        rcases this with h | ⟨p, hp, q, hq, h⟩
        · exact Or.inl h
        · exact Or.inr ⟨p, by simp at hp ⊢; tauto, q, by simp at hq ⊢; tauto, h⟩

/-- if `o`, `p`, `q` are left of a line through `x`, `o` strictly, then going from `p` over `x` to `q` is no right turn -/
theorem no_right {o p q x a b : K × K} (hx : turn a b x = 0) (ho : 0 < turn a b o) (hp : 0 ≤ turn a b p) (hq : 0 ≤ turn a b q)
    (h1 : 0 ≤ turn o p x) (h2 : 0 ≤ turn o x q) : 0 ≤ turn p x q := by
  have key : turn a b o * turn p x q = turn a b p * turn o x q + turn a b q * turn o p x - turn a b x * turn q o p := by
    unfold turn; ring
  rw [hx, zero_mul, sub_zero] at key
  have : 0 ≤ turn a b o * turn p x q := by
    rw [key]
    exact add_nonneg (mul_nonneg hp h2) (mul_nonneg hq h1)
  exact nonneg_of_mul_nonneg_right this ho

theorem befNe_ne {o p x : K × K} (h : BefNe o p x) : x ≠ o := by
  rintro rfl
  rcases h.1 with g | ⟨t, _, _, g⟩
  · have : turn x p x = 0 := by unfold turn; ring
    linarith
  · apply h.2
    rw [g]; unfold along; ext <;> simp

/-- the same if `o`, `p` are on one ray -/
theorem no_right_ray {o p q x : K × K} (hpx : BefNe o p x) (h1 : 0 ≤ turn o x p) (h2 : 0 ≤ turn o x q) : 0 ≤ turn p x q := by
  rcases hpx.1 with g | ⟨s, s0, s1, rfl⟩
  · have : turn o x p = - turn o p x := by unfold turn; ring
    linarith
  · have : turn (along o x s) x q = (1 - s) * turn o x q := by unfold turn along; ring
    rw [this]
    exact mul_nonneg (by linarith) h2

/-- a corner makes no right turn between two points left of all sides -/
theorem corner_turn {v S : List (K × K)} {o x p q : K × K} (hv : v.Pairwise (BefNe o)) (hh : v.head? = some o)
    (hleft : ∀ e ∈ sides v, ∀ y ∈ S, 0 ≤ turn e.1 e.2 y) (hx : x ∈ v) (hp : p ∈ S) (hq : q ∈ S) (hpx : BefNe o p x) (hxq : BefNe o x q) :
    0 ≤ turn p x q := by
  have h1 := bef_nonneg hpx.1
  have h2 := bef_nonneg hxq.1
  obtain ⟨i, hi, rfl⟩ := List.mem_iff_getElem.1 hx
  have hne := befNe_ne hpx
  have ho0 : v[0]? = some o := by rw [← hh, List.head?_eq_getElem?]
  have hi0 : 0 < i := by
    rcases Nat.eq_zero_or_pos i with rfl | h
    · rw [List.getElem?_eq_getElem hi, Option.some.injEq] at ho0
      exact absurd ho0 hne
    · exact h
  have ge : ∀ {j} (hj : j < v.length), v[j]? = some v[j] := fun hj => List.getElem?_eq_getElem hj
  rcases Nat.lt_or_ge (i + 1) v.length with hl | hl
  · have s2 : (v[i], v[i + 1]) ∈ sides v := (mem_sides v _).2 ⟨i, ge hi, by rw [Nat.mod_eq_of_lt hl]; exact ge hl, hi⟩
    have hxz : BefNe o v[i] v[i + 1] := List.pairwise_iff_getElem.1 hv i (i + 1) hi hl (by omega)
    have z2 : turn v[i] v[i + 1] v[i] = 0 := by unfold turn; ring
    rcases hxz.1 with g | ⟨t, t0, t1, g⟩
    · refine no_right z2 ?_ (hleft _ s2 p hp) (hleft _ s2 q hq) h1 h2
      have : turn v[i] v[i + 1] o = turn o v[i] v[i + 1] := by unfold turn; ring
      rwa [this]
    · -- `x` is between `o` and the next corner
      refine no_right_ray hpx ?_ h2
      have h := hleft _ s2 p hp
      simp only at h
      have t1 : t < 1 := lt_of_le_of_ne t1 (by
        rintro rfl
        apply hxz.2
        rw [g]; unfold along; ext <;> simp)
      have e : turn v[i] v[i + 1] p = (1 - t) * turn o v[i + 1] p := by
        conv_lhs => rw [g]
        unfold turn along; ring
      have e' : turn o v[i] p = t * turn o v[i + 1] p := by
        conv_lhs => rw [g]
        unfold turn along; ring
      rw [e] at h
      rw [e']
      exact mul_nonneg t0 (nonneg_of_mul_nonneg_right h (by linarith))
  · -- `x` is the last corner
    have s1 : (v[i - 1], v[i]) ∈ sides v := (mem_sides v _).2 ⟨i - 1, ge (by omega), by
      rw [show i - 1 + 1 = i by omega, Nat.mod_eq_of_lt hi]; exact ge hi, by omega⟩
    have hyx : BefNe o v[i - 1] v[i] := List.pairwise_iff_getElem.1 hv (i - 1) i (by omega) hi (by omega)
    have z1 : turn v[i - 1] v[i] v[i] = 0 := by unfold turn; ring
    rcases hyx.1 with g | ⟨t, t0, t1, g⟩
    · refine no_right z1 ?_ (hleft _ s1 p hp) (hleft _ s1 q hq) h1 h2
      have : turn v[i - 1] v[i] o = turn o v[i - 1] v[i] := by unfold turn; ring
      rwa [this]
    · refine no_right_ray hpx ?_ h2
      have h := hleft _ s1 p hp
      simp only at h
      have t1 : t < 1 := lt_of_le_of_ne t1 (by
        rintro rfl
        apply hyx.2
        rw [g]; unfold along; ext <;> simp)
      have e : turn v[i - 1] v[i] p = (1 - t) * turn o v[i] p := by
        conv_lhs => rw [g]
        unfold turn along; ring
      rw [e] at h
      exact nonneg_of_mul_nonneg_right h (by linarith)

/-- `hull_core`, and which points become corners -/
theorem hull_chars (sortPts : List (Point (XR K)) → List (Point (XR K))) (hs : HullSort sortPts) (pts : List (K × K)) (hd : pts.Nodup) (h3 : 3 ≤ pts.length) :
    ∃ (after r : List (Point (XR K))) (v : List (K × K)) (o : K × K), ConvexHull sortPts (pts.map pt) = .ok (after, some r) ∧ closeRing (v.map pt) = some r ∧
      HullOf pts v ∧ v.Pairwise (BefNe o) ∧ v.head? = some o ∧ o ∈ pts ∧ (∀ x ∈ pts, Above o x) ∧
      ∀ x, x ∈ v ↔ x ∈ pts ∧ ∀ p ∈ pts, ∀ q ∈ pts, BefNe o p x → BefNe o x q → 0 ≤ turn p x q := by
  have hne : pts ≠ [] := by rintro rfl; simp at h3
  obtain ⟨o, q, hq, hqp, ho, hA, hsorted⟩ := hull_sorted sortPts hs pts hne
  unfold ConvexHull
  rw [if_neg (by simpa using h3), hq]
  have hmem : ∀ x ∈ q, x ∈ pts := fun x hx => hqp.mem_iff.1 hx
  have hqd : q.Nodup := hqp.nodup_iff.2 hd
  have hR : q.Pairwise (BefNe o) := List.pairwise_and_iff.2 ⟨hsorted, hqd⟩
  have hlen : 3 ≤ q.length := by rw [hqp.length_eq]; exact h3
  obtain ⟨a, b, rest, rfl⟩ : ∃ a b rest, q = a :: b :: rest := by
    rcases q with _ | ⟨a, _ | ⟨b, rest⟩⟩
    · simp at hlen
    · simp at hlen
    · exact ⟨a, b, rest, rfl⟩
  have hao : a = o := by
    have : o ∈ a :: b :: rest := hqp.mem_iff.2 ho
    rcases List.mem_cons.1 this with h | h
    · exact h.symm
    · rcases (List.pairwise_cons.1 hsorted).1 o h with g | ⟨t, _, _, g⟩
      · exfalso
        have : turn o a o = 0 := by unfold turn; ring
        linarith
      · rw [g]; unfold along; ext <;> simp
  subst hao
  have hrest : rest ≠ [] := by rintro rfl; simp at hlen
  simp only [List.map_cons]
  obtain ⟨st, e, l3, hlast, tri, hpw, hsub, htight⟩ := hullScan_spec a pts rest (2 * (pt a :: pt b :: rest.map pt).length) [b, a] (by simp; omega) (by simp) (Or.inr hrest) rfl
    (by simpa using hR) (by
      intro i j k x y z hij hjk hx _ _
      obtain ⟨hk, _⟩ := List.getElem?_eq_some_iff.1 hx
      simp at hk; omega)
    (by intro x hx; apply hmem; simp at hx ⊢; tauto)
    (by
      intro u v huv x hx
      apply huv
      have := hqp.mem_iff.2 hx
      simp at this ⊢; tauto)
  have e' : hullScan (2 * (pt a :: pt b :: rest.map pt).length) [pt b, pt a] (rest.map pt) = .ok (st.map pt) := e
  rw [e', bind_ok', if_neg (by simpa using l3), ← List.map_reverse]
  have hv : 3 ≤ st.reverse.length := by simpa using l3
  have hh : st.reverse.head? = some a := by rw [List.head?_reverse]; exact hlast
  have hull : HullOf pts st.reverse := by
    refine ⟨?_, hpw.imp fun h => h.2, by simpa using l3, ?_, ?_, turns_tri st tri⟩
    · intro x hx; exact hsub x (by simpa using hx)
    · intro e he x hx
      exact htight e.1 e.2 (sides_tri st tri e he) x hx
    · intro u v huv x hx
      exact htight u v (fun y hy => huv y (by simpa using hy)) x hx
  have hdrop := hullScan_dropped a rest _ [b, a] st (by simpa using hR) e
  have hmq : ∀ x, x ∈ [b, a] ++ rest ↔ x ∈ pts := by
    intro x
    rw [← hqp.mem_iff]; simp; tauto
  have hchar : ∀ x, x ∈ st.reverse ↔ x ∈ pts ∧ ∀ p ∈ pts, ∀ q ∈ pts, BefNe a p x → BefNe a x q → 0 ≤ turn p x q := by
    intro x
    constructor
    · intro hx
      exact ⟨hull.corners x hx, fun p hp q hq h1 h2 => corner_turn hpw hh hull.left hx hp hq h1 h2⟩
    · rintro ⟨hx, h⟩
      rcases hdrop x ((hmq x).2 hx) with g | ⟨p, hp, q, hq, h1, h2, h3⟩
      · simpa using g
      · exact absurd (h p ((hmq p).1 hp) q ((hmq q).1 hq) h1 h2) (not_le.2 h3)
  rcases closeRing_open st.reverse (by omega) with h | ⟨h, _⟩
  · rw [h]; exact ⟨_, _, st.reverse, a, rfl, h, hull, hpw, hh, ho, hA, hchar⟩
  · rw [h]; exact ⟨_, _, st.reverse, a, rfl, h, hull, hpw, hh, ho, hA, hchar⟩

/-- the ends of a side of the hull differ -/
theorem hull_side_ne {pts v : List (K × K)} (h : HullOf pts v) {e : (K × K) × (K × K)} (he : e ∈ sides v) : e.1 ≠ e.2 := by
  obtain ⟨i, h1, h2, hi⟩ := (mem_sides v e).1 he
  have h3 := h.three
  have hm : (i + 1) % v.length < v.length := Nat.mod_lt _ (by omega)
  rw [List.getElem?_eq_getElem hi, Option.some.injEq] at h1
  rw [List.getElem?_eq_getElem hm, Option.some.injEq] at h2
  rw [← h1, ← h2]
  intro g
  have := (h.distinct.getElem_inj_iff).1 g
  rcases Nat.lt_or_ge (i + 1) v.length with hl | hl
  · rw [Nat.mod_eq_of_lt hl] at this; omega
  · rw [show i + 1 = v.length by omega, Nat.mod_self] at this
    omega

/-- **C159.** Points strictly inside what the others span make no difference to `ConvexHull`: with them and without them it returns the same
ring, corner by corner from the same start. -/
theorem C159_inside (s s' : List (Point (XR K)) → List (Point (XR K))) (hs : HullSort s) (hs' : HullSort s') (pts pts' : List (K × K))
    (hd : pts.Nodup) (hd' : pts'.Nodup) (h3 : 3 ≤ pts.length) (hsub : ∀ x ∈ pts, x ∈ pts') (hin : ∀ x ∈ pts', x ∈ pts ∨ StrictlyInside pts x) :
    ∃ (after after' r : List (Point (XR K))), ConvexHull s (pts.map pt) = .ok (after, some r) ∧ ConvexHull s' (pts'.map pt) = .ok (after', some r) := by
  have h3' : 3 ≤ pts'.length := h3.trans (hd.subperm hsub).length_le
  obtain ⟨after, r, v, o, e, hr, hull, hpw, hh, ho, hA, hc⟩ := hull_chars s hs pts hd h3
  obtain ⟨after', r', v', o', e', hr', hull', hpw', hh', ho', hA', hc'⟩ := hull_chars s' hs' pts' hd' h3'
  have hoo : o' = o := by
    rcases hin o' ho' with h | h
    · exact above_antisymm (hA' o (hsub o ho)) (hA o' h)
    · exfalso
      have e1 : ∀ y : K × K, turn o (o.1 + 1, o.2) y = y.2 - o.2 := by intro y; unfold turn; ring
      have h1 := h o (o.1 + 1, o.2) (by intro g; have := congrArg Prod.fst g; simp at this) (by
        intro y hy
        rw [e1]
        rcases hA y hy with g | ⟨g, _⟩ <;> linarith)
      rw [e1] at h1
      rcases hA' o (hsub o ho) with g | ⟨g, _⟩ <;> linarith
  subst hoo
  have hvv : v = v' := by
    refine List.Perm.eq_of_pairwise (fun a b _ _ => bef_antisymm) (hpw.imp fun h => h.1) (hpw'.imp fun h => h.1) ?_
    rw [List.perm_ext_iff_of_nodup hull.distinct hull'.distinct]
    intro x
    constructor
    · intro hx
      refine (hc' x).2 ⟨hsub x (hull.corners x hx), fun p hp q hq h1 h2 => corner_turn hpw hh ?_ hx hp hq h1 h2⟩
      intro e he y hy
      rcases hin y hy with g | g
      · exact hull.left e he y g
      · exact (g e.1 e.2 (hull_side_ne hull he) fun z hz => hull.left e he z hz).le
    · intro hx
      obtain ⟨hx1, hx2⟩ := (hc' x).1 hx
      rcases hin x hx1 with g | g
      · exact (hc x).2 ⟨g, fun p hp q hq => hx2 p (hsub p hp) q (hsub q hq)⟩
      · exfalso
        obtain ⟨i, hi, rfl⟩ := List.mem_iff_getElem.1 hx
        have hm : (i + 1) % v'.length < v'.length := Nat.mod_lt _ (by omega)
        have hside : (v'[i], v'[(i + 1) % v'.length]) ∈ sides v' :=
          (mem_sides v' _).2 ⟨i, List.getElem?_eq_getElem hi, List.getElem?_eq_getElem hm, hi⟩
        have := g _ _ (hull_side_ne hull' hside) fun z hz => hull'.left _ hside z (hsub z hz)
        have z0 : turn v'[i] v'[(i + 1) % v'.length] v'[i] = 0 := by unfold turn; ring
        simp only at this
        linarith
  subst hvv
  rw [hr] at hr'
  injection hr' with hr'
  subst hr'
  exact ⟨after, after', r, e, e'⟩

/-- the inside of a triangle -/
theorem triangle_inside {x : ℚ × ℚ} (h1 : 0 < x.1) (h2 : 0 < x.2) (h3 : x.1 + x.2 < 4) : StrictlyInside [((0 : ℚ), (0 : ℚ)), (4, 0), (0, 4)] x := by
  intro a b hab h
  have g1 := h (0, 0) (by simp)
  have g2 := h (4, 0) (by simp)
  have g3 := h (0, 4) (by simp)
  have e : 4 * turn a b x = (4 - x.1 - x.2) * turn a b (0, 0) + x.1 * turn a b (4, 0) + x.2 * turn a b (0, 4) := by unfold turn; ring
  have k1 : 0 ≤ (4 - x.1 - x.2) * turn a b (0, 0) := mul_nonneg (by linarith) g1
  have k2 : 0 ≤ x.1 * turn a b (4, 0) := mul_nonneg h1.le g2
  have k3 : 0 ≤ x.2 * turn a b (0, 4) := mul_nonneg h2.le g3
  rcases eq_or_lt_of_le (show 0 ≤ turn a b x by linarith) with h0 | h0
  · exfalso
    have z1 : turn a b (0, 0) = 0 := by
      have : (4 - x.1 - x.2) * turn a b (0, 0) = 0 := by linarith
      rcases mul_eq_zero.1 this with q | q
      · linarith
      · exact q
    have z2 : turn a b (4, 0) = 0 := by
      have : x.1 * turn a b (4, 0) = 0 := by linarith
      rcases mul_eq_zero.1 this with q | q
      · linarith
      · exact q
    have z3 : turn a b (0, 4) = 0 := by
      have : x.2 * turn a b (0, 4) = 0 := by linarith
      rcases mul_eq_zero.1 this with q | q
      · linarith
      · exact q
    unfold turn at z1 z2 z3
    exact hab (Prod.ext (by linarith) (by linarith))
  · exact h0

/-- the hypotheses can be met: a triangle with three points inside and two sorts -/
example : ∃ (after after' r : List (Point (XR ℚ))), ConvexHull goSort12 ([((0 : ℚ), (0 : ℚ)), (4, 0), (0, 4)].map pt) = .ok (after, some r) ∧
    ConvexHull insertionSort ([((1 : ℚ), (1 : ℚ)), (0, 4), (2, 1), (0, 0), (1, 2), (4, 0)].map pt) = .ok (after', some r) := by
  refine C159_inside goSort12 insertionSort goSort12_hullSort insertionSort_hullSort _ _ (by decide) (by decide) (by decide) (by decide) ?_
  intro x hx
  simp only [List.mem_cons, List.not_mem_nil, or_false] at hx
  rcases hx with rfl | rfl | rfl | rfl | rfl | rfl
  · exact Or.inr (triangle_inside (by norm_num) (by norm_num) (by norm_num))
  · exact Or.inl (by simp)
  · exact Or.inr (triangle_inside (by norm_num) (by norm_num) (by norm_num))
  · exact Or.inl (by simp)
  · exact Or.inr (triangle_inside (by norm_num) (by norm_num) (by norm_num))
  · exact Or.inl (by simp)

/-! ### float64 -/

section
open FloatVal
variable {F K : Type} [GoFloat F] [Field K] [LinearOrder K] [IsStrictOrderedRing K] [FloatVal F K]
include K

theorem inside_of_sim {ps ps' : List (Point F)} {pts pts' : List (K × K)} (hat : List.Forall₂ At ps pts) (hat' : List.Forall₂ At ps' pts')
    (sim : HullSim fun p : Point F => ∃ x ∈ pts, At p x) (sim' : HullSim fun p : Point F => ∃ x ∈ pts', At p x)
    (hd : pts.Pairwise fun a b => ¬ Close a b) (hd' : pts'.Pairwise fun a b => ¬ Close a b) (h3 : 3 ≤ pts.length)
    (hsub : ∀ x ∈ pts, x ∈ pts') (hin : ∀ x ∈ pts', x ∈ pts ∨ StrictlyInside pts x)
    (s s' : List (Point F) → List (Point F)) (hs : HullSort s) (hs' : HullSort s') :
    ∃ after after' r r' v, ConvexHull s ps = .ok (after, some r) ∧ ConvexHull s' ps' = .ok (after', some r') ∧ HullOf pts v ∧ r.map vp = ring v ∧ r'.map vp = ring v := by
  have nod : ∀ {l : List (K × K)}, l.Pairwise (fun a b => ¬ Close a b) → l.Nodup := by
    intro l h
    refine h.imp ?_
    rintro a b h rfl
    apply h; unfold Close; simp
  have toMap : ∀ {l : List (Point F)} {m : List (K × K)}, List.Forall₂ At l m → l.map vp = m.map pt := by
    intro l m h
    induction h with
    | nil => rfl
    | cons h _ ih => rw [List.map_cons, List.map_cons, vp_at h, ih]
  have h3' : 3 ≤ pts'.length := h3.trans ((nod hd).subperm hsub).length_le
  have hne : pts ≠ [] := by rintro rfl; simp at h3
  have hne' : pts' ≠ [] := by rintro rfl; simp at h3'
  obtain ⟨after, r, v, c1, c2, c3⟩ := hull_of_sim hat sim s hs hd h3
  obtain ⟨after', r', v', d1, d2, d3⟩ := hull_of_sim hat' sim' s' hs' hd' h3'
  obtain ⟨a1, t, a2, a3⟩ := sort_sim (toMap hat) sim (fun p hp => forall₂_mem_left hat hp) hne s hs
  obtain ⟨b1, t', b2, b3⟩ := sort_sim (toMap hat') sim' (fun p hp => forall₂_mem_left hat' hp) hne' s' hs'
  obtain ⟨f, f', ρ, e1, e2⟩ := C159_inside t t' a2 b2 pts pts' (nod hd) (nod hd') h3 hsub hin
  have same : ∀ {l : List (Point F)} {m : List (K × K)} {s : List (Point F) → List (Point F)} {t : List (Point (XR K)) → List (Point (XR K))} {a r f ρ}, l.map vp = m.map pt →
      HullSim (K := K) (fun p : Point F => ∃ x ∈ m, At p x) → List.Forall₂ At l m → (s (FindLowestPoint l)).Perm l →
      t (FindLowestPoint (m.map pt)) = (s (FindLowestPoint l)).map (vp (K := K)) →
      ConvexHull s l = .ok (a, some r) → ConvexHull t (m.map pt) = .ok (f, some ρ) → r.map vp = ρ := by
    intro l m s t a r f ρ hm sm hl hp ht h1 h2
    have h := ConvexHull_vp sm s l (fun x hx => forall₂_mem_left hl (hp.mem_iff.1 hx))
    have g : ConvexHull (sortVp s (FindLowestPoint l)) (l.map vp) = ConvexHull t (l.map (vp (K := K))) := by
      have : sortVp s (FindLowestPoint l) (FindLowestPoint (l.map (vp (K := K)))) = t (FindLowestPoint (l.map vp)) := by
        rw [hm, ht, ← hm]
        unfold sortVp
        rw [if_pos (FindLowestPoint_vp l)]
      unfold ConvexHull
      rw [this]
    rw [g, hm, h1, h2] at h
    simp only [Except.map, Except.ok.injEq, Prod.mk.injEq, Option.map_some, Option.some.injEq] at h
    exact h.2.symm
  have k1 := same (toMap hat) sim hat a1 a3 c1 e1
  have k2 := same (toMap hat') sim' hat' b1 b3 d1 e2
  exact ⟨after, after', r, r', v, c1, d1, c2, c3, by rw [k2, ← k1, c3]⟩

end

/-- some of points that are apart are apart -/
theorem apart_subset {l m : List (ℚ × ℚ)} (hl : l.Nodup) (hm : m.Pairwise fun a b => ¬ Close a b) (h : ∀ x ∈ l, x ∈ m) : l.Pairwise fun a b => ¬ Close a b := by
  refine hl.imp_of_mem ?_
  intro a b ha hb hne
  have : Std.Symm fun a b : ℚ × ℚ => ¬ Close a b := ⟨fun a b h g => h (close_symm g)⟩
  exact hm.forall (h a ha) (h b hb) hne

/-- **C159 (float64, grid).** Float64 points on a grid as in C113, no two within 1e-6 of each other, and further such points strictly inside what
they span: with the further points and without them `ConvexHull` returns rings with the same corners in the same order. -/
theorem C159_grid {k : ℕ} (hk : k ≤ 500) {ps ps' : List (Point Float)} {pts pts' : List (ℚ × ℚ)} (hat : List.Forall₂ At ps pts) (hat' : List.Forall₂ At ps' pts')
    (hg : ∀ x ∈ pts', OnGrid 25 k x) (hd : pts.Nodup) (hd' : pts'.Pairwise fun a b => ¬ Close a b) (h3 : 3 ≤ pts.length)
    (hsub : ∀ x ∈ pts, x ∈ pts') (hin : ∀ x ∈ pts', x ∈ pts ∨ StrictlyInside pts x)
    (s s' : List (Point Float) → List (Point Float)) (hs : HullSort s) (hs' : HullSort s') :
    ∃ after after' r r' v, ConvexHull s ps = .ok (after, some r) ∧ ConvexHull s' ps' = .ok (after', some r') ∧ HullOf pts v ∧
      List.Forall₂ At r (v ++ v.take 1) ∧ List.Forall₂ At r' (v ++ v.take 1) := by
  obtain ⟨e, he, _, hl, _⟩ := coord_val (F := Float) (K := ℚ)
  have hpos : 0 < e := lt_of_lt_of_le (by norm_num [eps]) hl
  have hdd := apart_subset hd hd' hsub
  obtain ⟨after, after', r, r', v, g1, g2, g3, g4, g5⟩ := inside_of_sim (F := Float) (K := ℚ) hat hat' (sim_grid hk (fun x hx => hg x (hsub x hx)) hdd he hpos) (sim_grid hk hg hd' he hpos) hdd hd' h3 hsub hin s s' hs hs'
  exact ⟨after, after', r, r', v, g1, g2, g3, at_of_vp g4, at_of_vp g5⟩

/-- **C159 (float64, general position).** The same for points as in `C113_clear`. -/
theorem C159_clear {M : ℚ} (h1 : 1 ≤ M) (h2 : M ≤ 2 ^ 100) {ps ps' : List (Point Float)} {pts pts' : List (ℚ × ℚ)} (hat : AtAll M ps pts) (hat' : AtAll M ps' pts')
    (hd : pts.Nodup) (hd' : pts'.Pairwise fun a b => ¬ Close a b) (h3 : 3 ≤ pts.length)
    (hcl : ∀ x ∈ pts', ∀ y ∈ pts', ∀ z ∈ pts', x ≠ y → x ≠ z → y ≠ z → M * M / 2 ^ 48 ≤ |turn x y z| / 2)
    (hsub : ∀ x ∈ pts, x ∈ pts') (hin : ∀ x ∈ pts', x ∈ pts ∨ StrictlyInside pts x)
    (s s' : List (Point Float) → List (Point Float)) (hs : HullSort s) (hs' : HullSort s') :
    ∃ after after' r r' v, ConvexHull s ps = .ok (after, some r) ∧ ConvexHull s' ps' = .ok (after', some r') ∧ HullOf pts v ∧
      List.Forall₂ At r (v ++ v.take 1) ∧ List.Forall₂ At r' (v ++ v.take 1) := by
  obtain ⟨e, he, _, hl, _⟩ := coord_val (F := Float) (K := ℚ)
  have hpos : 0 < e := lt_of_lt_of_le (by norm_num [eps]) hl
  have hdd := apart_subset hd hd' hsub
  have hM : ∀ x ∈ pts', Within M x := fun x hx => by
    obtain ⟨p, _, h⟩ := forall₂_mem_right hat' hx
    exact h.2
  have hc : ∀ x ∈ pts', ∀ y ∈ pts', ∀ z ∈ pts', x ≠ y → x ≠ z → y ≠ z → M * M / 2 ^ 47 ≤ |turn x y z| := fun x hx y hy z hz a b c => by
    have := hcl x hx y hy z hz a b c
    generalize M * M = Q at this ⊢
    norm_num at this ⊢
    linarith
  obtain ⟨after, after', r, r', v, g1, g2, g3, g4, g5⟩ := inside_of_sim (F := Float) (K := ℚ) (hat.imp fun _ _ h => h.1) (hat'.imp fun _ _ h => h.1)
    (sim_clear h1 h2 (fun x hx => hM x (hsub x hx)) hdd (fun x hx y hy z hz => hc x (hsub x hx) y (hsub y hy) z (hsub z hz)) he hpos)
    (sim_clear h1 h2 hM hd' hc he hpos) hdd hd' h3 hsub hin s s' hs hs'
  exact ⟨after, after', r, r', v, g1, g2, g3, at_of_vp g4, at_of_vp g5⟩

/-- the hypotheses of `C159_grid` are met by a triangle and two points inside it -/
example : ∃ after after' r r' v, ConvexHull goSort12 [fpt 0 0, fpt 4 0, fpt 0 4] = .ok (after, some r) ∧
    ConvexHull insertionSort [fpt 1 1, fpt 0 4, fpt 2 1, fpt 0 0, fpt 4 0] = .ok (after', some r') ∧ HullOf ([(0, 0), (4, 0), (0, 4)] : List (ℚ × ℚ)) v ∧
    List.Forall₂ At r (v ++ v.take 1) ∧ List.Forall₂ At r' (v ++ v.take 1) := by
  have h := fpt_all 4 (by norm_num) [(0, 0), (4, 0), (0, 4)] (by decide)
  have h' := fpt_all 4 (by norm_num) [(1, 1), (0, 4), (2, 1), (0, 0), (4, 0)] (by decide)
  norm_num at h h'
  refine C159_grid (k := 0) (by norm_num) (List.Forall₂.imp (fun _ _ h => h.1) h) (List.Forall₂.imp (fun _ _ h => h.1) h') ?_ (by decide)
    (by unfold Close; norm_num [abs_lt]) (by decide) (by decide) ?_ goSort12 insertionSort goSort12_hullSort insertionSort_hullSort
  · intro x hx
    simp only [List.mem_cons, List.not_mem_nil, or_false] at hx
    rcases hx with rfl | rfl | rfl | rfl | rfl
    · exact ⟨1, 1, by norm_num, by norm_num, by norm_num⟩
    · exact ⟨0, 4, by norm_num, by norm_num, by norm_num⟩
    · exact ⟨2, 1, by norm_num, by norm_num, by norm_num⟩
    · exact ⟨0, 0, by norm_num, by norm_num, by norm_num⟩
    · exact ⟨4, 0, by norm_num, by norm_num, by norm_num⟩
  · intro x hx
    simp only [List.mem_cons, List.not_mem_nil, or_false] at hx
    rcases hx with rfl | rfl | rfl | rfl | rfl
    · exact Or.inr (triangle_inside (by norm_num) (by norm_num) (by norm_num))
    · exact Or.inl (by simp)
    · exact Or.inr (triangle_inside (by norm_num) (by norm_num) (by norm_num))
    · exact Or.inl (by simp)
    · exact Or.inl (by simp)

end GoGeo
