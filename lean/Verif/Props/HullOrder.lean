import Verif.Props.Hull
import Verif.Props.RoundingHull

/-!
# The convex hull does not depend on the order of the points (C149)

Any list of points is allowed: repeated points and points in a line too, for which C48 says nothing about the ring.
-/

set_option linter.unusedSectionVars false

namespace GoGeo
open GoFloat Spec

section
variable {K : Type} [Field K] [LinearOrder K] [IsStrictOrderedRing K]

theorem above_antisymm {a b : K × K} (h : Above a b) (g : Above b a) : a = b := by
  unfold Above at h g
  rcases h with h | ⟨h, h'⟩ <;> rcases g with g | ⟨g, g'⟩
  · linarith
  · linarith
  · linarith
  · exact Prod.ext (le_antisymm g' h') h

theorem bef_antisymm {o a b : K × K} (h : Bef o a b) (g : Bef o b a) : a = b := by
  have h0 := bef_nonneg h
  have g0 := bef_nonneg g
  have sw : turn o b a = - turn o a b := by unfold turn; ring
  rcases h with h | ⟨t, t0, t1, ht⟩
  · linarith
  rcases g with g | ⟨s, s0, s1, hs⟩
  · linarith
  have e1 : a.1 - o.1 = t * (b.1 - o.1) := by rw [ht]; unfold along; simp
  have e2 : a.2 - o.2 = t * (b.2 - o.2) := by rw [ht]; unfold along; simp
  have f1 : b.1 - o.1 = s * (a.1 - o.1) := by rw [hs]; unfold along; simp
  have f2 : b.2 - o.2 = s * (a.2 - o.2) := by rw [hs]; unfold along; simp
  have key : ∀ u v : K, u = t * v → v = s * u → u = v := by
    intro u v hu hv
    rcases le_total 0 v with hv0 | hv0
    · have hu0 : 0 ≤ u := by rw [hu]; positivity
      have : u ≤ v := by rw [hu]; nlinarith
      have : v ≤ u := by rw [hv]; nlinarith
      linarith
    · have hu0 : u ≤ 0 := by rw [hu]; nlinarith
      have : v ≤ u := by rw [hu]; nlinarith
      have : u ≤ v := by rw [hv]; nlinarith
      linarith
  exact Prod.ext (by have := key _ _ e1 f1; linarith) (by have := key _ _ e2 f2; linarith)

/-- what the scan of `ConvexHull` starts from: the points in one order that depends on the points alone -/
theorem hull_sorted (sortPts : List (Point (XR K)) → List (Point (XR K))) (hs : HullSort sortPts) (pts : List (K × K)) (hne : pts ≠ []) :
    ∃ (o : K × K) (q : List (K × K)), sortPts (FindLowestPoint (pts.map pt)) = q.map pt ∧ q.Perm pts ∧ o ∈ pts ∧ (∀ x ∈ pts, Above o x) ∧ q.Pairwise (Bef o) := by
  obtain ⟨o, l, hF, hperm, hA⟩ := FindLowestPoint_fin pts hne
  have hA' : ∀ x ∈ o :: l, Above o x := fun x hx => hA x (hperm.mem_iff.1 hx)
  have w : WeakOrder (hullLess (pt o)) (pt o :: l.map pt) := weakOrder_hull o (o :: l) hA'
  obtain ⟨p1, p2⟩ := hs (pt o) (l.map pt) (headLeast_fin o l) w
  obtain ⟨q, hq, hqp⟩ := unmap_pt (p := o :: l) p1
  refine ⟨o, q, by rw [hF, hq], hqp.trans hperm, hperm.mem_iff.1 (by simp), hA, ?_⟩
  rw [hq, List.pairwise_map] at p2
  refine List.Pairwise.imp_of_mem ?_ p2
  intro a b ha hb h
  exact (hullLess_bef (hA a ((hqp.trans hperm).mem_iff.1 ha)) (hA b ((hqp.trans hperm).mem_iff.1 hb))).1 h

theorem hull_sorted_eq (s s' : List (Point (XR K)) → List (Point (XR K))) (hs : HullSort s) (hs' : HullSort s') (pts pts' : List (K × K))
    (h : pts.Perm pts') (hne : pts ≠ []) : s (FindLowestPoint (pts.map pt)) = s' (FindLowestPoint (pts'.map pt)) := by
  have hne' : pts' ≠ [] := by rintro rfl; exact hne h.eq_nil
  obtain ⟨o, q, e, hq, ho, hA, hp⟩ := hull_sorted s hs pts hne
  obtain ⟨o', q', e', hq', ho', hA', hp'⟩ := hull_sorted s' hs' pts' hne'
  have hoo : o = o' := above_antisymm (hA o' (h.mem_iff.2 ho')) (hA' o (h.mem_iff.1 ho))
  subst hoo
  rw [e, e', List.Perm.eq_of_pairwise (fun a b _ _ => bef_antisymm) hp hp' ((hq.trans h).trans hq'.symm)]

/-- **C149.** In exact arithmetic `ConvexHull` of the same points in another order, and with another correct sort, gives the same answer:
the same ring, corner by corner from the same start, or no ring, or the same panic.  Points may be repeated or lie in a line. -/
theorem C149_order (s s' : List (Point (XR K)) → List (Point (XR K))) (hs : HullSort s) (hs' : HullSort s') (pts pts' : List (K × K))
    (h : pts.Perm pts') : (ConvexHull s (pts.map pt)).map Prod.snd = (ConvexHull s' (pts'.map pt)).map Prod.snd := by
  unfold ConvexHull
  rw [List.length_map, List.length_map, ← h.length_eq]
  by_cases h3 : pts.length < 3
  · rw [if_pos h3, if_pos h3]; rfl
  · rw [if_neg h3, if_neg h3, hull_sorted_eq s s' hs hs' pts pts' h (by rintro rfl; simp at h3)]

/-- **C149, the caller's slice.** From three points on, the call also leaves the caller's slice in an order that does not depend on the one
it was given in. -/
theorem C149_slice (s s' : List (Point (XR K)) → List (Point (XR K))) (hs : HullSort s) (hs' : HullSort s') (pts pts' : List (K × K))
    (h : pts.Perm pts') (h3 : 3 ≤ pts.length) : ConvexHull s (pts.map pt) = ConvexHull s' (pts'.map pt) := by
  unfold ConvexHull
  rw [List.length_map, List.length_map, ← h.length_eq, if_neg (by omega), if_neg (by omega),
    hull_sorted_eq s s' hs hs' pts pts' h (by rintro rfl; simp at h3)]

/-! ### the hull of the corners of the hull -/

/-- the result of `ConvexHull` with the order its corners are in -/
theorem hull_core (sortPts : List (Point (XR K)) → List (Point (XR K))) (hs : HullSort sortPts) (pts : List (K × K)) (hd : pts.Nodup) (h3 : 3 ≤ pts.length) :
    ∃ (after r : List (Point (XR K))) (v : List (K × K)) (o : K × K), ConvexHull sortPts (pts.map pt) = .ok (after, some r) ∧ closeRing (v.map pt) = some r ∧
      HullOf pts v ∧ v.Pairwise (BefNe o) ∧ v.head? = some o ∧ (∀ x ∈ pts, Above o x) ∧ Tri v.reverse := by
  have hne : pts ≠ [] := by rintro rfl; simp at h3
  obtain ⟨o, q, hq, hqp, ho, hA, hsorted⟩ := hull_sorted sortPts hs pts hne
  unfold ConvexHull
  rw [if_neg (by simpa using h3), hq]
  have hmem : ∀ x ∈ q, x ∈ pts := fun x hx => hqp.mem_iff.1 hx
  have hqd : q.Nodup := hqp.nodup_iff.2 hd
  have hR : q.Pairwise (BefNe o) := List.pairwise_and_iff.2 ⟨hsorted, hqd⟩
  have hlen : 3 ≤ q.length := by rw [hqp.length_eq]; exact h3
  obtain ⟨a, b, rest, rfl⟩ : ∃ a b rest, q = a :: b :: rest := by
    rcases q with _ | ⟨a, _ | ⟨b, rest⟩⟩
    · simp at hlen
    · simp at hlen
    · exact ⟨a, b, rest, rfl⟩
  have hao : a = o := by
    have : o ∈ a :: b :: rest := hqp.mem_iff.2 ho
    rcases List.mem_cons.1 this with h | h
    · exact h.symm
    · rcases (List.pairwise_cons.1 hsorted).1 o h with g | ⟨t, _, _, g⟩
      · exfalso
        have : turn o a o = 0 := by unfold turn; ring
        linarith
      · rw [g]; unfold along; ext <;> simp
  subst hao
  have hrest : rest ≠ [] := by rintro rfl; simp at hlen
  simp only [List.map_cons]
  obtain ⟨st, e, l3, hlast, tri, hpw, hsub, htight⟩ := hullScan_spec a pts rest (2 * (pt a :: pt b :: rest.map pt).length) [b, a] (by simp; omega) (by simp) (Or.inr hrest) rfl
    (by simpa using hR) (by
      intro i j k x y z hij hjk hx _ _
      obtain ⟨hk, _⟩ := List.getElem?_eq_some_iff.1 hx
      simp at hk; omega)
    (by intro x hx; apply hmem; simp at hx ⊢; tauto)
    (by
      intro u v huv x hx
      apply huv
      have := hqp.mem_iff.2 hx
      simp at this ⊢; tauto)
  have e' : hullScan (2 * (pt a :: pt b :: rest.map pt).length) [pt b, pt a] (rest.map pt) = .ok (st.map pt) := e
  rw [e', bind_ok', if_neg (by simpa using l3), ← List.map_reverse]
  have hv : 3 ≤ st.reverse.length := by simpa using l3
  have hh : st.reverse.head? = some a := by rw [List.head?_reverse]; exact hlast
  have hull : HullOf pts st.reverse := by
    refine ⟨?_, hpw.imp fun h => h.2, by simpa using l3, ?_, ?_, turns_tri st tri⟩
    · intro x hx; exact hsub x (by simpa using hx)
    · intro e he x hx
      exact htight e.1 e.2 (sides_tri st tri e he) x hx
    · intro u v huv x hx
      exact htight u v (fun y hy => huv y (by simpa using hy)) x hx
  have htri : Tri st.reverse.reverse := by rw [List.reverse_reverse]; exact tri
  rcases closeRing_open st.reverse (by omega) with h | ⟨h, _⟩
  · rw [h]; exact ⟨_, _, st.reverse, a, rfl, h, hull, hpw, hh, hA, htri⟩
  · rw [h]; exact ⟨_, _, st.reverse, a, rfl, h, hull, hpw, hh, hA, htri⟩

/-- corners that make no right turn are all kept by the scan -/
theorem scan_tri (rest : List (K × K)) : ∀ (fuel : Nat) (st : List (K × K)), rest.length ≤ fuel → 2 ≤ st.length → Tri (rest.reverse ++ st) →
    hullScan fuel (st.map pt) (rest.map pt) = .ok ((rest.reverse ++ st).map pt) := by
  induction rest with
  | nil => intro fuel st _ _ _; unfold hullScan; simp
  | cons p rest ih =>
    intro fuel st hf h2 tri
    obtain ⟨fuel, rfl⟩ : ∃ f, fuel = f + 1 := ⟨fuel - 1, by simp at hf; omega⟩
    rcases st with _ | ⟨b, _ | ⟨a, st⟩⟩
    · simp at h2
    · simp at h2
    · rw [List.map_cons, List.map_cons, List.map_cons, hullScan]
      have e : (p :: rest).reverse ++ b :: a :: st = rest.reverse ++ p :: b :: a :: st := by simp
      rw [e] at tri ⊢
      have hl : isLeft (pt a) (pt b) (pt p) = true := by
        rw [isLeft_fin]
        refine tri rest.length (rest.length + 1) (rest.length + 2) a b p (by omega) (by omega) ?_ ?_ ?_
        · rw [List.getElem?_append_right (by simp)]; simp
        · rw [List.getElem?_append_right (by simp)]; simp
        · rw [List.getElem?_append_right (by simp)]; simp
      rw [if_pos hl]
      exact ih fuel (p :: b :: a :: st) (by simp at hf; omega) (by simp) tri

/-- **C149, the hull of the hull.** The corners of the ring that `ConvexHull` returns, handed to `ConvexHull` again in any order, give the
same ring. -/
theorem C149_again (s s' : List (Point (XR K)) → List (Point (XR K))) (hs : HullSort s) (hs' : HullSort s') (pts : List (K × K)) (hd : pts.Nodup)
    (h3 : 3 ≤ pts.length) :
    ∃ (after r : List (Point (XR K))) (v : List (K × K)), ConvexHull s (pts.map pt) = .ok (after, some r) ∧ closeRing (v.map pt) = some r ∧ HullOf pts v ∧
      ∀ v' : List (K × K), v'.Perm v → ∃ after', ConvexHull s' (v'.map pt) = .ok (after', some r) := by
  obtain ⟨after, r, v, o, e, hr, hull, hpw, hh, hA, tri⟩ := hull_core s hs pts hd h3
  refine ⟨after, r, v, e, hr, hull, ?_⟩
  intro v' hv'
  have hl := hull.three
  have hov : o ∈ v := List.mem_of_mem_head? hh
  have hne : v' ≠ [] := by rintro rfl; have := hv'.length_eq; simp at this; omega
  obtain ⟨o', q, hq, hqp, ho', hA', hsorted⟩ := hull_sorted s' hs' v' hne
  have hoo : o' = o := above_antisymm (hA' o (hv'.mem_iff.2 hov)) (hA o' (hull.corners _ (hv'.mem_iff.1 ho')))
  subst hoo
  have hqv : q = v := List.Perm.eq_of_pairwise (fun a b _ _ => bef_antisymm) hsorted (hpw.imp fun h => h.1) (hqp.trans hv')
  subst hqv
  unfold ConvexHull
  rw [if_neg (by rw [List.length_map, hv'.length_eq]; omega), hq]
  rcases q with _ | ⟨a, _ | ⟨b, rest⟩⟩
  · simp at hl
  · simp at hl
  · have sc := scan_tri rest (2 * (pt a :: pt b :: rest.map pt).length) [b, a] (by simp; omega) (by simp) (by simpa using tri)
    have sc' : hullScan (2 * (pt a :: pt b :: rest.map pt).length) [pt b, pt a] (rest.map pt) = .ok ((rest.reverse ++ [b, a]).map pt) := sc
    simp only [List.map_cons]
    rw [sc', bind_ok', if_neg (by simp at hl ⊢; omega), ← List.map_reverse]
    have er : (rest.reverse ++ [b, a]).reverse = a :: b :: rest := by simp
    rw [er, hr]
    exact ⟨_, rfl⟩

/-- the hypotheses can be met, by points that are repeated and in a line -/
example : (ConvexHull goSort12 ([((0 : ℚ), (0 : ℚ)), (2, 0), (1, 0), (0, 2), (0, 2)].map pt)).map Prod.snd =
    (ConvexHull insertionSort ([((0 : ℚ), (2 : ℚ)), (1, 0), (0, 2), (0, 0), (2, 0)].map pt)).map Prod.snd :=
  C149_order _ _ goSort12_hullSort insertionSort_hullSort _ _ (by decide)

/-- and those of `C149_again`: a square with a point inside and one on a side -/
example : ∃ (after r : List (Point (XR ℚ))) (v : List (ℚ × ℚ)), ConvexHull goSort12 ([(0, 0), (2, 0), (1, 1), (1, 0), (2, 2), (0, 2)].map pt) = .ok (after, some r) ∧
    closeRing (v.map pt) = some r ∧ HullOf [(0, 0), (2, 0), (1, 1), (1, 0), (2, 2), (0, 2)] v ∧
    ∀ v' : List (ℚ × ℚ), v'.Perm v → ∃ after', ConvexHull insertionSort (v'.map pt) = .ok (after', some r) :=
  C149_again _ _ goSort12_hullSort insertionSort_hullSort _ (by decide) (by decide)

end

/-! ### float64 -/

section
open FloatVal
variable {F K : Type} [GoFloat F] [Field K] [LinearOrder K] [IsStrictOrderedRing K] [FloatVal F K]
include K

theorem sort_sim {ps : List (Point F)} {pts : List (K × K)} (hmap : ps.map vp = pts.map pt) {S : Point F → Prop} (sim : HullSim (K := K) S)
    (hS : ∀ p ∈ ps, S p) (hne : pts ≠ []) (s : List (Point F) → List (Point F)) (hs : HullSort s) :
    (s (FindLowestPoint ps)).Perm ps ∧ ∃ t, HullSort t ∧ t (FindLowestPoint (pts.map pt)) = (s (FindLowestPoint ps)).map (vp (K := K)) := by
  have hne' : ps ≠ [] := by rintro rfl; simp at hmap; exact hne hmap
  obtain ⟨o, l, hF, hperm, hA⟩ := FindLowestPoint_fin pts hne
  have hFv : (FindLowestPoint ps).map vp = pt o :: l.map pt := by rw [← FindLowestPoint_vp, hmap, hF]
  have hP := FindLowestPoint_perm ps hne'
  rcases hFL : FindLowestPoint ps with _ | ⟨o', l'⟩
  · rw [hFL] at hFv; simp at hFv
  rw [hFL] at hP
  rw [hFL, List.map_cons] at hFv
  injection hFv with ho hl
  have hS' : ∀ p ∈ o' :: l', S p := fun p hp => hS p (hP.mem_iff.1 hp)
  have h1 : HeadLeast (vp o') (l'.map (vp (K := K))) := by rw [ho, hl]; exact headLeast_fin o l
  have h2 : WeakOrder (hullLess (vp o')) ((o' :: l').map (vp (K := K))) := by
    rw [List.map_cons, ho, hl]; exact weakOrder_hull o (o :: l) fun x hx => hA x (hperm.mem_iff.1 hx)
  obtain ⟨k1, k2⟩ := sortVp_hullSort sim s hs o' l' hS' h1 h2
  have e : sortVp s (o' :: l') (pt o :: l.map pt) = (s (o' :: l')).map (vp (K := K)) := by
    unfold sortVp
    rw [if_pos (by rw [List.map_cons, ho, hl])]
  refine ⟨?_, _, k2, by rw [hF, e]⟩
  have tr : ∀ a ∈ o' :: l', ∀ b ∈ o' :: l', hullLess o' a b = hullLess (vp o') (vp a) (vp (K := K) b) := fun a ha b hb =>
    (sim.less o' a b (hS' o' (by simp)) (hS' a ha) (hS' b hb)).symm
  refine (hs o' l' ?_ ?_).1.trans hP
  · intro x hx
    rw [tr x (by simp [hx]) o' (by simp)]
    exact h1 _ (List.mem_map_of_mem hx)
  · refine ⟨?_, ?_, ?_⟩
    · intro a ha
      rw [tr a ha a ha]
      exact h2.irrefl _ (List.mem_map_of_mem ha)
    · intro a ha b hb c hc
      rw [tr a ha b hb, tr b hb c hc, tr a ha c hc]
      exact h2.trans _ (List.mem_map_of_mem ha) _ (List.mem_map_of_mem hb) _ (List.mem_map_of_mem hc)
    · intro a ha b hb c hc
      rw [tr a ha b hb, tr b hb c hc, tr a ha c hc]
      exact h2.ntrans _ (List.mem_map_of_mem ha) _ (List.mem_map_of_mem hb) _ (List.mem_map_of_mem hc)

/-- points at places that are not close to each other differ in their values -/
theorem vp_inj {ps : List (Point F)} {pts : List (K × K)} (hat : List.Forall₂ At ps pts) (hd : pts.Pairwise fun a b => ¬ Close a b) :
    ∀ p ∈ ps, ∀ q ∈ ps, vp (K := K) p = vp q → p = q := by
  have inj : ∀ x y : K × K, pt x = pt y → x = y := by
    intro x y h
    unfold pt at h
    simp only [Point.mk.injEq, XR.fin.injEq] at h
    exact Prod.ext h.1 h.2
  have hcr : ∀ a : K × K, Close a a := by intro a; unfold Close; simp
  induction hat with
  | nil => simp
  | @cons a x l m h t ih =>
    rw [List.pairwise_cons] at hd
    have far : ∀ q ∈ l, vp (K := K) a ≠ vp q := by
      intro q hq e
      obtain ⟨y, hy, hqy⟩ := forall₂_mem_left t hq
      rw [vp_at h, vp_at hqy] at e
      exact hd.1 y hy (inj _ _ e ▸ hcr x)
    intro p hp q hq e
    rcases List.mem_cons.1 hp with hp | hp <;> rcases List.mem_cons.1 hq with hq | hq
    · rw [hp, hq]
    · exact absurd (hp ▸ e) (far q hq)
    · exact absurd (hq ▸ e.symm) (far p hp)
    · exact ih hd.2 p hp q hq e

theorem order_of_sim {ps ps' : List (Point F)} {pts : List (K × K)} (hat : List.Forall₂ At ps pts) (sim : HullSim fun p : Point F => ∃ x ∈ pts, At p x)
    (hd : pts.Pairwise fun a b => ¬ Close a b) (h : ps.Perm ps') (h3 : 3 ≤ pts.length)
    (s s' : List (Point F) → List (Point F)) (hs : HullSort s) (hs' : HullSort s') : ConvexHull s ps = ConvexHull s' ps' := by
  have hmap : ps.map vp = pts.map pt := by
    clear sim hd h3 h
    induction hat with
    | nil => rfl
    | cons h _ ih => rw [List.map_cons, List.map_cons, vp_at h, ih]
  have hlen : ps.length = pts.length := by simpa using congrArg List.length hmap
  obtain ⟨pts', hmap', hp'⟩ := unmap_pt (l := ps'.map (vp (K := K))) (p := pts) (by rw [← hmap]; exact h.symm.map vp)
  have hS : ∀ p ∈ ps, ∃ x ∈ pts, At p x := fun p hp => forall₂_mem_left hat hp
  have hne : pts ≠ [] := by rintro rfl; simp at h3
  have hne' : pts' ≠ [] := by rintro rfl; exact hne hp'.symm.eq_nil
  obtain ⟨a1, t, a2, a3⟩ := sort_sim hmap sim hS hne s hs
  obtain ⟨b1, t', b2, b3⟩ := sort_sim hmap' sim (fun p hp => hS p (h.mem_iff.2 hp)) hne' s' hs'
  have e := hull_sorted_eq t t' a2 b2 pts pts' hp'.symm hne
  rw [a3, b3] at e
  have es : s (FindLowestPoint ps) = s' (FindLowestPoint ps') := by
    have inj := vp_inj hat hd
    have hl : ∀ p ∈ s (FindLowestPoint ps), p ∈ ps := fun p hp => a1.mem_iff.1 hp
    have hr : ∀ p ∈ s' (FindLowestPoint ps'), p ∈ ps := fun p hp => h.mem_iff.2 (b1.mem_iff.1 hp)
    clear a3 b3 a1 b1
    generalize s (FindLowestPoint ps) = u at *
    generalize s' (FindLowestPoint ps') = w at *
    induction u generalizing w with
    | nil => cases w with
      | nil => rfl
      | cons b w => simp at e
    | cons a u ih => cases w with
      | nil => simp at e
      | cons b w =>
        simp only [List.map_cons, List.cons.injEq] at e
        rw [inj a (hl a (by simp)) b (hr b (by simp)) e.1, ih (fun p hp => hl p (by simp [hp])) w (fun p hp => hr p (by simp [hp])) e.2]
  unfold ConvexHull
  rw [← h.length_eq, if_neg (by omega), if_neg (by omega), es]

end

/-- **C149 (float64, grid).** Float64 points on a grid as in C113, no two within 1e-6 of each other, at least three: in any order, and with
any correct sort, the same answer bit for bit. -/
theorem C149_grid {k : ℕ} (hk : k ≤ 500) {ps ps' : List (Point Float)} {pts : List (ℚ × ℚ)} (hat : List.Forall₂ At ps pts) (hg : ∀ x ∈ pts, OnGrid 25 k x)
    (hd : pts.Pairwise fun a b => ¬ Close a b) (h : ps.Perm ps') (h3 : 3 ≤ pts.length)
    (s s' : List (Point Float) → List (Point Float)) (hs : HullSort s) (hs' : HullSort s') : ConvexHull s ps = ConvexHull s' ps' := by
  obtain ⟨e, he, _, hl, _⟩ := coord_val (F := Float) (K := ℚ)
  exact order_of_sim hat (sim_grid hk hg hd he (lt_of_lt_of_le (by norm_num [eps]) hl)) hd h h3 s s' hs hs'

/-- **C149 (float64, general position).** The same for points as in `C113_clear`. -/
theorem C149_clear {M : ℚ} (h1 : 1 ≤ M) (h2 : M ≤ 2 ^ 100) {ps ps' : List (Point Float)} {pts : List (ℚ × ℚ)} (hat : AtAll M ps pts)
    (hd : pts.Pairwise fun a b => ¬ Close a b) (h : ps.Perm ps') (h3 : 3 ≤ pts.length)
    (hcl : ∀ x ∈ pts, ∀ y ∈ pts, ∀ z ∈ pts, x ≠ y → x ≠ z → y ≠ z → M * M / 2 ^ 48 ≤ |turn x y z| / 2)
    (s s' : List (Point Float) → List (Point Float)) (hs : HullSort s) (hs' : HullSort s') : ConvexHull s ps = ConvexHull s' ps' := by
  obtain ⟨e, he, _, hl, _⟩ := coord_val (F := Float) (K := ℚ)
  have hM : ∀ x ∈ pts, Within M x := fun x hx => by
    obtain ⟨p, _, h⟩ := forall₂_mem_right hat hx
    exact h.2
  exact order_of_sim (hat.imp fun _ _ h => h.1) (sim_clear h1 h2 hM hd (fun x hx y hy z hz a b c => by
    have := hcl x hx y hy z hz a b c
    generalize M * M = Q at *
    norm_num at this ⊢
    linarith) he (lt_of_lt_of_le (by norm_num [eps]) hl)) hd h h3 s s' hs hs'

/-- the hypotheses of `C149_grid` are met: five points, three of them in a line, in two orders and with two sorts -/
example : ConvexHull goSort12 [fpt 0 0, fpt 2 0, fpt 1 0, fpt 2 2, fpt 0 2] = ConvexHull insertionSort [fpt 2 2, fpt 0 2, fpt 1 0, fpt 2 0, fpt 0 0] := by
  have h := fpt_all 2 (by norm_num) [(0, 0), (2, 0), (1, 0), (2, 2), (0, 2)] (by decide)
  norm_num at h
  refine C149_grid (k := 0) (by norm_num) (List.Forall₂.imp (fun _ _ h => h.1) h) ?_ (by unfold Close; norm_num [abs_lt])
    ?_ (by decide) goSort12 insertionSort goSort12_hullSort insertionSort_hullSort
  · intro x hx
    simp only [List.mem_cons, List.not_mem_nil, or_false] at hx
    rcases hx with rfl | rfl | rfl | rfl | rfl
    · exact ⟨0, 0, by norm_num, by norm_num, by norm_num⟩
    · exact ⟨2, 0, by norm_num, by norm_num, by norm_num⟩
    · exact ⟨1, 0, by norm_num, by norm_num, by norm_num⟩
    · exact ⟨2, 2, by norm_num, by norm_num, by norm_num⟩
    · exact ⟨0, 2, by norm_num, by norm_num, by norm_num⟩
  · generalize fpt 0 0 = a
    generalize fpt 2 0 = b
    generalize fpt 1 0 = c
    generalize fpt 2 2 = d
    generalize fpt 0 2 = e
    have h1 : [a, b, c, d, e].Perm ([d, e] ++ [a, b, c]) := (List.perm_append_comm (l₁ := [a, b, c]) (l₂ := [d, e]))
    have h2 : [a, b, c].Perm [c, b, a] := (List.reverse_perm [a, b, c]).symm
    exact h1.trans (h2.append_left [d, e])

end GoGeo
