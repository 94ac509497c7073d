import Verif.Geo.UtmNear

/-!
# The UTM series off the central meridian

Proof device: the noise of every intermediate quantity of the round trip is bounded by a number of a table (`Par`); the polynomial
inequalities between the numbers of the table are checked by computation in the kernel (`Par.Ok`).
-/

set_option linter.unusedSectionVars false

namespace GoGeo.Utm
open Real PB

/-- the table: `w` is `a (1 + u)` with `|u| ≤ 1`, `x` is bounded by `X` -/
structure Par where
  (a X gB nk0 ns0 nK nnu nD n2 n3k n4 n6 n3 n5 lon nsg ng mnu msp mDp mK2 nW nV1 nV2 lat k1 : ℚ)

def wQ (P : Par) : PE := PE.num P.a * (PE.num 1 + PE.var 0)
def zQ (P : Par) : PE := PE.num 1 - wQ P
def xQ : PE := PE.var 1

theorem wQ_eval (P : Par) (v : ℕ → ℝ) : (wQ P).eval v = P.a * (1 + v 0) := by simp [wQ]
theorem zQ_eval (P : Par) (v : ℕ → ℝ) : (zQ P).eval v = 1 - P.a * (1 + v 0) := by simp [zQ, wQ]
theorem xQ_eval (v : ℕ → ℝ) : (xQ).eval v = v 1 := rfl

/-- the inequalities of the table -/
structure Par.Ok (P : Par) : Prop where
  g : pbound [1, P.X] (gP (wQ P) (zQ P) xQ).norm ≤ P.gB
  K : pbound [1, P.X, P.nk0] (KFP (wQ P) (zQ P) xQ + PE.var 2 - KpP (wQ P) (zQ P) xQ).norm ≤ P.nK
  nu : pbound [1, P.X, P.nK] (FnuP (KpP (wQ P) (zQ P) xQ + PE.var 2) (nuPP (wQ P) (zQ P) xQ) (wQ P) (zQ P)).norm ≤ 19 / 10 * P.nnu
  D : pbound [1, P.X, P.nnu] ((nuPP (wQ P) (zQ P) xQ + PE.var 2) * UP (wQ P) (zQ P) xQ - DpP (wQ P) (zQ P) xQ).norm ≤ P.nD
  K2 : pbound [1, P.X, P.nK] ((KpP (wQ P) (zQ P) xQ + PE.var 2) ^ 2 - K2pP (wQ P) (zQ P) xQ).norm ≤ P.n2
  K3 : pbound [1, P.X, P.nK] ((KpP (wQ P) (zQ P) xQ + PE.var 2) ^ 3 - K3pP (wQ P) (zQ P) xQ).norm ≤ P.n3k
  K4 : pbound [1, P.X, P.nK] ((KpP (wQ P) (zQ P) xQ + PE.var 2) ^ 4 - K4pP (wQ P) (zQ P) xQ).norm ≤ P.n4
  T1 : pbound [1, P.X, P.nK] ((KpP (wQ P) (zQ P) xQ + PE.var 2) ^ 2 - T1pP (zQ P) xQ).norm ≤ P.n6
  D3 : pbound [1, P.X, P.nD] ((DpP (wQ P) (zQ P) xQ + PE.var 2) ^ 3 - D3pP (wQ P) (zQ P) xQ).norm ≤ P.n3
  D5 : pbound [1, P.X, P.nD] ((DpP (wQ P) (zQ P) xQ + PE.var 2) ^ 5 - D5pP (wQ P) (zQ P) xQ).norm ≤ P.n5
  lon : pbound [1, P.X, P.nK, P.nD, 168 / 10 ^ 5, P.n2, P.n3, P.n4, P.n5, P.n6]
    (lonEP (KpP (wQ P) (zQ P) xQ + PE.var 2) (DpP (wQ P) (zQ P) xQ + PE.var 3) (K2pP (wQ P) (zQ P) xQ + PE.var 5)
      (D3pP (wQ P) (zQ P) xQ + PE.var 6) (K4pP (wQ P) (zQ P) xQ + PE.var 7) (D5pP (wQ P) (zQ P) xQ + PE.var 8)
      (T1pP (zQ P) xQ + PE.var 9) (PE.var 4) (wQ P) xQ - lonMP (PE.var 4) (wQ P) xQ).norm ≤ P.lon
  sg : pbound [1, P.X] (sFP (wQ P) (zQ P) xQ - spP (wQ P) (zQ P) xQ).norm ≤ P.nsg
  gg : pbound [1, P.X] (gP (wQ P) (zQ P) xQ - g2P (wQ P) (zQ P) xQ).norm ≤ P.ng
  mnu : pbound [1, P.X] (nuPP (wQ P) (zQ P) xQ).norm ≤ P.mnu
  msp : pbound [1, P.X] (spP (wQ P) (zQ P) xQ).norm ≤ P.msp
  mDp : pbound [1, P.X] (DpP (wQ P) (zQ P) xQ).norm ≤ P.mDp
  mK2 : pbound [1, P.X] (K2pP (wQ P) (zQ P) xQ).norm ≤ P.mK2
  W : pbound [P.mnu, P.msp, P.mDp, P.mK2, P.nnu, P.nsg, P.nD, P.n2]
    (prodWP (PE.var 0 + PE.var 4) (PE.var 1 + PE.var 5) (PE.var 2 + PE.var 6) (PE.var 3 + PE.var 7) -
      prodWP (PE.var 0) (PE.var 1) (PE.var 2) (PE.var 3)).norm ≤ P.nW
  V1 : pbound [P.mnu, P.msp, P.mDp, P.nnu, P.nsg, P.nD]
    (prodVP (PE.var 0 + PE.var 3) (PE.var 1 + PE.var 4) (PE.var 2 + PE.var 5) - prodVP (PE.var 0) (PE.var 1) (PE.var 2)).norm ≤ P.nV1
  V2 : pbound [1, P.X] (prodVP (nuPP (wQ P) (zQ P) xQ) (spP (wQ P) (zQ P) xQ) (DpP (wQ P) (zQ P) xQ) - V4pP (wQ P) (zQ P) xQ).norm ≤ P.nV2
  lat : pbound [1, P.X, P.ng, P.n3k, P.nW, P.nV1 + P.nV2, P.n6, 168 / 10 ^ 5]
    (latEP (K3pP (wQ P) (zQ P) xQ + PE.var 3) (g2P (wQ P) (zQ P) xQ + PE.var 2) (WpP (wQ P) (zQ P) xQ + PE.var 4)
      (V4pP (wQ P) (zQ P) xQ + PE.var 5) (T1pP (zQ P) xQ + PE.var 6) (PE.var 7) (wQ P) xQ).norm ≤ P.lat
  nu1 : pbound [1, P.X] (nuPP (wQ P) (zQ P) xQ - PE.num 1).norm ≤ 1 / 100
  K1 : pbound [1, P.X, P.nK] (KpP (wQ P) (zQ P) xQ + PE.var 2 - PE.num 1).norm ≤ P.k1

/-! ### the stages -/

theorem env0 (a : ℝ) (l : List ℝ) : env (a :: l) 0 = a := rfl
theorem env1 (a b : ℝ) (l : List ℝ) : env (a :: b :: l) 1 = b := rfl
theorem env2 (a b c : ℝ) (l : List ℝ) : env (a :: b :: c :: l) 2 = c := rfl
theorem env3 (a b c d : ℝ) (l : List ℝ) : env (a :: b :: c :: d :: l) 3 = d := rfl
theorem env4 (a b c d e : ℝ) (l : List ℝ) : env (a :: b :: c :: d :: e :: l) 4 = e := rfl
theorem env5 (a b c d e f : ℝ) (l : List ℝ) : env (a :: b :: c :: d :: e :: f :: l) 5 = f := rfl
theorem env6 (a b c d e f g : ℝ) (l : List ℝ) : env (a :: b :: c :: d :: e :: f :: g :: l) 6 = g := rfl
theorem env7 (a b c d e f g h : ℝ) (l : List ℝ) : env (a :: b :: c :: d :: e :: f :: g :: h :: l) 7 = h := rfl
theorem env8 (a b c d e f g h i : ℝ) (l : List ℝ) : env (a :: b :: c :: d :: e :: f :: g :: h :: i :: l) 8 = i := rfl
theorem env9 (a b c d e f g h i j : ℝ) (l : List ℝ) : env (a :: b :: c :: d :: e :: f :: g :: h :: i :: j :: l) 9 = j := rfl

/-- evaluate the expressions of the table -/
macro "pb_eval" "at" h:ident : tactic => `(tactic| simp only [eval_add, eval_sub, eval_mul, eval_pow, eval_var, eval_num, wQ_eval, zQ_eval,
  xQ_eval, gP_eval, KFP_eval, sFP_eval, UP_eval, g2P_eval, KpP_eval, nuPP_eval, DpP_eval, K2pP_eval, K3pP_eval, K4pP_eval, D3pP_eval,
  D5pP_eval, T1pP_eval, spP_eval, WpP_eval, V4pP_eval, lonEP_eval, latEP_eval, FnuP_eval, lonMP_eval, prodWP_eval, prodVP_eval,
  env0, env1, env2, env3, env4, env5, env6, env7, env8, env9, add_sub_cancel, Rat.cast_one] at $h:ident)

/-- the squares of cosine and sine of the latitude and of the longitude -/
structure Dom (P : Par) (u w z x : ℝ) : Prop where
  hu : |u| ≤ 1
  hw : w = P.a * (1 + u)
  hz : z = 1 - w
  hx : |x| ≤ (P.X : ℝ)

section
variable {P : Par} (ok : P.Ok) {u w z x : ℝ} (d : Dom P u w z x)
include ok d

theorem st_g : |gR w z x| ≤ (P.gB : ℝ) := by
  obtain ⟨hu, rfl, rfl, hx⟩ := d
  have h := PE.bound (l := [u, x]) (b := [1, P.X]) ⟨by simpa using hu, hx, trivial⟩ _ _ ok.g
  pb_eval at h
  exact h

theorem st_sg : |sFR w z x - spR w z x| ≤ (P.nsg : ℝ) := by
  obtain ⟨hu, rfl, rfl, hx⟩ := d
  have h := PE.bound (l := [u, x]) (b := [1, P.X]) ⟨by simpa using hu, hx, trivial⟩ _ _ ok.sg
  pb_eval at h
  exact h

theorem st_gg : |gR w z x - g2R w z x| ≤ (P.ng : ℝ) := by
  obtain ⟨hu, rfl, rfl, hx⟩ := d
  have h := PE.bound (l := [u, x]) (b := [1, P.X]) ⟨by simpa using hu, hx, trivial⟩ _ _ ok.gg
  pb_eval at h
  exact h

theorem st_m : |nuPR w z x| ≤ (P.mnu : ℝ) ∧ |spR w z x| ≤ (P.msp : ℝ) ∧ |DpR w z x| ≤ (P.mDp : ℝ) ∧ |K2pR w z x| ≤ (P.mK2 : ℝ) := by
  obtain ⟨hu, rfl, rfl, hx⟩ := d
  have hW : Within [u, x] [1, P.X] := ⟨by simpa using hu, hx, trivial⟩
  have h1 := PE.bound hW _ _ ok.mnu
  have h2 := PE.bound hW _ _ ok.msp
  have h3 := PE.bound hW _ _ ok.mDp
  have h4 := PE.bound hW _ _ ok.mK2
  pb_eval at h1
  pb_eval at h2
  pb_eval at h3
  pb_eval at h4
  exact ⟨h1, h2, h3, h4⟩

theorem st_nu1 : |nuPR w z x - 1| ≤ 1 / 100 := by
  obtain ⟨hu, rfl, rfl, hx⟩ := d
  have h := PE.bound (l := [u, x]) (b := [1, P.X]) ⟨by simpa using hu, hx, trivial⟩ _ _ ok.nu1
  pb_eval at h
  exact h.trans (by norm_num)

theorem st_V2 : |prodVR (nuPR w z x) (spR w z x) (DpR w z x) - V4pR w z x| ≤ (P.nV2 : ℝ) := by
  obtain ⟨hu, rfl, rfl, hx⟩ := d
  have h := PE.bound (l := [u, x]) (b := [1, P.X]) ⟨by simpa using hu, hx, trivial⟩ _ _ ok.V2
  pb_eval at h
  exact h

theorem st_K {κ : ℝ} (hκ : |κ - KFR w z x| ≤ (P.nk0 : ℝ)) : |κ - KpR w z x| ≤ (P.nK : ℝ) := by
  obtain ⟨hu, rfl, rfl, hx⟩ := d
  have h := PE.bound (l := [u, x, κ - KFR (P.a * (1 + u)) (1 - P.a * (1 + u)) x]) (b := [1, P.X, P.nk0]) ⟨by simpa using hu, hx, hκ, trivial⟩ _ _ ok.K
  pb_eval at h
  exact h

theorem st_Ks {κ : ℝ} (hκ : |κ - KpR w z x| ≤ (P.nK : ℝ)) : |κ ^ 2 - K2pR w z x| ≤ (P.n2 : ℝ) ∧ |κ ^ 3 - K3pR w z x| ≤ (P.n3k : ℝ) ∧
    |κ ^ 4 - K4pR w z x| ≤ (P.n4 : ℝ) ∧ |κ ^ 2 - T1pR z x| ≤ (P.n6 : ℝ) ∧ |κ - 1| ≤ (P.k1 : ℝ) := by
  obtain ⟨hu, rfl, rfl, hx⟩ := d
  have hW : Within [u, x, κ - KpR (P.a * (1 + u)) (1 - P.a * (1 + u)) x] [1, P.X, P.nK] := ⟨by simpa using hu, hx, hκ, trivial⟩
  have h1 := PE.bound hW _ _ ok.K2
  have h2 := PE.bound hW _ _ ok.K3
  have h3 := PE.bound hW _ _ ok.K4
  have h4 := PE.bound hW _ _ ok.T1
  have h5 := PE.bound hW _ _ ok.K1
  pb_eval at h1
  pb_eval at h2
  pb_eval at h3
  pb_eval at h4
  pb_eval at h5
  exact ⟨h1, h2, h3, h4, h5⟩

theorem st_nu {κ ν : ℝ} (hκ : |κ - KpR w z x| ≤ (P.nK : ℝ)) (hν : ν ^ 2 * (1 - eC * z) = 1 - eC + eC * κ ^ 2 * w) (h0 : 0.985 ≤ ν)
    (hz0 : 0 ≤ z) (hz1 : z ≤ 1) : |ν - nuPR w z x| ≤ (P.nnu : ℝ) := by
  have h1 := st_nu1 ok d
  obtain ⟨hu, hw, hz, hx⟩ := d
  subst hw
  subst hz
  have h := PE.bound (l := [u, x, κ - KpR (P.a * (1 + u)) (1 - P.a * (1 + u)) x]) (b := [1, P.X, P.nK]) ⟨by simpa using hu, hx, hκ, trivial⟩ _ _ ok.nu
  pb_eval at h
  unfold FnuR at h
  rw [← hν] at h
  generalize nuPR (P.a * (1 + u)) (1 - P.a * (1 + u)) x = n at *
  generalize 1 - P.a * (1 + u) = z at *
  rw [show n ^ 2 * (1 - eC * z) - ν ^ 2 * (1 - eC * z) = -((ν - n) * ((ν + n) * (1 - eC * z))) by ring, abs_neg, abs_mul] at h
  have hn : 0.99 ≤ n := by
    have := (abs_le.1 h1).1
    linarith
  have he : 0.99 ≤ 1 - eC * z := by unfold eC; linarith
  have hp : 1.9 ≤ (ν + n) * (1 - eC * z) := by nlinarith
  rw [abs_of_pos (show 0 < (ν + n) * (1 - eC * z) by linarith)] at h
  have := mul_le_mul_of_nonneg_left hp (abs_nonneg (ν - n))
  push_cast at h
  linarith

theorem st_D {ν : ℝ} (hν : |ν - nuPR w z x| ≤ (P.nnu : ℝ)) : |ν * UR w z x - DpR w z x| ≤ (P.nD : ℝ) := by
  obtain ⟨hu, rfl, rfl, hx⟩ := d
  have h := PE.bound (l := [u, x, ν - nuPR (P.a * (1 + u)) (1 - P.a * (1 + u)) x]) (b := [1, P.X, P.nnu]) ⟨by simpa using hu, hx, hν, trivial⟩ _ _ ok.D
  pb_eval at h
  exact h

theorem st_Ds {D : ℝ} (hD : |D - DpR w z x| ≤ (P.nD : ℝ)) : |D ^ 3 - D3pR w z x| ≤ (P.n3 : ℝ) ∧ |D ^ 5 - D5pR w z x| ≤ (P.n5 : ℝ) := by
  obtain ⟨hu, rfl, rfl, hx⟩ := d
  have hW : Within [u, x, D - DpR (P.a * (1 + u)) (1 - P.a * (1 + u)) x] [1, P.X, P.nD] := ⟨by simpa using hu, hx, hD, trivial⟩
  have h1 := PE.bound hW _ _ ok.D3
  have h2 := PE.bound hW _ _ ok.D5
  pb_eval at h1
  pb_eval at h2
  exact ⟨h1, h2⟩

theorem fe_abs : |feC| ≤ (((168 / 10 ^ 5 : ℚ)) : ℝ) := by
  have := fe_bounds
  rw [abs_of_pos (by linarith)]
  push_cast
  linarith

theorem st_lon {κ D : ℝ} (hκ : |κ - KpR w z x| ≤ (P.nK : ℝ)) (hD : |D - DpR w z x| ≤ (P.nD : ℝ)) :
    |lonER κ D (κ ^ 2) (D ^ 3) (κ ^ 4) (D ^ 5) (κ ^ 2) feC w x - lonMR feC w x| ≤ (P.lon : ℝ) := by
  obtain ⟨k2, -, k4, k6, -⟩ := st_Ks ok d hκ
  obtain ⟨d3, d5⟩ := st_Ds ok d hD
  have hf := fe_abs ok d
  obtain ⟨hu, rfl, rfl, hx⟩ := d
  have h := PE.bound (l := [u, x, κ - KpR (P.a * (1 + u)) (1 - P.a * (1 + u)) x, D - DpR (P.a * (1 + u)) (1 - P.a * (1 + u)) x, feC,
    κ ^ 2 - K2pR (P.a * (1 + u)) (1 - P.a * (1 + u)) x, D ^ 3 - D3pR (P.a * (1 + u)) (1 - P.a * (1 + u)) x,
    κ ^ 4 - K4pR (P.a * (1 + u)) (1 - P.a * (1 + u)) x, D ^ 5 - D5pR (P.a * (1 + u)) (1 - P.a * (1 + u)) x,
    κ ^ 2 - T1pR (1 - P.a * (1 + u)) x]) (b := [1, P.X, P.nK, P.nD, 168 / 10 ^ 5, P.n2, P.n3, P.n4, P.n5, P.n6])
    ⟨by simpa using hu, hx, hκ, hD, hf, k2, d3, k4, d5, k6, trivial⟩ _ _ ok.lon
  pb_eval at h
  exact h

theorem st_W {κ ν D : ℝ} (hκ : |κ - KpR w z x| ≤ (P.nK : ℝ)) (hν : |ν - nuPR w z x| ≤ (P.nnu : ℝ)) (hD : |D - DpR w z x| ≤ (P.nD : ℝ)) :
    |prodWR ν (sFR w z x) D (κ ^ 2) - WpR w z x| ≤ (P.nW : ℝ) := by
  obtain ⟨k2, -⟩ := st_Ks ok d hκ
  obtain ⟨m1, m2, m3, m4⟩ := st_m ok d
  have hs := st_sg ok d
  have h := PE.bound (l := [nuPR w z x, spR w z x, DpR w z x, K2pR w z x, ν - nuPR w z x, sFR w z x - spR w z x, D - DpR w z x, κ ^ 2 - K2pR w z x])
    (b := [P.mnu, P.msp, P.mDp, P.mK2, P.nnu, P.nsg, P.nD, P.n2]) ⟨m1, m2, m3, m4, hν, hs, hD, k2, trivial⟩ _ _ ok.W
  pb_eval at h
  exact h

theorem st_V {ν D : ℝ} (hν : |ν - nuPR w z x| ≤ (P.nnu : ℝ)) (hD : |D - DpR w z x| ≤ (P.nD : ℝ)) :
    |prodVR ν (sFR w z x) D - V4pR w z x| ≤ ((P.nV1 + P.nV2 : ℚ) : ℝ) := by
  obtain ⟨m1, m2, m3, m4⟩ := st_m ok d
  have hs := st_sg ok d
  have h := PE.bound (l := [nuPR w z x, spR w z x, DpR w z x, ν - nuPR w z x, sFR w z x - spR w z x, D - DpR w z x])
    (b := [P.mnu, P.msp, P.mDp, P.nnu, P.nsg, P.nD]) ⟨m1, m2, m3, hν, hs, hD, trivial⟩ _ _ ok.V1
  pb_eval at h
  have h2 := st_V2 ok d
  have e : prodVR ν (sFR w z x) D - V4pR w z x = (prodVR ν (sFR w z x) D - prodVR (nuPR w z x) (spR w z x) (DpR w z x)) +
    (prodVR (nuPR w z x) (spR w z x) (DpR w z x) - V4pR w z x) := by ring
  rw [e]
  push_cast
  exact (abs_add_le _ _).trans (add_le_add h h2)

theorem st_lat {κ ν D : ℝ} (hκ : |κ - KpR w z x| ≤ (P.nK : ℝ)) (hν : |ν - nuPR w z x| ≤ (P.nnu : ℝ)) (hD : |D - DpR w z x| ≤ (P.nD : ℝ)) :
    |latER (κ ^ 3) (gR w z x) (prodWR ν (sFR w z x) D (κ ^ 2)) (prodVR ν (sFR w z x) D) (κ ^ 2) feC w x| ≤ (P.lat : ℝ) := by
  obtain ⟨-, k3, -, k6, -⟩ := st_Ks ok d hκ
  have hW := st_W ok d hκ hν hD
  have hV := st_V ok d hν hD
  have hg := st_gg ok d
  have hf := fe_abs ok d
  obtain ⟨hu, hw, hz, hx⟩ := d
  subst hw
  subst hz
  generalize hWW : prodWR ν (sFR (P.a * (1 + u)) (1 - P.a * (1 + u)) x) D (κ ^ 2) = W at *
  generalize hVV : prodVR ν (sFR (P.a * (1 + u)) (1 - P.a * (1 + u)) x) D = V at *
  have h := PE.bound (l := [u, x, gR (P.a * (1 + u)) (1 - P.a * (1 + u)) x - g2R (P.a * (1 + u)) (1 - P.a * (1 + u)) x,
    κ ^ 3 - K3pR (P.a * (1 + u)) (1 - P.a * (1 + u)) x, W - WpR (P.a * (1 + u)) (1 - P.a * (1 + u)) x, V - V4pR (P.a * (1 + u)) (1 - P.a * (1 + u)) x,
    κ ^ 2 - T1pR (1 - P.a * (1 + u)) x, feC]) (b := [1, P.X, P.ng, P.n3k, P.nW, P.nV1 + P.nV2, P.n6, 168 / 10 ^ 5])
    ⟨by simpa using hu, hx, hg, k3, hW, hV, k6, hf, trivial⟩ _ _ ok.lat
  pb_eval at h
  exact h

end

end GoGeo.Utm
