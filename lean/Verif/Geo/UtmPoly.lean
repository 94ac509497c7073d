import Verif.Util.PolyBound
import Verif.Geo.UtmReal

/-!
# Polynomials of the UTM round trip

Proof device: every polynomial is written twice, over the reals (`…R`) and as an expression whose bound is computed (`…P`).  `w` and `z`
are the squares of cosine and sine of the latitude, `x` the square of the longitude from the central meridian.
-/

namespace GoGeo.Utm
open PB

noncomputable def RR (w : ℝ) : ℝ := 1 + eP2C * w
def RP (w : PE) : PE := (PE.num (1)) + (PE.num (669438 / 99330562)) * w
@[simp] theorem RP_eval (v : ℕ → ℝ) (w : PE) : (RP w).eval v = RR (w.eval v) := by
  simp [RP, RR, eP2C]

noncomputable def GR (w z x : ℝ) : ℝ := (1/2) + x * (1/24) * (5 * w - z + 9 * eP2C * w ^ 2 + 4 * eP2C ^ 2 * w ^ 3) + x ^ 2 * (1/720) * (61 * w ^ 2 - 58 * (w * z) + z ^ 2 + 600 * eP2C * w ^ 3 - 330 * eP2C * w ^ 2)
def GP (w z x : PE) : PE := (PE.num (1/2)) + x * (PE.num (1/24)) * ((PE.num (5)) * w - z + (PE.num (9)) * (PE.num (669438 / 99330562)) * w ^ 2 + (PE.num (4)) * (PE.num (669438 / 99330562)) ^ 2 * w ^ 3) + x ^ 2 * (PE.num (1/720)) * ((PE.num (61)) * w ^ 2 - (PE.num (58)) * (w * z) + z ^ 2 + (PE.num (600)) * (PE.num (669438 / 99330562)) * w ^ 3 - (PE.num (330)) * (PE.num (669438 / 99330562)) * w ^ 2)
@[simp] theorem GP_eval (v : ℕ → ℝ) (w z x : PE) : (GP w z x).eval v = GR (w.eval v) (z.eval v) (x.eval v) := by
  simp [GP, GR, eP2C]

noncomputable def gR (w z x : ℝ) : ℝ := x * RR w * GR w z x
def gP (w z x : PE) : PE := x * RP w * GP w z x
@[simp] theorem gP_eval (v : ℕ → ℝ) (w z x : PE) : (gP w z x).eval v = gR (w.eval v) (z.eval v) (x.eval v) := by
  simp [gP, gR]

noncomputable def KFR (w z x : ℝ) : ℝ := 1 - z * gR w z x - z * w * gR w z x ^ 2 * (1/2)
def KFP (w z x : PE) : PE := (PE.num (1)) - z * gP w z x - z * w * gP w z x ^ 2 * (PE.num (1/2))
@[simp] theorem KFP_eval (v : ℕ → ℝ) (w z x : PE) : (KFP w z x).eval v = KFR (w.eval v) (z.eval v) (x.eval v) := by
  simp [KFP, KFR]

noncomputable def sFR (w z x : ℝ) : ℝ := 1 + w * gR w z x - z * w * gR w z x ^ 2 * (1/2)
def sFP (w z x : PE) : PE := (PE.num (1)) + w * gP w z x - z * w * gP w z x ^ 2 * (PE.num (1/2))
@[simp] theorem sFP_eval (v : ℕ → ℝ) (w z x : PE) : (sFP w z x).eval v = sFR (w.eval v) (z.eval v) (x.eval v) := by
  simp [sFP, sFR]

noncomputable def UR (w z x : ℝ) : ℝ := 1 + x * (1/6) * (w - z + eP2C * w ^ 2) + x ^ 2 * (1/120) * (5 * w ^ 2 - 18 * (w * z) + z ^ 2 + 72 * eP2C * w ^ 3 - 58 * eP2C * w ^ 2)
def UP (w z x : PE) : PE := (PE.num (1)) + x * (PE.num (1/6)) * (w - z + (PE.num (669438 / 99330562)) * w ^ 2) + x ^ 2 * (PE.num (1/120)) * ((PE.num (5)) * w ^ 2 - (PE.num (18)) * (w * z) + z ^ 2 + (PE.num (72)) * (PE.num (669438 / 99330562)) * w ^ 3 - (PE.num (58)) * (PE.num (669438 / 99330562)) * w ^ 2)
@[simp] theorem UP_eval (v : ℕ → ℝ) (w z x : PE) : (UP w z x).eval v = UR (w.eval v) (z.eval v) (x.eval v) := by
  simp [UP, UR, eP2C]

noncomputable def g2R (w z x : ℝ) : ℝ := x * (1/2) * RR w + x ^ 2 * (1/24) * RR w * (5 * w - z + 9 * eP2C * w ^ 2)
def g2P (w z x : PE) : PE := x * (PE.num (1/2)) * RP w + x ^ 2 * (PE.num (1/24)) * RP w * ((PE.num (5)) * w - z + (PE.num (9)) * (PE.num (669438 / 99330562)) * w ^ 2)
@[simp] theorem g2P_eval (v : ℕ → ℝ) (w z x : PE) : (g2P w z x).eval v = g2R (w.eval v) (z.eval v) (x.eval v) := by
  simp [g2P, g2R, eP2C]

noncomputable def KpR (w z x : ℝ) : ℝ := 1 - z * g2R w z x - z * w * x ^ 2 * RR w ^ 2 * (1/8)
def KpP (w z x : PE) : PE := (PE.num (1)) - z * g2P w z x - z * w * x ^ 2 * RP w ^ 2 * (PE.num (1/8))
@[simp] theorem KpP_eval (v : ℕ → ℝ) (w z x : PE) : (KpP w z x).eval v = KpR (w.eval v) (z.eval v) (x.eval v) := by
  simp [KpP, KpR]

noncomputable def nuPR (w z x : ℝ) : ℝ := 1 - eC * (1 + eC * z) * z * w * x * RR w * (1/2)
def nuPP (w z x : PE) : PE := (PE.num (1)) - (PE.num (669438 / 100000000)) * ((PE.num (1)) + (PE.num (669438 / 100000000)) * z) * z * w * x * RP w * (PE.num (1/2))
@[simp] theorem nuPP_eval (v : ℕ → ℝ) (w z x : PE) : (nuPP w z x).eval v = nuPR (w.eval v) (z.eval v) (x.eval v) := by
  norm_num [nuPP, nuPR, eC]

noncomputable def DpR (w z x : ℝ) : ℝ := nuPR w z x * (1 + x * (w - z + eP2C * w ^ 2) * (1/6)) + x ^ 2 * (1/120) * (5 * w ^ 2 - 18 * (w * z) + z ^ 2 + 72 * eP2C * w ^ 3 - 58 * eP2C * w ^ 2)
def DpP (w z x : PE) : PE := nuPP w z x * ((PE.num (1)) + x * (w - z + (PE.num (669438 / 99330562)) * w ^ 2) * (PE.num (1/6))) + x ^ 2 * (PE.num (1/120)) * ((PE.num (5)) * w ^ 2 - (PE.num (18)) * (w * z) + z ^ 2 + (PE.num (72)) * (PE.num (669438 / 99330562)) * w ^ 3 - (PE.num (58)) * (PE.num (669438 / 99330562)) * w ^ 2)
@[simp] theorem DpP_eval (v : ℕ → ℝ) (w z x : PE) : (DpP w z x).eval v = DpR (w.eval v) (z.eval v) (x.eval v) := by
  simp [DpP, DpR, eP2C]

noncomputable def K2pR (w z x : ℝ) : ℝ := 1 - z * x * RR w + x ^ 2 * (z ^ 2 * (1/4) - z * (5 * w - z) * (1/12) - z * w * (1/4))
def K2pP (w z x : PE) : PE := (PE.num (1)) - z * x * RP w + x ^ 2 * (z ^ 2 * (PE.num (1/4)) - z * ((PE.num (5)) * w - z) * (PE.num (1/12)) - z * w * (PE.num (1/4)))
@[simp] theorem K2pP_eval (v : ℕ → ℝ) (w z x : PE) : (K2pP w z x).eval v = K2pR (w.eval v) (z.eval v) (x.eval v) := by
  simp [K2pP, K2pR]

noncomputable def K3pR (w z x : ℝ) : ℝ := 1 - (3/2) * z * x * RR w + x ^ 2 * (z ^ 2 * (3/4) - z * (5 * w - z) * (1/8) - z * w * (3/8))
def K3pP (w z x : PE) : PE := (PE.num (1)) - (PE.num (3/2)) * z * x * RP w + x ^ 2 * (z ^ 2 * (PE.num (3/4)) - z * ((PE.num (5)) * w - z) * (PE.num (1/8)) - z * w * (PE.num (3/8)))
@[simp] theorem K3pP_eval (v : ℕ → ℝ) (w z x : PE) : (K3pP w z x).eval v = K3pR (w.eval v) (z.eval v) (x.eval v) := by
  simp [K3pP, K3pR]

noncomputable def K4pR (w z x : ℝ) : ℝ := 1 - 2 * z * x * RR w + x ^ 2 * (z ^ 2 * (3/2) - z * (5 * w - z) * (1/6) - z * w * (1/2))
def K4pP (w z x : PE) : PE := (PE.num (1)) - (PE.num (2)) * z * x * RP w + x ^ 2 * (z ^ 2 * (PE.num (3/2)) - z * ((PE.num (5)) * w - z) * (PE.num (1/6)) - z * w * (PE.num (1/2)))
@[simp] theorem K4pP_eval (v : ℕ → ℝ) (w z x : PE) : (K4pP w z x).eval v = K4pR (w.eval v) (z.eval v) (x.eval v) := by
  simp [K4pP, K4pR]

noncomputable def D3pR (w z x : ℝ) : ℝ := 1 + x * ((w - z + eP2C * w ^ 2) * (1/2) - eC * z * w * (3/2)) + x ^ 2 * ((5 * w ^ 2 - 18 * (w * z) + z ^ 2) * (1/40) + (w - z) ^ 2 * (1/12))
def D3pP (w z x : PE) : PE := (PE.num (1)) + x * ((w - z + (PE.num (669438 / 99330562)) * w ^ 2) * (PE.num (1/2)) - (PE.num (669438 / 100000000)) * z * w * (PE.num (3/2))) + x ^ 2 * (((PE.num (5)) * w ^ 2 - (PE.num (18)) * (w * z) + z ^ 2) * (PE.num (1/40)) + (w - z) ^ 2 * (PE.num (1/12)))
@[simp] theorem D3pP_eval (v : ℕ → ℝ) (w z x : PE) : (D3pP w z x).eval v = D3pR (w.eval v) (z.eval v) (x.eval v) := by
  norm_num [D3pP, D3pR, eP2C, eC]

noncomputable def D5pR (w z x : ℝ) : ℝ := 1 + x * (w - z + eP2C * w ^ 2) * (5/6)
def D5pP (w z x : PE) : PE := (PE.num (1)) + x * (w - z + (PE.num (669438 / 99330562)) * w ^ 2) * (PE.num (5/6))
@[simp] theorem D5pP_eval (v : ℕ → ℝ) (w z x : PE) : (D5pP w z x).eval v = D5pR (w.eval v) (z.eval v) (x.eval v) := by
  simp [D5pP, D5pR, eP2C]

noncomputable def T1pR (z x : ℝ) : ℝ := 1 - z * x
def T1pP (z x : PE) : PE := (PE.num (1)) - z * x
@[simp] theorem T1pP_eval (v : ℕ → ℝ) (z x : PE) : (T1pP z x).eval v = T1pR (z.eval v) (x.eval v) := by
  simp [T1pP, T1pR]

noncomputable def spR (w z x : ℝ) : ℝ := 1 + w * g2R w z x - z * w * x ^ 2 * (1/8)
def spP (w z x : PE) : PE := (PE.num (1)) + w * g2P w z x - z * w * x ^ 2 * (PE.num (1/8))
@[simp] theorem spP_eval (v : ℕ → ℝ) (w z x : PE) : (spP w z x).eval v = spR (w.eval v) (z.eval v) (x.eval v) := by
  simp [spP, spR]

noncomputable def WpR (w z x : ℝ) : ℝ := nuPR w z x ^ 2 * spR w z x * DpR w z x ^ 2 * K2pR w z x
def WpP (w z x : PE) : PE := nuPP w z x ^ 2 * spP w z x * DpP w z x ^ 2 * K2pP w z x
@[simp] theorem WpP_eval (v : ℕ → ℝ) (w z x : PE) : (WpP w z x).eval v = WpR (w.eval v) (z.eval v) (x.eval v) := by
  simp [WpP, WpR]

noncomputable def V4pR (w z x : ℝ) : ℝ := 1 + x * (w * (1/2) + (w - z) * (2/3))
def V4pP (w z x : PE) : PE := (PE.num (1)) + x * (w * (PE.num (1/2)) + (w - z) * (PE.num (2/3)))
@[simp] theorem V4pP_eval (v : ℕ → ℝ) (w z x : PE) : (V4pP w z x).eval v = V4pR (w.eval v) (z.eval v) (x.eval v) := by
  simp [V4pP, V4pR]

noncomputable def lonER (K D T D3 K4 D5 T1 fe w x : ℝ) : ℝ := K4 * (D - K) - x * (1/6) * D3 * T * (2 - T * w + fe * T ^ 2 * w ^ 2) + x ^ 2 * (1/120) * D5 * (5 * T1 ^ 2 * w ^ 2 + 28 * ((1 - T1 * w) * T1 * w) + 24 * (1 - T1 * w) ^ 2 - 2 * fe * T1 ^ 3 * w ^ 3 - 3 * fe ^ 2 * T1 ^ 4 * w ^ 4 + 8 * eP2C * T1 ^ 2 * w ^ 2)
def lonEP (K D T D3 K4 D5 T1 fe w x : PE) : PE := K4 * (D - K) - x * (PE.num (1/6)) * D3 * T * ((PE.num (2)) - T * w + fe * T ^ 2 * w ^ 2) + x ^ 2 * (PE.num (1/120)) * D5 * ((PE.num (5)) * T1 ^ 2 * w ^ 2 + (PE.num (28)) * (((PE.num (1)) - T1 * w) * T1 * w) + (PE.num (24)) * ((PE.num (1)) - T1 * w) ^ 2 - (PE.num (2)) * fe * T1 ^ 3 * w ^ 3 - (PE.num (3)) * fe ^ 2 * T1 ^ 4 * w ^ 4 + (PE.num (8)) * (PE.num (669438 / 99330562)) * T1 ^ 2 * w ^ 2)
@[simp] theorem lonEP_eval (v : ℕ → ℝ) (K D T D3 K4 D5 T1 fe w x : PE) : (lonEP K D T D3 K4 D5 T1 fe w x).eval v = lonER (K.eval v) (D.eval v) (T.eval v) (D3.eval v) (K4.eval v) (D5.eval v) (T1.eval v) (fe.eval v) (w.eval v) (x.eval v) := by
  simp [lonEP, lonER, eP2C]

noncomputable def latBR (T1 fe w : ℝ) : ℝ := 3 + 2 * T1 * w + 10 * fe * T1 ^ 2 * w ^ 2 - 4 * fe ^ 2 * T1 ^ 3 * w ^ 3 - 9 * eP2C * T1 * w
def latBP (T1 fe w : PE) : PE := (PE.num (3)) + (PE.num (2)) * T1 * w + (PE.num (10)) * fe * T1 ^ 2 * w ^ 2 - (PE.num (4)) * fe ^ 2 * T1 ^ 3 * w ^ 3 - (PE.num (9)) * (PE.num (669438 / 99330562)) * T1 * w
@[simp] theorem latBP_eval (v : ℕ → ℝ) (T1 fe w : PE) : (latBP T1 fe w).eval v = latBR (T1.eval v) (fe.eval v) (w.eval v) := by
  simp [latBP, latBR, eP2C]

noncomputable def latER (K3 g W V T1 fe w x : ℝ) : ℝ := K3 * g - RR w * x * (1/2) * W + RR w * x ^ 2 * (1/24) * V * latBR T1 fe w
def latEP (K3 g W V T1 fe w x : PE) : PE := K3 * g - RP w * x * (PE.num (1/2)) * W + RP w * x ^ 2 * (PE.num (1/24)) * V * latBP T1 fe w
@[simp] theorem latEP_eval (v : ℕ → ℝ) (K3 g W V T1 fe w x : PE) : (latEP K3 g W V T1 fe w x).eval v = latER (K3.eval v) (g.eval v) (W.eval v) (V.eval v) (T1.eval v) (fe.eval v) (w.eval v) (x.eval v) := by
  simp [latEP, latER]

noncomputable def FnuR (K nu w z : ℝ) : ℝ := nu ^ 2 * (1 - eC * z) - (1 - eC + eC * K ^ 2 * w)
def FnuP (K nu w z : PE) : PE := nu ^ 2 * ((PE.num (1)) - (PE.num (669438 / 100000000)) * z) - ((PE.num (1)) - (PE.num (669438 / 100000000)) + (PE.num (669438 / 100000000)) * K ^ 2 * w)
@[simp] theorem FnuP_eval (v : ℕ → ℝ) (K nu w z : PE) : (FnuP K nu w z).eval v = FnuR (K.eval v) (nu.eval v) (w.eval v) (z.eval v) := by
  norm_num [FnuP, FnuR, eC]

noncomputable def lonMR (fe w x : ℝ) : ℝ := (eP2C - fe) * (1/6) * x * w ^ 2
def lonMP (fe w x : PE) : PE := ((PE.num (669438 / 99330562)) - fe) * (PE.num (1/6)) * x * w ^ 2
@[simp] theorem lonMP_eval (v : ℕ → ℝ) (fe w x : PE) : (lonMP fe w x).eval v = lonMR (fe.eval v) (w.eval v) (x.eval v) := by
  simp [lonMP, lonMR, eP2C]

noncomputable def prodWR (a b c d : ℝ) : ℝ := a ^ 2 * b * c ^ 2 * d
def prodWP (a b c d : PE) : PE := a ^ 2 * b * c ^ 2 * d
@[simp] theorem prodWP_eval (v : ℕ → ℝ) (a b c d : PE) : (prodWP a b c d).eval v = prodWR (a.eval v) (b.eval v) (c.eval v) (d.eval v) := by
  simp [prodWP, prodWR]

noncomputable def prodVR (a b c : ℝ) : ℝ := a ^ 2 * b * c ^ 4
def prodVP (a b c : PE) : PE := a ^ 2 * b * c ^ 4
@[simp] theorem prodVP_eval (v : ℕ → ℝ) (a b c : PE) : (prodVP a b c).eval v = prodVR (a.eval v) (b.eval v) (c.eval v) := by
  simp [prodVP, prodVR]

end GoGeo.Utm
