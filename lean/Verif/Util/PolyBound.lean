import Mathlib.Data.Real.Basic
import Mathlib.Algebra.Order.Ring.Abs
import Mathlib.Tactic.Ring
import Mathlib.Tactic.Linarith
import Mathlib.Tactic.LinearCombination

/-!
# Bounds of polynomials

A polynomial expression in bounded variables is multiplied out and its coefficients are summed up by the kernel.  This is a proof
device for the numerical estimates of utm.go; it models nothing.
-/

namespace GoGeo.PB

/-- polynomial expressions -/
inductive PE where
  | var (i : ℕ)
  | num (q : ℚ)
  | add (a b : PE)
  | sub (a b : PE)
  | mul (a b : PE)
  | pow (a : PE) (n : ℕ)

instance : Add PE := ⟨.add⟩
instance : Sub PE := ⟨.sub⟩
instance : Mul PE := ⟨.mul⟩
instance : HPow PE ℕ PE := ⟨.pow⟩

/-- the value of an expression -/
noncomputable def PE.eval (v : ℕ → ℝ) : PE → ℝ
  | .var i => v i
  | .num q => q
  | .add a b => a.eval v + b.eval v
  | .sub a b => a.eval v - b.eval v
  | .mul a b => a.eval v * b.eval v
  | .pow a n => a.eval v ^ n

section
variable (v : ℕ → ℝ) (a b : PE)

@[simp] theorem eval_add : (a + b).eval v = a.eval v + b.eval v := rfl
@[simp] theorem eval_sub : (a - b).eval v = a.eval v - b.eval v := rfl
@[simp] theorem eval_mul : (a * b).eval v = a.eval v * b.eval v := rfl
@[simp] theorem eval_pow (n : ℕ) : (a ^ n).eval v = a.eval v ^ n := rfl
@[simp] theorem eval_var (i : ℕ) : (PE.var i).eval v = v i := rfl
@[simp] theorem eval_num (q : ℚ) : (PE.num q).eval v = q := rfl
end

/-! ### normal form -/

/-- a sum of monomials: exponents and coefficient -/
abbrev Poly := List (List ℕ × ℚ)

noncomputable def mval (v : ℕ → ℝ) : ℕ → List ℕ → ℝ
  | _, [] => 1
  | i, e :: es => v i ^ e * mval v (i + 1) es

noncomputable def pval (v : ℕ → ℝ) : Poly → ℝ
  | [] => 0
  | (m, c) :: p => c * mval v 0 m + pval v p

def mmul : List ℕ → List ℕ → List ℕ
  | [], b => b
  | a :: as, [] => a :: as
  | a :: as, b :: bs => (a + b) :: mmul as bs

theorem mval_mmul (v : ℕ → ℝ) : ∀ (a b : List ℕ) (i : ℕ), mval v i (mmul a b) = mval v i a * mval v i b
  | [], b, i => by simp [mmul, mval]
  | a :: as, [], i => by simp [mmul, mval]
  | a :: as, b :: bs, i => by simp only [mmul, mval, mval_mmul v as bs, pow_add]; ring

def cmp : List ℕ → List ℕ → Ordering
  | [], [] => .eq
  | [], _ :: _ => .lt
  | _ :: _, [] => .gt
  | a :: as, b :: bs => if Nat.blt a b then .lt else if Nat.blt b a then .gt else cmp as bs

theorem cmp_eq : ∀ {a b : List ℕ}, cmp a b = .eq → a = b
  | [], [], _ => rfl
  | [], _ :: _, h => by simp [cmp] at h
  | _ :: _, [], h => by simp [cmp] at h
  | a :: as, b :: bs, h => by
    rw [cmp] at h
    split at h
    · cases h
    · split at h
      · cases h
      · rw [cmp_eq h]
        simp only [Nat.blt_eq] at *
        rw [show a = b by omega]

def padd : ℕ → Poly → Poly → Poly
  | 0, p, q => p ++ q
  | _ + 1, [], q => q
  | _ + 1, t :: p, [] => t :: p
  | n + 1, (m, c) :: p, (m', c') :: q =>
    match cmp m m' with
    | .lt => (m, c) :: padd n p ((m', c') :: q)
    | .gt => (m', c') :: padd n ((m, c) :: p) q
    | .eq => if c + c' = 0 then padd n p q else (m, c + c') :: padd n p q

theorem pval_append (v : ℕ → ℝ) : ∀ p q : Poly, pval v (p ++ q) = pval v p + pval v q
  | [], q => by simp [pval]
  | (m, c) :: p, q => by simp only [List.cons_append, pval, pval_append v p q]; ring

theorem pval_padd (v : ℕ → ℝ) : ∀ (n : ℕ) (p q : Poly), pval v (padd n p q) = pval v p + pval v q
  | 0, p, q => by simp [padd, pval_append]
  | n + 1, [], q => by simp [padd, pval]
  | n + 1, t :: p, [] => by simp [padd, pval]
  | n + 1, (m, c) :: p, (m', c') :: q => by
    rw [padd]
    split
    · simp only [pval, pval_padd v n p]; ring
    · simp only [pval, pval_padd v n _ q]; ring
    · rename_i h
      cases cmp_eq h
      split
      · rename_i h0
        have : (c : ℝ) + c' = 0 := by exact_mod_cast h0
        simp only [pval, pval_padd v n]
        linear_combination (-mval v 0 m) * this
      · simp only [pval, pval_padd v n]; push_cast; ring

def pscale (m : List ℕ) (c : ℚ) : Poly → Poly
  | [] => []
  | (m', c') :: p => (mmul m m', c * c') :: pscale m c p

theorem pval_pscale (v : ℕ → ℝ) (m : List ℕ) (c : ℚ) : ∀ p : Poly, pval v (pscale m c p) = c * mval v 0 m * pval v p
  | [] => by simp [pscale, pval]
  | (m', c') :: p => by simp only [pscale, pval, pval_pscale v m c p, mval_mmul]; push_cast; ring

def pmul : Poly → Poly → Poly
  | [], _ => []
  | (m, c) :: p, q =>
    let a := pscale m c q
    let b := pmul p q
    padd (a.length + b.length) a b

theorem pval_pmul (v : ℕ → ℝ) : ∀ p q : Poly, pval v (pmul p q) = pval v p * pval v q
  | [], q => by simp [pmul, pval]
  | (m, c) :: p, q => by simp only [pmul, pval_padd, pval_pscale, pval, pval_pmul v p q]; ring

def ppow (p : Poly) : ℕ → Poly
  | 0 => [([], 1)]
  | n + 1 => pmul (ppow p n) p

theorem pval_ppow (v : ℕ → ℝ) (p : Poly) : ∀ n, pval v (ppow p n) = pval v p ^ n
  | 0 => by simp [ppow, pval, mval]
  | n + 1 => by simp only [ppow, pval_pmul, pval_ppow v p n, pow_succ]

def vmono : ℕ → List ℕ
  | 0 => [1]
  | n + 1 => 0 :: vmono n

theorem mval_vmono (v : ℕ → ℝ) : ∀ (n i : ℕ), mval v i (vmono n) = v (i + n)
  | 0, i => by simp [vmono, mval]
  | n + 1, i => by simp only [vmono, mval, pow_zero, one_mul, mval_vmono v n]; congr 1; omega

def PE.norm : PE → Poly
  | .var i => [(vmono i, 1)]
  | .num q => if q = 0 then [] else [([], q)]
  | .add a b => let p := a.norm; let q := b.norm; padd (p.length + q.length) p q
  | .sub a b => let p := a.norm; let q := pscale [] (-1) b.norm; padd (p.length + q.length) p q
  | .mul a b => pmul a.norm b.norm
  | .pow a n => ppow a.norm n

theorem pval_norm (v : ℕ → ℝ) : ∀ E : PE, pval v E.norm = E.eval v
  | .var i => by simp [PE.norm, pval, mval_vmono, PE.eval]
  | .num q => by
    rw [PE.norm]
    split
    · rename_i h; simp [pval, PE.eval, h]
    · simp [pval, mval, PE.eval]
  | .add a b => by simp only [PE.norm, pval_padd, pval_norm v a, pval_norm v b, PE.eval]
  | .sub a b => by
    simp only [PE.norm, pval_padd, pval_pscale, pval_norm v a, pval_norm v b, PE.eval, mval]
    push_cast
    ring
  | .mul a b => by simp only [PE.norm, pval_pmul, pval_norm v a, pval_norm v b, PE.eval]
  | .pow a n => by simp only [PE.norm, pval_ppow, pval_norm v a, PE.eval]

/-! ### the bound -/

def mbound : List ℚ → List ℕ → ℚ
  | _, [] => 1
  | [], e :: es => 0 ^ e * mbound [] es
  | b :: bs, e :: es => b ^ e * mbound bs es

def qabs (q : ℚ) : ℚ := if q < 0 then -q else q

theorem qabs_eq (q : ℚ) : qabs q = |q| := by
  unfold qabs
  split
  · rename_i h; rw [abs_of_neg h]
  · rename_i h; rw [abs_of_nonneg (not_lt.1 h)]

def pbound (b : List ℚ) : Poly → ℚ
  | [] => 0
  | (m, c) :: p => qabs c * mbound b m + pbound b p

/-- the variables are bounded by the numbers in the list, and zero beyond it -/
def Within : List ℝ → List ℚ → Prop
  | [], [] => True
  | x :: xs, b :: bs => |x| ≤ (b : ℝ) ∧ Within xs bs
  | _, _ => False

/-- the variables of a list -/
def env (l : List ℝ) (i : ℕ) : ℝ := l.getD i 0

theorem mval_shift (v v' : ℕ → ℝ) : ∀ (m : List ℕ) (i j : ℕ), (∀ k, v (i + k) = v' (j + k)) → mval v i m = mval v' j m
  | [], _, _, _ => rfl
  | e :: es, i, j, h => by
    have h0 := h 0
    simp only [add_zero] at h0
    rw [mval, mval, h0, mval_shift v v' es (i + 1) (j + 1) (fun k => by have := h (k + 1); rw [show i + 1 + k = i + (k + 1) by omega, show j + 1 + k = j + (k + 1) by omega]; exact this)]

theorem mval_bound : ∀ (l : List ℝ) (b : List ℚ) (m : List ℕ), Within l b → |mval (env l) 0 m| ≤ ((mbound b m : ℚ) : ℝ)
  | _, _, [], _ => by simp [mval, mbound]
  | [], [], e :: es, h => by
    have ih := mval_bound [] [] es h
    rw [mval, mbound, mval_shift _ (env []) es (0 + 1) 0 (fun k => by simp [env]), abs_mul]
    push_cast
    refine mul_le_mul ?_ ih (abs_nonneg _) (by positivity)
    simp [env, abs_pow]
  | x :: xs, b :: bs, e :: es, h => by
    have ih := mval_bound xs bs es h.2
    rw [mval, mbound, mval_shift _ (env xs) es (0 + 1) 0 (fun k => by rw [show 0 + 1 + k = k + 1 by omega]; simp [env]), abs_mul]
    push_cast
    refine mul_le_mul ?_ ih (abs_nonneg _) (pow_nonneg ((abs_nonneg _).trans h.1) _)
    rw [abs_pow]
    exact pow_le_pow_left₀ (abs_nonneg _) h.1 _
  | [], _ :: _, _ :: _, h => h.elim
  | _ :: _, [], _ :: _, h => h.elim

theorem pval_bound {l : List ℝ} {b : List ℚ} (h : Within l b) : ∀ p : Poly, |pval (env l) p| ≤ ((pbound b p : ℚ) : ℝ)
  | [] => by simp [pval, pbound]
  | (m, c) :: p => by
    rw [pval, pbound, qabs_eq]
    refine (abs_add_le _ _).trans ?_
    push_cast
    refine add_le_add ?_ (pval_bound h p)
    rw [abs_mul]
    exact mul_le_mul le_rfl (mval_bound l b m h) (abs_nonneg _) (abs_nonneg _)

/-- **The bound of an expression**, checked by computation. -/
theorem PE.bound {l : List ℝ} {b : List ℚ} (h : Within l b) (E : PE) (ε : ℚ) (hE : pbound b E.norm ≤ ε) : |E.eval (env l)| ≤ (ε : ℝ) := by
  rw [← pval_norm]
  exact (pval_bound h _).trans (by exact_mod_cast hE)

end GoGeo.PB
