import Verif.Props.RoundingArea

/-!
# Centroids as computed with rounding: C119
-/
set_option linter.unusedSectionVars false
set_option exponentiation.threshold 2000

namespace GoGeo
open GoFloat FloatVal Spec

section
variable {F K : Type} [GoFloat F] [Field K] [LinearOrder K] [IsStrictOrderedRing K] [FloatVal F K] [FloatErr F K]

/-- a sum of up to 2^20 terms -/
theorem sum_near {α β : Type} {f : α → F} {t : β → K} {b τ : K} (hb1 : 1 ≤ b) (hb2 : b ≤ 2 ^ 220) (hτ0 : 0 ≤ τ) (hτ : τ ≤ 100 * b) {L : List α} {E : List β}
    (h : List.Forall₂ (fun a e => Near (f a) (t e) (τ / 2 ^ 53) ∧ |t e| ≤ b) L E) :
    ∀ {s : F} {S : K} {k : ℕ}, k + E.length ≤ 2 ^ 20 → Near s S ((b * ((k : K) ^ 2 + k) + k * τ) / 2 ^ 53) → |S| ≤ k * b →
    Near (L.foldl (fun s a => s + f a) s) (S + (E.map t).sum) ((b * (((k + E.length : ℕ) : K) ^ 2 + (k + E.length : ℕ)) + (k + E.length : ℕ) * τ) / 2 ^ 53) ∧
      |S + (E.map t).sum| ≤ (k + E.length : ℕ) * b := by
  induction h with
  | nil => intro s S k _ hs hS; simpa using ⟨hs, hS⟩
  | @cons a e L E hab _ ih =>
    intro s S k hk hs hS
    have hk' : k + 1 ≤ 2 ^ 20 := by simp at hk; omega
    have hkK : (k : K) ≤ 2 ^ 20 := by exact_mod_cast (by omega : k ≤ 2 ^ 20)
    have hk0 : (0 : K) ≤ k := Nat.cast_nonneg k
    have t1 := abs_add_le S (t e)
    have small : (b * ((k : K) ^ 2 + k) + k * τ) / 2 ^ 53 + τ / 2 ^ 53 ≤ b / 1000 := by
      have h1 : (k : K) ^ 2 ≤ 2 ^ 20 * 2 ^ 20 := by rw [sq]; exact mul_le_mul hkK hkK hk0 (by positivity)
      have h2 : b * ((k : K) ^ 2 + k) ≤ b * (2 ^ 40 + 2 ^ 20) := by
        apply mul_le_mul_of_nonneg_left _ (by linarith)
        exact add_le_add (h1.trans (by norm_num)) hkK
      have h3 : (k : K) * τ ≤ 2 ^ 20 * (100 * b) := mul_le_mul hkK hτ hτ0 (by positivity)
      rw [← add_div, div_le_div_iff₀ (by positivity) (by positivity)]
      generalize b * ((k : K) ^ 2 + k) = A at *
      generalize (k : K) * τ = B at *
      norm_num at h2 h3 ⊢
      linarith
    have kb : (k : K) * b ≤ 2 ^ 240 := by
      calc (k : K) * b ≤ 2 ^ 20 * 2 ^ 220 := mul_le_mul hkK hb2 (by linarith) (by positivity)
        _ = 2 ^ 240 := by norm_num
    have hn := hs.add hab.1 (B := (k * b + b) + b / 1000) (by linarith [hab.2]) (by norm_num at kb hb2 ⊢; linarith)
    have := ih (s := s + f a) (S := S + t e) (k := k + 1) (by simp at hk; omega) (hn.mono ?_) (by push_cast; linarith [hab.2])
    · rw [List.foldl_cons, List.map_cons, List.sum_cons, List.length_cons, ← add_assoc S, show k + (E.length + 1) = k + 1 + E.length by omega]
      exact this
    · push_cast
      have e1 : (b * (((k : K) + 1) ^ 2 + (k + 1)) + (k + 1) * τ) / 2 ^ 53 = (b * ((k : K) ^ 2 + k) + k * τ) / 2 ^ 53 + τ / 2 ^ 53 + 2 * (k * b + b) / 2 ^ 53 := by ring
      rw [e1]
      have kb0 : 0 ≤ (k : K) * b := mul_nonneg hk0 (by linarith)
      generalize (b * ((k : K) ^ 2 + k) + k * τ) / 2 ^ 53 = A at *
      generalize (k : K) * b = kb at *
      norm_num at *
      linarith

/-- the term of the area -/
def sgnTerm (pq : Point F × Point F) : F := pq.1.X * pq.2.Y - pq.2.X * pq.1.Y

theorem sgnTerm_near {M Q : K} (hQ : Q = M * M) (h1 : 1 ≤ M) (h2 : M ≤ 2 ^ 60) {pq : Point F × Point F} {e : (K × K) × (K × K)}
    (hp : At pq.1 e.1 ∧ Within M e.1) (hq : At pq.2 e.2 ∧ Within M e.2) : Near (sgnTerm pq) (cross e.1 e.2) (5 * Q / 2 ^ 53) ∧ |cross e.1 e.2| ≤ 2 * Q := by
  obtain ⟨⟨px, py⟩, bx, by'⟩ := hp
  obtain ⟨⟨qx, qy⟩, cx, cy⟩ := hq
  have hQ1 : 1 ≤ Q := by rw [hQ]; nlinarith
  have hQ2 : Q ≤ 2 ^ 120 := by
    rw [hQ]
    calc M * M ≤ 2 ^ 60 * 2 ^ 60 := mul_le_mul h2 h2 (by linarith) (by positivity)
      _ = 2 ^ 120 := by norm_num
  have m1 := (Near.of_val px).mul (Near.of_val qy) bx cy (B := Q) (by rw [hQ]; linarith) (by norm_num at *; linarith)
  have m2 := (Near.of_val qx).mul (Near.of_val py) cx by' (B := Q) (by rw [hQ]; linarith) (by norm_num at *; linarith)
  have x1 : |e.1.1 * e.2.2| ≤ Q := by rw [hQ, abs_mul]; exact mul_le_mul bx cy (abs_nonneg _) (by linarith)
  have x2 : |e.2.1 * e.1.2| ≤ Q := by rw [hQ, abs_mul]; exact mul_le_mul cx by' (abs_nonneg _) (by linarith)
  have t1 := abs_sub (e.1.1 * e.2.2) (e.2.1 * e.1.2)
  have ee : e.1.1 * e.2.2 - e.2.1 * e.1.2 = cross e.1 e.2 := by unfold cross; ring
  have n := m1.sub m2 (B := 2 * Q + Q / 1000) (by norm_num at *; linarith) (by norm_num at *; linarith)
  rw [ee] at n t1
  refine ⟨n.mono ?_, by linarith⟩
  norm_num at *
  linarith

theorem momTerm_near {M Q : K} (hQ : Q = M * M) (h1 : 1 ≤ M) (h2 : M ≤ 2 ^ 60) {pq : Point F × Point F} {e : (K × K) × (K × K)}
    (hp : At pq.1 e.1 ∧ Within M e.1) (hq : At pq.2 e.2 ∧ Within M e.2) {f g : F} {x y : K} (hf : val f = .fin x) (hg : val g = .fin y) (bx : |x| ≤ M) (by' : |y| ≤ M) :
    Near ((f + g) * sgnTerm pq) ((x + y) * cross e.1 e.2) (20 * (Q * M) / 2 ^ 53) ∧ |(x + y) * cross e.1 e.2| ≤ 4 * (Q * M) := by
  obtain ⟨n, hn⟩ := sgnTerm_near hQ h1 h2 hp hq
  have hQ1 : 1 ≤ Q := by rw [hQ]; nlinarith
  have hQ2 : Q ≤ 2 ^ 120 := by
    rw [hQ]
    calc M * M ≤ 2 ^ 60 * 2 ^ 60 := mul_le_mul h2 h2 (by linarith) (by positivity)
      _ = 2 ^ 120 := by norm_num
  have hxy : |x + y| ≤ 2 * M := (abs_add_le x y).trans (by linarith)
  have a := (Near.of_val hf).add (Near.of_val hg) (B := 2 * M) (by simpa using hxy) (by norm_num at *; linarith)
  have a' := a.mono (e' := 2001 / 1000 * M / 2 ^ 53) (by norm_num; linarith)
  have QM1 : 1 ≤ Q * M := by nlinarith
  have QM2 : Q * M ≤ 2 ^ 180 := by
    calc Q * M ≤ 2 ^ 120 * 2 ^ 60 := mul_le_mul hQ2 h2 (by linarith) (by positivity)
      _ = 2 ^ 180 := by norm_num
  have e0 : 2 * M * (5 * Q / 2 ^ 53) + 2 * Q * (2001 / 1000 * M / 2 ^ 53) + 2001 / 1000 * M / 2 ^ 53 * (5 * Q / 2 ^ 53) ≤ 15 * (Q * M) / 2 ^ 53 := by
    have : 2 * M * (5 * Q / 2 ^ 53) + 2 * Q * (2001 / 1000 * M / 2 ^ 53) + 2001 / 1000 * M / 2 ^ 53 * (5 * Q / 2 ^ 53) =
      (14002 / 1000 / 2 ^ 53 + 2001 / 1000 / 2 ^ 53 * (5 / 2 ^ 53)) * (Q * M) := by ring
    rw [this]
    have : 15 * (Q * M) / 2 ^ 53 = (15 / 2 ^ 53) * (Q * M) := by ring
    rw [this]
    apply mul_le_mul_of_nonneg_right _ (by linarith)
    norm_num
  have m := a'.mul n hxy hn (B := 4 * (Q * M) + (Q * M) / 1000) (by
    have : 2 * M * (2 * Q) = 4 * (Q * M) := by ring
    rw [this]
    generalize Q * M = R at *
    norm_num at e0 ⊢
    linarith) (by generalize Q * M = R at *; norm_num at *; linarith)
  refine ⟨m.mono ?_, ?_⟩
  · generalize Q * M = R at *
    norm_num at e0 ⊢
    linarith
  · rw [abs_mul]
    calc |x + y| * |cross e.1 e.2| ≤ 2 * M * (2 * Q) := mul_le_mul hxy hn (abs_nonneg _) (by linarith)
      _ = 4 * (Q * M) := by ring

theorem centroid_fold3 (L : List (Point F × Point F)) : ∀ a b c : F, L.foldl centroidStep (a, b, c) =
    (L.foldl (fun s pq => s + (pq.1.X + pq.2.X) * sgnTerm pq) a, L.foldl (fun s pq => s + (pq.1.Y + pq.2.Y) * sgnTerm pq) b, L.foldl (fun s pq => s + sgnTerm pq) c) := by
  induction L with
  | nil => intros; rfl
  | cons pq L ih => intro a b c; rw [List.foldl_cons, List.foldl_cons, List.foldl_cons, List.foldl_cons]; exact ih _ _ _

theorem rnd_rel {x : K} (h1 : 1 / 2 ^ 900 ≤ |x|) (h2 : |x| ≤ 2 ^ 1000) : ∃ d : K, |d| ≤ 1 / 2 ^ 52 ∧ rnd F (.fin x) = .fin (x * (1 + d)) := by
  obtain ⟨y, e, h⟩ := FloatErr.rnd_err (F := F) x (h2.trans (pow_le_pow_right₀ one_le_two (by norm_num)))
  have h0 : 0 < |x| := lt_of_lt_of_le (by positivity) h1
  have hx : x ≠ 0 := abs_pos.1 h0
  refine ⟨(y - x) / x, ?_, ?_⟩
  · rw [abs_div, div_le_iff₀ h0]
    have t : (1 : K) / 2 ^ 1075 ≤ |x| / 2 ^ 53 := by
      have : (1 : K) / 2 ^ 1075 ≤ (1 / 2 ^ 900) / 2 ^ 53 := by norm_num
      exact this.trans (div_le_div_of_nonneg_right h1 (by positivity))
    have : 1 / 2 ^ 52 * |x| = |x| / 2 ^ 53 + |x| / 2 ^ 53 := by ring
    linarith
  · rw [e]; congr 1; field_simp; ring

/-- the factor the sums of the centroid are multiplied by -/
theorem recip_val {s : F} {r : K} (hs : val s = .fin r) (h1 : 1 / 2 ^ 100 ≤ |r|) (h2 : |r| ≤ 2 ^ 200) :
    ∃ η : K, |η| ≤ 4 / 2 ^ 52 ∧ val (lit 1 / (lit 6 * s / lit 2)) = .fin ((1 + η) / (3 * r)) := by
  have v1 : val (lit 1 : F) = .fin (1 : K) := by simpa using fval_nat (F := F) (K := K) 1 (by norm_num)
  have v2 : val (lit 2 : F) = .fin (2 : K) := by simpa using fval_nat (F := F) (K := K) 2 (by norm_num)
  have v6 : val (lit 6 : F) = .fin (6 : K) := by simpa using fval_nat (F := F) (K := K) 6 (by norm_num)
  have r0 : 0 < |r| := lt_of_lt_of_le (by positivity) h1
  have hr : r ≠ 0 := abs_pos.1 r0
  have a6 : |6 * r| = 6 * |r| := by rw [abs_mul, abs_of_pos (by norm_num)]
  have l900 : (1 : K) / 2 ^ 900 ≤ 1 / 2 ^ 100 / 2 := by norm_num
  have l1000 : (12 : K) * 2 ^ 200 ≤ 2 ^ 1000 := by norm_num
  obtain ⟨d1, b1, e1⟩ := rnd_rel (F := F) (x := 6 * r) (by rw [a6]; linarith) (by rw [a6]; linarith)
  have w1 : val (lit 6 * s : F) = .fin (6 * r * (1 + d1)) := by rw [val_mul, v6, hs]; exact e1
  have c1 := abs_le.1 b1
  have p1 : (1 : K) / 2 ≤ 1 + d1 := by norm_num at c1 ⊢; linarith [c1.1]
  have p1' : 1 + d1 ≤ 2 := by norm_num at c1 ⊢; linarith [c1.2]
  have a3 : |6 * r * (1 + d1) / 2| = 3 * |r| * (1 + d1) := by
    rw [abs_div, abs_mul, a6, abs_two, abs_of_pos (show 0 < 1 + d1 by linarith)]; ring
  have q3 : |r| ≤ 3 * |r| * (1 + d1) := by nlinarith
  have q3' : 3 * |r| * (1 + d1) ≤ 6 * |r| := by nlinarith
  obtain ⟨d2, b2, e2⟩ := rnd_rel (F := F) (x := 6 * r * (1 + d1) / 2) (by rw [a3]; linarith) (by rw [a3]; linarith)
  have w2 : val (lit 6 * s / lit 2 : F) = .fin (6 * r * (1 + d1) / 2 * (1 + d2)) := by
    rw [val_div _ _ (by rw [v2]; simp), w1, v2, ← e2]
    simp [XR.div]
  have c2 := abs_le.1 b2
  have p2 : (1 : K) / 2 ≤ 1 + d2 := by norm_num at c2 ⊢; linarith [c2.1]
  have p2' : 1 + d2 ≤ 2 := by norm_num at c2 ⊢; linarith [c2.2]
  generalize hw : 6 * r * (1 + d1) / 2 * (1 + d2) = w at w2
  have aw : |w| = 3 * |r| * (1 + d1) * (1 + d2) := by rw [← hw, abs_mul, a3, abs_of_pos (show 0 < 1 + d2 by linarith)]
  have w_lo : |r| / 2 ≤ |w| := by rw [aw]; nlinarith
  have w_hi : |w| ≤ 12 * |r| := by rw [aw]; nlinarith
  have w_pos : 0 < |w| := by linarith
  have w0 : w ≠ 0 := abs_pos.1 w_pos
  obtain ⟨d3, b3, e3⟩ := rnd_rel (F := F) (x := 1 / w) (by
      rw [abs_div, abs_one]
      apply one_div_le_one_div_of_le w_pos
      have : (12 : K) * 2 ^ 200 ≤ 2 ^ 900 := by norm_num
      linarith) (by
      rw [abs_div, abs_one, div_le_iff₀ w_pos]
      have : (1 : K) ≤ 2 ^ 1000 * (1 / 2 ^ 100 / 2) := by norm_num
      refine this.trans (mul_le_mul_of_nonneg_left (by linarith) (by positivity)))
  have c3 := abs_le.1 b3
  have w3 : val (lit 1 / (lit 6 * s / lit 2) : F) = .fin (1 / w * (1 + d3)) := by
    rw [val_div _ _ (by rw [w2]; simpa using w0), w2, v1, ← e3]
    simp [XR.div, w0]
  refine ⟨(1 + d3) / ((1 + d1) * (1 + d2)) - 1, ?_, ?_⟩
  · have hp : 0 < (1 + d1) * (1 + d2) := by positivity
    have hq : (1 - 5 / 2 / 2 ^ 52 : K) ≤ (1 + d1) * (1 + d2) := by
      have : d1 * d2 ≥ -(1 / 2 ^ 52 * (1 / 2 ^ 52)) := by
        have := mul_le_mul b1 b2 (abs_nonneg _) (by positivity)
        rw [← abs_mul] at this
        linarith [(abs_le.1 this).1]
      have e : (1 + d1) * (1 + d2) = 1 + d1 + d2 + d1 * d2 := by ring
      rw [e]
      norm_num at *
      linarith [c1.1, c2.1]
    have hq' : (1 + d1) * (1 + d2) ≤ (1 + 5 / 2 / 2 ^ 52 : K) := by
      have : d1 * d2 ≤ (1 / 2 ^ 52 * (1 / 2 ^ 52)) := by
        have := mul_le_mul b1 b2 (abs_nonneg _) (by positivity)
        rw [← abs_mul] at this
        linarith [(abs_le.1 this).2]
      have e : (1 + d1) * (1 + d2) = 1 + d1 + d2 + d1 * d2 := by ring
      rw [e]
      norm_num at *
      linarith [c1.2, c2.2]
    generalize (1 + d1) * (1 + d2) = D at *
    have e : (1 + d3) / D - 1 = (1 + d3 - D) / D := by field_simp
    rw [e, abs_div, abs_of_pos hp, div_le_iff₀ hp]
    rw [abs_le]
    norm_num at *
    constructor <;> linarith [c3.1, c3.2]
  · rw [w3, ← hw]
    congr 1
    have n1 : 1 + d1 ≠ 0 := by linarith
    have n2 : 1 + d2 ≠ 0 := by linarith
    field_simp
    ring

theorem centroidMul_near {x s : F} {z r : K} (hx : val x = .fin z) (hs : val s = .fin r) (h1 : 1 / 2 ^ 100 ≤ |r|) (h2 : |r| ≤ 2 ^ 200) (hz : |z| ≤ 2 ^ 300) :
    ∃ v : K, val (x * (lit 1 / (lit 6 * s / lit 2))) = .fin v ∧ |v - z / (3 * r)| ≤ |z / (3 * r)| * (5 / 2 ^ 52) + 1 / 2 ^ 1075 := by
  obtain ⟨η, hη, e⟩ := recip_val hs h1 h2
  have r0 : 0 < |r| := lt_of_lt_of_le (by positivity) h1
  have hr : r ≠ 0 := abs_pos.1 r0
  have e1 : z * ((1 + η) / (3 * r)) = z / (3 * r) * (1 + η) := by ring
  have aT : |z / (3 * r)| ≤ 2 ^ 400 := by
    rw [abs_div, abs_mul, abs_of_pos (show (0 : K) < 3 by norm_num), div_le_iff₀ (by positivity)]
    have : (2 : K) ^ 300 ≤ 2 ^ 400 * (3 * (1 / 2 ^ 100)) := by norm_num
    refine hz.trans (this.trans (mul_le_mul_of_nonneg_left (by linarith) (by positivity)))
  have a1 : |1 + η| ≤ 1 + 4 / 2 ^ 52 := (abs_add_le _ _).trans (by rw [abs_one]; linarith)
  have aT' : |z / (3 * r) * (1 + η)| ≤ |z / (3 * r)| * (1 + 4 / 2 ^ 52) := by
    rw [abs_mul]; exact mul_le_mul_of_nonneg_left a1 (abs_nonneg _)
  obtain ⟨v, ev, hv⟩ := FloatErr.rnd_err (F := F) (z * ((1 + η) / (3 * r))) (by
    rw [e1]
    refine aT'.trans ?_
    calc |z / (3 * r)| * (1 + 4 / 2 ^ 52) ≤ 2 ^ 400 * 2 := mul_le_mul aT (by norm_num) (by norm_num) (by positivity)
      _ ≤ 2 ^ 1023 := by norm_num)
  refine ⟨v, by rw [val_mul, hx, e]; exact ev, ?_⟩
  rw [e1] at hv
  have t : v - z / (3 * r) = (v - z / (3 * r) * (1 + η)) + z / (3 * r) * η := by ring
  rw [t]
  refine (abs_add_le _ _).trans ?_
  have t2 : |z / (3 * r) * η| ≤ |z / (3 * r)| * (4 / 2 ^ 52) := by rw [abs_mul]; exact mul_le_mul_of_nonneg_left hη (abs_nonneg _)
  have t0 := abs_nonneg (z / (3 * r))
  generalize |z / (3 * r)| = T at *
  generalize (1 : K) / 2 ^ 1075 = tiny at *
  generalize |z / (3 * r) * (1 + η)| = T' at *
  norm_num at aT' hv t2 ⊢
  linarith

theorem quot_close {s S x X eS eX : K} (hS : S ≠ 0) (hs : |s - S| ≤ eS) (hx : |x - X| ≤ eX) (h8 : eS ≤ |S| / 8) :
    7 / 8 * |S| ≤ |s| ∧ |s| ≤ 9 / 8 * |S| ∧ |x / (3 * s) - X / (3 * S)| ≤ 8 / 21 * (eX + 3 * |X / (3 * S)| * eS) / |S| := by
  have S0 := abs_pos.2 hS
  have l : 7 / 8 * |S| ≤ |s| := by
    have := abs_sub_abs_le_abs_sub S s
    rw [abs_sub_comm] at this
    linarith
  have u : |s| ≤ 9 / 8 * |S| := by
    have := abs_sub_abs_le_abs_sub s S
    linarith
  have s0 : 0 < |s| := by linarith
  have hs0 : s ≠ 0 := abs_pos.1 s0
  refine ⟨l, u, ?_⟩
  have e : x / (3 * s) - X / (3 * S) = ((x - X) + X / (3 * S) * (3 * (S - s))) / (3 * s) := by field_simp; ring
  have num : |(x - X) + X / (3 * S) * (3 * (S - s))| ≤ eX + 3 * |X / (3 * S)| * eS := by
    refine (abs_add_le _ _).trans ?_
    rw [abs_mul, abs_mul, abs_of_pos (show (0 : K) < 3 by norm_num), abs_sub_comm S s]
    have := mul_le_mul_of_nonneg_left hs (abs_nonneg (X / (3 * S)))
    linarith
  rw [e, abs_div, abs_mul, abs_of_pos (show (0 : K) < 3 by norm_num)]
  have n0 := (abs_nonneg _).trans num
  generalize eX + 3 * |X / (3 * S)| * eS = N at *
  rw [div_le_div_iff₀ (by positivity) S0]
  calc _ ≤ N * |S| := mul_le_mul_of_nonneg_right num S0.le
    _ = 8 / 21 * N * (3 * (7 / 8 * |S|)) := by ring
    _ ≤ _ := mul_le_mul_of_nonneg_left (by linarith) (by linarith)

/-- the bound of one coordinate -/
theorem centroid_bound {n Q M S s x X v : K} (hn1 : 1 ≤ n) (hn2 : n ≤ 2 ^ 20) (hM : 1 ≤ M) (hQ : 1 ≤ Q) (hS : |S| ≤ 2 * n * Q) (hS0 : S ≠ 0)
    (hs : |s - S| ≤ (2 * n ^ 2 + 7 * n) * Q / 2 ^ 53) (hx : |x - X| ≤ (4 * n ^ 2 + 24 * n) * (Q * M) / 2 ^ 53) (h8 : n * (n + 8) * Q ≤ |S| / 2 * 2 ^ 50)
    (hv : |v - x / (3 * s)| ≤ |x / (3 * s)| * (5 / 2 ^ 52) + 1 / 2 ^ 1075) :
    |v - X / (3 * S)| ≤ 2 * n * (n + 8) * Q * (M + |X / (3 * S)|) / (|S| / 2) / 2 ^ 53 := by
  have S0 := abs_pos.2 hS0
  have h8' : (2 * n ^ 2 + 7 * n) * Q / 2 ^ 53 ≤ |S| / 8 := by
    rw [div_le_iff₀ (by positivity)]
    have e : (2 * n ^ 2 + 7 * n) * Q = 2 * (n * (n + 8) * Q) - 9 * (n * Q) := by ring
    have : 0 ≤ n * Q := by positivity
    rw [e]
    generalize n * (n + 8) * Q = A at *
    norm_num at h8 ⊢
    linarith
  obtain ⟨_, _, h⟩ := quot_close hS0 hs hx h8'
  generalize hC : |X / (3 * S)| = C at *
  have C0 : 0 ≤ C := hC ▸ abs_nonneg _
  obtain ⟨W, hW⟩ : ∃ W, W = Q / |S| := ⟨_, rfl⟩
  have W0 : 0 < W := by rw [hW]; positivity
  have nW : 1 ≤ 2 * (n * W) := by
    rw [hW]
    have : 2 * (n * (Q / |S|)) = 2 * n * Q / |S| := by ring
    rw [this, le_div_iff₀ S0]; linarith
  have e1 : 8 / 21 * ((4 * n ^ 2 + 24 * n) * (Q * M) / 2 ^ 53 + 3 * C * ((2 * n ^ 2 + 7 * n) * Q / 2 ^ 53)) / |S| =
      n * W * (8 / 21 * ((4 * n + 24) * M + 3 * (2 * n + 7) * C)) / 2 ^ 53 := by rw [hW]; ring
  have e2 : 2 * n * (n + 8) * Q * (M + C) / (|S| / 2) / 2 ^ 53 = n * W * ((4 * n + 32) * (M + C)) / 2 ^ 53 := by rw [hW]; field_simp; ring
  rw [e1] at h
  rw [e2]
  have nC : 0 ≤ n * C := by positivity
  have nM : 0 ≤ n * M := by positivity
  have b1 : 8 / 21 * ((4 * n + 24) * M + 3 * (2 * n + 7) * C) ≤ (23 / 10 * n + 92 / 10) * (M + C) := by
    have : (23 / 10 * n + 92 / 10) * (M + C) - 8 / 21 * ((4 * n + 24) * M + 3 * (2 * n + 7) * C) = (23 / 10 - 32 / 21) * (n * M) + (23 / 10 - 48 / 21) * (n * C) + (92 / 10 - 192 / 21) * M + (92 / 10 - 8) * C := by ring
    have : 0 ≤ (23 / 10 - 32 / 21) * (n * M) + (23 / 10 - 48 / 21) * (n * C) + (92 / 10 - 192 / 21) * M + (92 / 10 - 8) * C := by
      have : (0 : K) ≤ 23 / 10 - 32 / 21 := by norm_num
      have : (0 : K) ≤ 23 / 10 - 48 / 21 := by norm_num
      have : (0 : K) ≤ 92 / 10 - 192 / 21 := by norm_num
      have : (0 : K) ≤ 92 / 10 - 8 := by norm_num
      positivity
    linarith
  have b2 := mul_le_mul_of_nonneg_left b1 (show 0 ≤ n * W by positivity)
  have d1 : |x / (3 * s) - X / (3 * S)| ≤ n * W * ((23 / 10 * n + 92 / 10) * (M + C)) / 2 ^ 53 := h.trans (div_le_div_of_nonneg_right b2 (by positivity))
  obtain ⟨R, hR⟩ : ∃ R, R = n * W * (M + C) := ⟨_, rfl⟩
  have R1 : 1 ≤ 2 * R := by
    have : (1 : K) * 1 ≤ 2 * (n * W) * (M + C) := mul_le_mul nW (by linarith) zero_le_one (by linarith)
    rw [hR]; linarith
  have RC : C ≤ 2 * R := by
    have : (1 : K) * C ≤ 2 * (n * W) * (M + C) := mul_le_mul nW (by linarith) C0 (by linarith)
    rw [hR]; linarith
  have e3 : n * W * ((23 / 10 * n + 92 / 10) * (M + C)) / 2 ^ 53 = (23 / 10 * (n * R) + 92 / 10 * R) / 2 ^ 53 := by rw [hR]; ring
  have e4 : n * W * ((4 * n + 32) * (M + C)) / 2 ^ 53 = (4 * (n * R) + 32 * R) / 2 ^ 53 := by rw [hR]; ring
  rw [e3] at d1
  rw [e4]
  have nR : R ≤ n * R := by nlinarith
  have nR2 : n * R ≤ 2 ^ 20 * R := mul_le_mul_of_nonneg_right hn2 (by linarith)
  have aT : |x / (3 * s)| ≤ C + |x / (3 * s) - X / (3 * S)| := by
    have := abs_sub_abs_le_abs_sub (x / (3 * s)) (X / (3 * S))
    rw [hC] at this
    linarith
  have tri := abs_add_le (v - x / (3 * s)) (x / (3 * s) - X / (3 * S))
  rw [sub_add_sub_cancel] at tri
  have tiny : (1 : K) / 2 ^ 1075 ≤ 1 / 2 ^ 100 := by norm_num
  refine tri.trans ((add_le_add hv le_rfl).trans ?_)
  generalize (1 : K) / 2 ^ 1075 = t at *
  generalize |x / (3 * s) - X / (3 * S)| = D at *
  generalize |x / (3 * s)| = T at *
  generalize n * R = N at *
  norm_num at *
  linarith

theorem fan_sums (o : K × K) (c : List (K × K)) : ((sides c).map fun e => cross e.1 e.2).sum = 2 * fanArea o c ∧
    ((sides c).map fun e => (e.1.1 + e.2.1) * cross e.1 e.2).sum = 6 * fanMomentX o c ∧
    ((sides c).map fun e => (e.1.2 + e.2.2) * cross e.1 e.2).sum = 6 * fanMomentY o c := by
  have cs : ∀ f : K × K → K × K → K, ((sides c).map fun e => f e.1 e.2).sum = cycSum f c := by
    intro f
    unfold sides cycSum
    rw [List.zip_eq_zipWith, List.map_zipWith]
  refine ⟨?_, ?_, ?_⟩
  · rw [cs cross, ← cross_fan o]
    unfold fanArea
    rw [cycSum_congr (f := fun p q => turn o p q / 2) (g := fun p q => (1 / 2) * turn o p q) (by intros; ring), cycSum_mul]
    ring
  · rw [cs fun p q => (p.1 + q.1) * cross p q]
    change momX c = _
    rw [← momX_fan o]
    unfold fanMomentX
    rw [cycSum_congr (f := fun p q => turn o p q / 2 * ((o.1 + p.1 + q.1) / 3)) (g := fun p q => (1 / 6) * (turn o p q * (o.1 + p.1 + q.1)))
      (by intros; ring), cycSum_mul]
    ring
  · rw [cs fun p q => (p.2 + q.2) * cross p q]
    change momY c = _
    rw [← momY_fan o]
    unfold fanMomentY
    rw [cycSum_congr (f := fun p q => turn o p q / 2 * ((o.2 + p.2 + q.2) / 3)) (g := fun p q => (1 / 6) * (turn o p q * (o.2 + p.2 + q.2)))
      (by intros; ring), cycSum_mul]
    ring

theorem polyCentroid_near {M : K} {ps : List (Point F)} {c : List (K × K)} (hc : AtAll M ps (c ++ c.take 1)) (h1 : 1 ≤ M) (h2 : M ≤ 2 ^ 60)
    (hn : c.length ≤ 2 ^ 20) (o : K × K) (holes : List (List (Point F))) (h0 : fanArea o c ≠ 0)
    (hbig : c.length * (c.length + 8) * (M * M) ≤ |fanArea o c| * 2 ^ 50) :
    ∃ x y : K, val (polyCentroid (ps :: holes)).X = .fin x ∧ val (polyCentroid (ps :: holes)).Y = .fin y ∧
      |x - fanMomentX o c / fanArea o c| ≤ 2 * c.length * (c.length + 8) * (M * M) * (M + |fanMomentX o c / fanArea o c|) / |fanArea o c| / 2 ^ 53 ∧
      |y - fanMomentY o c / fanArea o c| ≤ 2 * c.length * (c.length + 8) * (M * M) * (M + |fanMomentY o c / fanArea o c|) / |fanArea o c| / 2 ^ 53 := by
  have hl : (sides c).length = c.length := by simp [sides]
  obtain ⟨s1, s2, s3⟩ := fan_sums o c
  have hQ1 : 1 ≤ M * M := by nlinarith
  have hQ2 : M * M ≤ 2 ^ 120 := by
    calc M * M ≤ 2 ^ 60 * 2 ^ 60 := mul_le_mul h2 h2 (by linarith) (by positivity)
      _ = 2 ^ 120 := by norm_num
  have QM1 : 1 ≤ M * M * M := by nlinarith
  have QM2 : M * M * M ≤ 2 ^ 180 := by
    calc M * M * M ≤ 2 ^ 120 * 2 ^ 60 := mul_le_mul hQ2 h2 (by linarith) (by positivity)
      _ = 2 ^ 180 := by norm_num
  have hcy := cyc_forall₂ hc
  have zero : ∀ e : K, e = 0 → Near (lit 0 : F) (0 : K) e := fun e he => (Near.of_val val_lit0).mono (by rw [he])
  obtain ⟨a1, a2⟩ := sum_near (f := sgnTerm) (t := fun e : (K × K) × (K × K) => cross e.1 e.2) (b := 2 * (M * M)) (τ := 5 * (M * M)) (by linarith)
    (by norm_num at hQ2 ⊢; linarith) (by linarith) (by linarith)
    (hcy.imp fun a b h => sgnTerm_near rfl h1 h2 h.1 h.2) (s := lit 0) (S := 0) (k := 0) (by omega) (zero _ (by simp)) (by simp)
  obtain ⟨b1, b2⟩ := sum_near (f := fun pq => (pq.1.X + pq.2.X) * sgnTerm pq) (t := fun e : (K × K) × (K × K) => (e.1.1 + e.2.1) * cross e.1 e.2) (b := 4 * (M * M * M)) (τ := 20 * (M * M * M)) (by linarith)
    (by norm_num at QM2 ⊢; linarith) (by linarith) (by linarith)
    (hcy.imp fun a b h => momTerm_near rfl h1 h2 h.1 h.2 h.1.1.1 h.2.1.1 h.1.2.1 h.2.2.1) (s := lit 0) (S := 0) (k := 0) (by omega) (zero _ (by simp)) (by simp)
  obtain ⟨c1, c2⟩ := sum_near (f := fun pq => (pq.1.Y + pq.2.Y) * sgnTerm pq) (t := fun e : (K × K) × (K × K) => (e.1.2 + e.2.2) * cross e.1 e.2) (b := 4 * (M * M * M)) (τ := 20 * (M * M * M)) (by linarith)
    (by norm_num at QM2 ⊢; linarith) (by linarith) (by linarith)
    (hcy.imp fun a b h => momTerm_near rfl h1 h2 h.1 h.2 h.1.1.2 h.2.1.2 h.1.2.2 h.2.2.2) (s := lit 0) (S := 0) (k := 0) (by omega) (zero _ (by simp)) (by simp)
  rw [zero_add, zero_add, hl] at a1 a2 b1 b2 c1 c2
  rw [s1] at a1 a2
  rw [s2] at b1 b2
  rw [s3] at c1 c2
  obtain ⟨s, es, ds⟩ := a1
  obtain ⟨x, ex, dx⟩ := b1
  obtain ⟨y, ey, dy⟩ := c1
  have c0 : c ≠ [] := by
    rintro rfl
    exact h0 (by simp [fanArea, cycSum])
  have n1 : (1 : K) ≤ c.length := by exact_mod_cast List.length_pos_iff.2 c0
  have n2 : (c.length : K) ≤ 2 ^ 20 := by exact_mod_cast hn
  have eX : ∀ m : K, m / fanArea o c = 6 * m / (3 * (2 * fanArea o c)) := by intro m; field_simp; ring
  have aA : |fanArea o c| = |2 * fanArea o c| / 2 := by rw [abs_mul, abs_two]; ring
  have hS0 : 2 * fanArea o c ≠ 0 := mul_ne_zero two_ne_zero h0
  rw [eX, eX, aA]
  rw [aA] at hbig
  generalize 2 * fanArea o c = S at *
  generalize 6 * fanMomentX o c = X at *
  generalize 6 * fanMomentY o c = Y at *
  generalize (c.length : K) = n at *
  have S0 := abs_pos.2 hS0
  have ds' : |s - S| ≤ (2 * n ^ 2 + 7 * n) * (M * M) / 2 ^ 53 := ds.trans (le_of_eq (by ring))
  have dx' : |x - X| ≤ (4 * n ^ 2 + 24 * n) * (M * M * M) / 2 ^ 53 := dx.trans (le_of_eq (by ring))
  have dy' : |y - Y| ≤ (4 * n ^ 2 + 24 * n) * (M * M * M) / 2 ^ 53 := dy.trans (le_of_eq (by ring))
  have nQ : n * (M * M) ≤ 2 ^ 140 := by
    calc n * (M * M) ≤ 2 ^ 20 * 2 ^ 120 := mul_le_mul n2 hQ2 (by linarith) (by positivity)
      _ = 2 ^ 140 := by norm_num
  have nQM : n * (M * M * M) ≤ 2 ^ 200 := by
    calc n * (M * M * M) ≤ 2 ^ 20 * 2 ^ 180 := mul_le_mul n2 QM2 (by linarith) (by positivity)
      _ = 2 ^ 200 := by norm_num
  have hnn : n ^ 2 ≤ 2 ^ 20 * n := by rw [sq]; exact mul_le_mul_of_nonneg_right n2 (by linarith)
  have dS : (2 * n ^ 2 + 7 * n) * (M * M) / 2 ^ 53 ≤ |S| / 8 := by
    rw [div_le_iff₀ (by positivity)]
    have e : (2 * n ^ 2 + 7 * n) * (M * M) = 2 * (n * (n + 8) * (M * M)) - 9 * (n * (M * M)) := by ring
    have : 0 ≤ n * (M * M) := by positivity
    rw [e]
    generalize n * (n + 8) * (M * M) = A at *
    norm_num at hbig ⊢
    linarith
  have dX : (4 * n ^ 2 + 24 * n) * (M * M * M) / 2 ^ 53 ≤ 2 ^ 210 := by
    rw [div_le_iff₀ (by positivity)]
    have : (4 * n ^ 2 + 24 * n) * (M * M * M) ≤ (2 ^ 23 * n) * (M * M * M) := by
      apply mul_le_mul_of_nonneg_right _ (by linarith)
      norm_num at hnn ⊢; linarith
    have e : (2 ^ 23 * n) * (M * M * M) = 2 ^ 23 * (n * (M * M * M)) := by ring
    rw [e] at this
    refine this.trans ((mul_le_mul_of_nonneg_left nQM (by positivity)).trans (by norm_num))
  have lo : (1 : K) / 2 ^ 60 ≤ |S| := by
    have : (1 : K) * 1 * 1 ≤ n * (n + 8) * (M * M) := by
      apply mul_le_mul (mul_le_mul n1 (by linarith) zero_le_one (by linarith)) hQ1 zero_le_one
      positivity
    generalize n * (n + 8) * (M * M) = A at *
    norm_num at hbig this ⊢
    linarith
  have sb : 7 / 8 * |S| ≤ |s| ∧ |s| ≤ 9 / 8 * |S| := by
    obtain ⟨u, v, _⟩ := quot_close hS0 ds' dx' dS
    exact ⟨u, v⟩
  have hi : |S| ≤ 2 ^ 141 := a2.trans (by
    have : n * (2 * (M * M)) = 2 * (n * (M * M)) := by ring
    rw [this]; norm_num at nQ ⊢; linarith)
  have slo : (1 : K) / 2 ^ 100 ≤ |s| := by
    norm_num at lo ⊢; linarith [sb.1]
  have shi : |s| ≤ 2 ^ 200 := by
    norm_num at hi ⊢; linarith [sb.2]
  have hX : ∀ {x X : K}, |x - X| ≤ (4 * n ^ 2 + 24 * n) * (M * M * M) / 2 ^ 53 → |X| ≤ n * (4 * (M * M * M)) → |x| ≤ 2 ^ 300 := by
    intro x X h h'
    have e : n * (4 * (M * M * M)) = 4 * (n * (M * M * M)) := by ring
    rw [e] at h'
    have := abs_sub_abs_le_abs_sub x X
    have u := h.trans dX
    generalize n * (M * M * M) = A at *
    norm_num at nQM u ⊢
    linarith
  obtain ⟨v, ev, hv⟩ := centroidMul_near ex es slo shi (hX dx' b2)
  obtain ⟨w, ew, hw⟩ := centroidMul_near ey es slo shi (hX dy' c2)
  have s0 : s ≠ 0 := abs_pos.1 (lt_of_lt_of_le (by positivity) slo)
  have hpc : polyCentroid (ps :: holes) = ⟨(cyc ps).foldl (fun s pq => s + (pq.1.X + pq.2.X) * sgnTerm pq) (lit 0) * (lit 1 / (lit 6 * (cyc ps).foldl (fun s pq => s + sgnTerm pq) (lit 0) / lit 2)),
      (cyc ps).foldl (fun s pq => s + (pq.1.Y + pq.2.Y) * sgnTerm pq) (lit 0) * (lit 1 / (lit 6 * (cyc ps).foldl (fun s pq => s + sgnTerm pq) (lit 0) / lit 2))⟩ := by
    have e : eq ((cyc ps).foldl (fun s pq => s + sgnTerm pq) (lit 0 : F)) (lit 0) = false := by
      rw [val_eq, es, val_lit0]
      simpa [XR.eq] using s0
    simp only [polyCentroid, centroid_fold3, e]
    rfl
  rw [hpc]
  have a2' : |S| ≤ 2 * n * (M * M) := a2.trans (le_of_eq (by ring))
  exact ⟨v, w, ev, ew, centroid_bound n1 n2 h1 hQ1 a2' hS0 ds' dx' hbig hv, centroid_bound n1 n2 h1 hQ1 a2' hS0 ds' dy' hbig hw⟩

/-- **C119 (polygon).** For a closed ring of `n ≤ 2^20` corners whose coordinates are at most `M` in absolute value
(`1 ≤ M ≤ 2^60`) and whose area `A` is not too small for that, `n(n+8)M² ≤ 2^50·A`, `Centroid` gives a finite point,
and each of its coordinates differs from the coordinate `C` of the exact centroid — the area-weighted mean of the
triangles of a fan — by at most `2n(n+8)M²(M+|C|)/A` units of 2^-53. -/
theorem C119_polygon {M : K} {ps : List (Point F)} {c : List (K × K)} (hc : AtAll M ps (c ++ c.take 1)) (h1 : 1 ≤ M) (h2 : M ≤ 2 ^ 60)
    (hn : c.length ≤ 2 ^ 20) (o : K × K) (holes : List (List (Point F))) (h0 : fanArea o c ≠ 0)
    (hbig : c.length * (c.length + 8) * (M * M) ≤ |fanArea o c| * 2 ^ 50) :
    ∃ (p : Point F) (x y : K), Centroid (.polygon (ps :: holes)) = .ok p ∧ At p (x, y) ∧
      |x - fanMomentX o c / fanArea o c| ≤ 2 * c.length * (c.length + 8) * (M * M) * (M + |fanMomentX o c / fanArea o c|) / |fanArea o c| / 2 ^ 53 ∧
      |y - fanMomentY o c / fanArea o c| ≤ 2 * c.length * (c.length + 8) * (M * M) * (M + |fanMomentY o c / fanArea o c|) / |fanArea o c| / 2 ^ 53 := by
  obtain ⟨x, y, ex, ey, h⟩ := polyCentroid_near hc h1 h2 hn o holes h0 hbig
  exact ⟨_, x, y, rfl, ⟨ex, ey⟩, h⟩

/-- **C119 (points).** The centroid of `n ≤ 2^20` points with coordinates of at most `M` is the mean of the points
up to `(n+3)·M` units of 2^-53, in each coordinate. -/
theorem C119_multiPoint {M : K} {ps : List (Point F)} {c : List (K × K)} (hc : AtAll M ps c) (h1 : 1 ≤ M) (h2 : M ≤ 2 ^ 200) (hn : c.length ≤ 2 ^ 20) (h0 : c ≠ []) :
    ∃ (p : Point F) (x y : K), Centroid (.multiPoint ps) = .ok p ∧ At p (x, y) ∧
      |x - (c.map Prod.fst).sum / c.length| ≤ (c.length + 3) * M / 2 ^ 53 ∧ |y - (c.map Prod.snd).sum / c.length| ≤ (c.length + 3) * M / 2 ^ 53 := by
  have n1 : (1 : K) ≤ c.length := by exact_mod_cast List.length_pos_iff.2 h0
  have n2 : (c.length : K) ≤ 2 ^ 20 := by exact_mod_cast hn
  have hlen : ps.length = c.length := hc.length_eq
  have vn : val (ofInt (ps.length : ℤ) : F) = .fin (c.length : K) := by
    have := rnd_rep (F := F) (K := K) c.length 0 (hn.trans (by norm_num)) (by norm_num)
    rw [val_ofInt, hlen]
    simpa using this
  have key : ∀ (f : Point F → F) (t : K × K → K), (∀ p x, At p x ∧ Within M x → val (f p) = .fin (t x) ∧ |t x| ≤ M) →
      ∃ x : K, val (ps.foldl (fun s p => s + f p) (lit 0) / ofInt ps.length) = .fin x ∧ |x - (c.map t).sum / c.length| ≤ (c.length + 3) * M / 2 ^ 53 := by
    intro f t hf
    obtain ⟨a1, a2⟩ := sum_near (f := f) (t := t) (b := M) (τ := 0) (by linarith) (h2.trans (by norm_num)) le_rfl (by linarith)
      (hc.imp fun p x h => ⟨(Near.of_val (hf p x h).1).mono (by simp), (hf p x h).2⟩) (s := lit 0) (S := 0) (k := 0) (by omega)
      ((Near.of_val val_lit0).mono (by simp)) (by simp)
    rw [zero_add, zero_add] at a1 a2
    obtain ⟨s, es, ds⟩ := a1
    generalize (c.map t).sum = S at *
    generalize (c.length : K) = n at *
    have n0 : n ≠ 0 := by linarith
    have np : 0 < n := by linarith
    have ev : val (ps.foldl (fun s p => s + f p) (lit 0) / ofInt ps.length : F) = rnd F (.fin (s / n)) := by
      rw [val_div _ _ (by rw [vn]; simpa using n0), es, vn]
      simp [XR.div, n0]
    have d1 : |s / n - S / n| ≤ M * (n + 1) / 2 ^ 53 := by
      rw [← sub_div, abs_div, abs_of_pos np, div_le_iff₀ np]
      exact ds.trans (le_of_eq (by ring))
    have d2 : |S / n| ≤ M := by
      rw [abs_div, abs_of_pos np, div_le_iff₀ np]; linarith
    have d3 : M * (n + 1) / 2 ^ 53 ≤ M / 1000 := by
      rw [div_le_iff₀ (by positivity)]
      have : M * (n + 1) ≤ M * (2 ^ 20 + 1) := mul_le_mul_of_nonneg_left (by linarith) (by linarith)
      refine this.trans ?_
      norm_num
      linarith
    have r := Near.rnd (F := F) (z := .fin (s / n)) ev ⟨s / n, rfl, d1⟩ (B := M + M / 1000) (by linarith) (by norm_num at h2 ⊢; linarith)
    obtain ⟨x, ex, dx⟩ := r
    refine ⟨x, ex, dx.trans ?_⟩
    have : (n + 3) * M / 2 ^ 53 = M * (n + 1) / 2 ^ 53 + 2 * M / 2 ^ 53 := by ring
    rw [this]
    generalize M * (n + 1) / 2 ^ 53 = A at *
    norm_num
    linarith
  obtain ⟨x, ex, dx⟩ := key Point.X Prod.fst fun p x h => ⟨h.1.1, h.2.1⟩
  obtain ⟨y, ey, dy⟩ := key Point.Y Prod.snd fun p x h => ⟨h.1.2, h.2.2⟩
  have hps : ps ≠ [] := by
    rintro rfl
    cases hc
    exact h0 rfl
  refine ⟨⟨_, _⟩, x, y, ?_, ⟨ex, ey⟩, dx, dy⟩
  show Except.ok (pointsCenteriod ps) = _
  unfold pointsCenteriod
  rw [if_neg (by simpa using hps)]

end

/-- the L of area 12 in float64, whose exact centroid is (5/3, 5/3) -/
example : ∃ (p : Point Float) (x y : ℚ), Centroid (.polygon [[fpt 0 0, fpt 4 0, fpt 4 2, fpt 2 2, fpt 2 4, fpt 0 4, fpt 0 0]]) = .ok p ∧ At p (x, y) ∧
    |x - 5 / 3| ≤ 1 / 2 ^ 42 ∧ |y - 5 / 3| ≤ 1 / 2 ^ 42 := by
  have hc := fpt_all 4 (by norm_num) [(0, 0), (4, 0), (4, 2), (2, 2), (2, 4), (0, 4), (0, 0)] (by decide)
  have hc' : AtAll (4 : ℚ) [fpt 0 0, fpt 4 0, fpt 4 2, fpt 2 2, fpt 2 4, fpt 0 4, fpt 0 0] ([(0, 0), (4, 0), (4, 2), (2, 2), (2, 4), (0, 4)] ++ [(0, 0)]) := by simpa using hc
  have hA : fanArea (0 : ℚ × ℚ) [(0, 0), (4, 0), (4, 2), (2, 2), (2, 4), (0, 4)] = 12 := by simp [fanArea, cycSum, turn]; norm_num
  have hX : fanMomentX (0 : ℚ × ℚ) [(0, 0), (4, 0), (4, 2), (2, 2), (2, 4), (0, 4)] = 20 := by simp [fanMomentX, cycSum, turn]; norm_num
  have hY : fanMomentY (0 : ℚ × ℚ) [(0, 0), (4, 0), (4, 2), (2, 2), (2, 4), (0, 4)] = 20 := by simp [fanMomentY, cycSum, turn]; norm_num
  obtain ⟨p, x, y, e, a, b1, b2⟩ := C119_polygon (c := [(0, 0), (4, 0), (4, 2), (2, 2), (2, 4), (0, 4)]) hc' (by norm_num) (by norm_num) (by norm_num) 0 [] (by rw [hA]; norm_num) (by rw [hA]; norm_num)
  rw [hA, hX] at b1
  rw [hA, hY] at b2
  refine ⟨p, x, y, e, a, ?_, ?_⟩
  · have t : (20 : ℚ) / 12 = 5 / 3 := by norm_num
    rw [t] at b1
    refine b1.trans ?_
    norm_num [abs_of_pos]
  · have t : (20 : ℚ) / 12 = 5 / 3 := by norm_num
    rw [t] at b2
    refine b2.trans ?_
    norm_num [abs_of_pos]

/-- **C119 (small polygons).** The restriction on the area is needed. A square of 0.00002 degrees (two metres) at longitude
116.4, latitude 39.9 gets a centroid more than 0.06 degrees (five kilometres) east of it; a unit square at 134217729 gets one
more than thirty million units away from it; and one at 134217728 gets NaN. -/
theorem C119_false :
    (match Centroid (.polygon [[⟨116.4, 39.9⟩, ⟨116.40002, 39.9⟩, ⟨116.40002, 39.90002⟩, ⟨116.4, 39.90002⟩, ⟨116.4, 39.9⟩]] : Geometry Float) with
      | .ok p => lt 116.47 p.X && lt 39.92 p.Y | .error _ => false) = true ∧
    (match Centroid (.polygon [[⟨134217729, 134217729⟩, ⟨134217730, 134217729⟩, ⟨134217730, 134217730⟩, ⟨134217729, 134217730⟩, ⟨134217729, 134217729⟩]] : Geometry Float) with
      | .ok p => lt p.X 104000000 && lt p.Y 104000000 | .error _ => false) = true ∧
    (match Centroid (.polygon [[⟨134217728, 134217728⟩, ⟨134217729, 134217728⟩, ⟨134217729, 134217729⟩, ⟨134217728, 134217729⟩, ⟨134217728, 134217728⟩]] : Geometry Float) with
      | .ok p => isNaN p.X && isNaN p.Y | .error _ => false) = true := by
  decide +kernel

end GoGeo
