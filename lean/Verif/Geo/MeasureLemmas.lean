import Verif.Geo.Measure
import Verif.Spec.Measure
import Verif.Go.Val
import Mathlib.Tactic.FieldSimp

set_option linter.unusedSectionVars false

namespace GoGeo
open GoFloat Spec

/-! ### exact arithmetic on finite numbers -/
namespace XR
variable {K : Type} [Field K] [LinearOrder K]

theorem fin_add (a b : K) : (fin a + fin b : XR K) = fin (a + b) := rfl
theorem fin_sub (a b : K) : (fin a - fin b : XR K) = fin (a - b) := by
  show add (fin a) (neg (fin b)) = _
  simp [add, neg, sub_eq_add_neg]
theorem fin_mul (a b : K) : (fin a * fin b : XR K) = fin (a * b) := rfl
theorem fin_neg (a : K) : (-fin a : XR K) = fin (-a) := rfl
theorem fin_div (a b : K) (h : b ≠ 0) : (fin a / fin b : XR K) = fin (a / b) := by
  show div _ _ = _
  simp [div, h]
theorem fin_lit (n : ℕ) : (lit n : XR K) = fin (n : K) := by
  show fin _ = _; simp
theorem fin_dec (n e : ℕ) : (dec n e : XR K) = fin ((n : K) / 10 ^ e) := rfl
theorem fin_ofInt (n : ℤ) : (ofInt n : XR K) = fin (n : K) := rfl
theorem fin_lt (a b : K) : GoFloat.lt (fin a : XR K) (fin b) = decide (a < b) := rfl
theorem fin_le (a b : K) : GoFloat.le (fin a : XR K) (fin b) = decide (a ≤ b) := rfl
theorem fin_eq (a b : K) : GoFloat.eq (fin a : XR K) (fin b) = decide (a = b) := rfl
variable [IsStrictOrderedRing K]
theorem fin_abs (a : K) : GoFloat.abs (fin a : XR K) = fin |a| := by
  show XR.abs _ = _
  unfold XR.abs
  rcases lt_or_ge a 0 with h | h
  · simp [h, abs_of_neg h]
  · simp [not_lt.2 h, abs_of_nonneg h]
end XR

/-! ### the visited pairs -/
section
variable {F : Type} [GoFloat F]

theorem cyc_append (c : List (Point F)) (x : Point F) : cyc (c ++ [x]) = c.zip (c.rotate 1) := by
  unfold cyc
  apply List.ext_getElem?
  intro i
  have hn : (c ++ [x]).length - 1 = c.length := by simp
  rw [hn, List.getElem?_map]
  by_cases hi : i < c.length
  · have hp : 0 < c.length := by omega
    have hj : (i + 1) % c.length < c.length := Nat.mod_lt _ hp
    have hz : (c.zip (c.rotate 1))[i]? = some (c[i], c[(i + 1) % c.length]) :=
      List.getElem?_zip_eq_some.2 ⟨List.getElem?_eq_getElem hi, by rw [List.getElem?_rotate hi, List.getElem?_eq_getElem hj]⟩
    rw [List.getElem?_range hi, hz]
    simp only [Option.map_some, List.getD]
    rw [List.getElem?_append_left hi, List.getElem?_append_left hj, List.getElem?_eq_getElem hi, List.getElem?_eq_getElem hj]
    rfl
  · rw [List.getElem?_eq_none (by simpa using hi), List.getElem?_eq_none (by simp; omega)]
    rfl

theorem cyc_short (lr : List (Point F)) (h : lr.length ≤ 1) : cyc lr = [] := by
  unfold cyc
  have : lr.length - 1 = 0 := by omega
  rw [this]; rfl

end

/-! ### cyclic sums -/
section
variable {K : Type} [Field K]

theorem cycSum_map (f : K × K → K × K → K) (g : K × K → K × K) (c : List (K × K)) :
    cycSum f (c.map g) = cycSum (fun a b => f (g a) (g b)) c := by
  unfold cycSum
  rw [← List.map_rotate, List.zipWith_map]

theorem cycSum_congr {f g : K × K → K × K → K} (h : ∀ a b, f a b = g a b) (c : List (K × K)) : cycSum f c = cycSum g c := by
  have : f = g := by funext a b; exact h a b
  rw [this]

theorem sum_zipWith_add (f g : K × K → K × K → K) (a b : List (K × K)) :
    (List.zipWith (fun x y => f x y + g x y) a b).sum = (List.zipWith f a b).sum + (List.zipWith g a b).sum := by
  induction a generalizing b with
  | nil => simp
  | cons x a ih => cases b with
    | nil => simp
    | cons y b => simp [ih]; ring

theorem sum_zipWith_mul (k : K) (f : K × K → K × K → K) (a b : List (K × K)) :
    (List.zipWith (fun x y => k * f x y) a b).sum = k * (List.zipWith f a b).sum := by
  induction a generalizing b with
  | nil => simp
  | cons x a ih => cases b with
    | nil => simp
    | cons y b => simp [ih]; ring

theorem cycSum_add (f g : K × K → K × K → K) (c : List (K × K)) :
    cycSum (fun a b => f a b + g a b) c = cycSum f c + cycSum g c := sum_zipWith_add f g _ _

theorem cycSum_mul (k : K) (f : K × K → K × K → K) (c : List (K × K)) :
    cycSum (fun a b => k * f a b) c = k * cycSum f c := sum_zipWith_mul k f _ _

theorem cycSum_neg (f : K × K → K × K → K) (c : List (K × K)) : cycSum (fun a b => -f a b) c = -cycSum f c := by
  rw [cycSum_congr (g := fun a b => (-1) * f a b) (by intros; ring), cycSum_mul]; ring

theorem sum_zipWith_left (h : K × K → K) (a b : List (K × K)) (hl : a.length = b.length) :
    (List.zipWith (fun x _ => h x) a b).sum = (a.map h).sum := by
  induction a generalizing b with
  | nil => simp
  | cons x a ih => cases b with
    | nil => simp at hl
    | cons y b => simp [ih b (by simpa using hl)]

theorem sum_zipWith_right (h : K × K → K) (a b : List (K × K)) (hl : a.length = b.length) :
    (List.zipWith (fun _ y => h y) a b).sum = (b.map h).sum := by
  induction a generalizing b with
  | nil => cases b with
    | nil => rfl
    | cons => simp at hl
  | cons x a ih => cases b with
    | nil => simp at hl
    | cons y b => simp [ih b (by simpa using hl)]

theorem cycSum_left (h : K × K → K) (c : List (K × K)) : cycSum (fun a _ => h a) c = (c.map h).sum :=
  sum_zipWith_left h _ _ (by simp)

theorem cycSum_right (h : K × K → K) (c : List (K × K)) : cycSum (fun _ b => h b) c = (c.map h).sum := by
  unfold cycSum
  rw [sum_zipWith_right h _ _ (by simp)]
  exact List.Perm.sum_eq ((List.rotate_perm c 1).map h)

theorem cycSum_tele (h : K × K → K) (c : List (K × K)) : cycSum (fun a b => h b - h a) c = 0 := by
  rw [cycSum_congr (g := fun a b => h b + (-1) * h a) (by intros; ring), cycSum_add, cycSum_mul, cycSum_left, cycSum_right]
  ring

theorem cycSum_rotate (f : K × K → K × K → K) (c : List (K × K)) (k : ℕ) : cycSum f (c.rotate k) = cycSum f c := by
  unfold cycSum
  rw [List.rotate_rotate, Nat.add_comm, ← List.rotate_rotate, ← List.zipWith_rotate_distrib _ _ _ _ (by simp)]
  exact List.Perm.sum_eq (List.rotate_perm _ _)

theorem cycSum_reverse (f : K × K → K × K → K) (c : List (K × K)) : cycSum f c.reverse = cycSum (fun a b => f b a) c := by
  unfold cycSum
  rw [List.rotate_reverse]
  obtain ⟨d, hd⟩ : ∃ d : List (K × K), d = c.rotate (c.length - 1 % c.length) := ⟨_, rfl⟩
  rw [← hd]
  have hlen : d.length = c.length := by rw [hd]; simp
  have hcd : d.rotate 1 = c := by
    rw [hd, List.rotate_rotate]
    rcases c with _ | ⟨a, _ | ⟨b, c⟩⟩
    · simp
    · simp
    · have : (a :: b :: c).length - 1 % (a :: b :: c).length + 1 = (a :: b :: c).length := by
        rw [Nat.mod_eq_of_lt (by simp)]; simp
      rw [this, List.rotate_length]
  rw [← List.reverse_zipWith (by omega), List.sum_reverse, List.zipWith_comm]
  have h2 := cycSum_rotate (fun a b => f b a) d 1
  unfold cycSum at h2
  rw [hcd] at h2
  exact h2.symm

/-- summation by parts: the shoelace sum in terms of a fan -/
def cross (p q : K × K) : K := p.1 * q.2 - p.2 * q.1

theorem cross_fan (o : K × K) (c : List (K × K)) : cycSum (turn o) c = cycSum cross c := by
  rw [cycSum_congr (f := turn o) (g := fun p q => cross p q + ((fun r => o.2 * r.1 - o.1 * r.2) q - (fun r => o.2 * r.1 - o.1 * r.2) p))
    (by intro a b; simp only [turn, cross]; ring), cycSum_add, cycSum_tele, add_zero]

end

/-! ### folds are cyclic sums -/
section
variable {K : Type} [Field K] [LinearOrder K] [IsStrictOrderedRing K]

theorem zip_pt (a b : List (K × K)) : (a.map pt).zip (b.map pt) = (a.zip b).map (fun z => (pt z.1, pt z.2)) := by
  rw [List.zip_map]; rfl

theorem area_fold (l : List ((K × K) × (K × K))) (s : K) :
    (l.map (fun z => (pt z.1, pt z.2))).foldl areaStep (.fin s) = .fin (s + (l.map fun z => cross z.1 z.2).sum) := by
  induction l generalizing s with
  | nil => simp
  | cons z l ih =>
    rw [List.map_cons, List.foldl_cons]
    have : areaStep (.fin s) (pt z.1, pt z.2) = .fin (s + cross z.1 z.2) := by
      unfold areaStep pt
      rw [XR.fin_mul, XR.fin_mul, XR.fin_add, XR.fin_sub]
      congr 1; unfold cross; ring
    rw [this, ih, List.map_cons, List.sum_cons, add_assoc]

theorem zip_map_sum (f : K × K → K × K → K) (c : List (K × K)) : ((c.zip (c.rotate 1)).map fun z => f z.1 z.2).sum = cycSum f c := by
  unfold cycSum
  rw [List.zip, List.map_zipWith]

theorem relativeArea_corners (c : List (K × K)) (x : Point (XR K)) (holes : List (List (Point (XR K)))) :
    relativeArea ((c.map pt ++ [x]) :: holes) = .fin (cycSum cross c / 2) := by
  unfold relativeArea
  simp only []
  rw [cyc_append, ← List.map_rotate, zip_pt, XR.fin_lit, Nat.cast_zero, area_fold, zero_add, zip_map_sum, XR.fin_lit,
    XR.fin_div _ _ (by simp)]
  norm_num

theorem ring_eq (c : List (K × K)) (hc : c ≠ []) : ∃ x, ring c = c.map pt ++ [x] := by
  cases c with
  | nil => exact absurd rfl hc
  | cons a c => exact ⟨pt a, by simp [ring]⟩

/-- the signed area of a closed ring -/
theorem relativeArea_ring (c : List (K × K)) (holes : List (List (Point (XR K)))) :
    relativeArea (ring c :: holes) = .fin (cycSum cross c / 2) := by
  by_cases hc : c = []
  · subst hc
    unfold relativeArea
    simp only []
    rw [cyc_short _ (by simp [ring]), XR.fin_lit, XR.fin_lit]
    rw [List.foldl_nil, XR.fin_div _ _ (by simp)]
    simp [cycSum]
  · obtain ⟨x, hx⟩ := ring_eq c hc
    rw [hx, relativeArea_corners]

theorem centroid_fold (l : List ((K × K) × (K × K))) (s t u : K) :
    (l.map (fun z => (pt z.1, pt z.2))).foldl centroidStep (.fin s, .fin t, .fin u) =
      (.fin (s + (l.map fun z => (z.1.1 + z.2.1) * cross z.1 z.2).sum),
       .fin (t + (l.map fun z => (z.1.2 + z.2.2) * cross z.1 z.2).sum),
       .fin (u + (l.map fun z => cross z.1 z.2).sum)) := by
  induction l generalizing s t u with
  | nil => simp
  | cons z l ih =>
    rw [List.map_cons, List.foldl_cons]
    have : centroidStep (.fin s, .fin t, .fin u) (pt z.1, pt z.2) = (.fin (s + (z.1.1 + z.2.1) * cross z.1 z.2),
       .fin (t + (z.1.2 + z.2.2) * cross z.1 z.2), .fin (u + cross z.1 z.2)) := by
      unfold centroidStep pt
      simp only [XR.fin_mul, XR.fin_add, XR.fin_sub]
      refine Prod.ext ?_ (Prod.ext ?_ ?_) <;> simp only [cross] <;> congr 1 <;> ring
    rw [this, ih]
    simp only [List.map_cons, List.sum_cons, add_assoc]

def momX (c : List (K × K)) : K := cycSum (fun p q => (p.1 + q.1) * cross p q) c
def momY (c : List (K × K)) : K := cycSum (fun p q => (p.2 + q.2) * cross p q) c

theorem polyCentroid_corners (c : List (K × K)) (x : Point (XR K)) (holes : List (List (Point (XR K))))
    (h : cycSum cross c ≠ 0) :
    polyCentroid ((c.map pt ++ [x]) :: holes) = pt (momX c / (3 * cycSum cross c), momY c / (3 * cycSum cross c)) := by
  unfold polyCentroid
  simp only []
  rw [cyc_append, ← List.map_rotate, zip_pt, XR.fin_lit, Nat.cast_zero, centroid_fold, zero_add, zero_add, zero_add]
  simp only [zip_map_sum cross, zip_map_sum (fun p q => (p.1 + q.1) * cross p q), zip_map_sum (fun p q => (p.2 + q.2) * cross p q)]
  rw [XR.fin_eq, decide_eq_false h, if_neg (by simp)]
  simp only [XR.fin_lit, XR.fin_mul]
  rw [XR.fin_div _ _ (by simp), XR.fin_div _ _ (by
    simp only [Nat.cast_ofNat]
    exact div_ne_zero (mul_ne_zero (by norm_num) h) (by norm_num)), XR.fin_mul, XR.fin_mul]
  unfold pt momX momY
  simp only [Nat.cast_ofNat, Nat.cast_one]
  congr 2 <;> field_simp <;> ring

theorem ring_ne_nil_of (c : List (K × K)) (h : cycSum cross c ≠ 0) : c ≠ [] := by
  rintro rfl; exact h (by simp [cycSum])

theorem polyCentroid_ring (c : List (K × K)) (holes : List (List (Point (XR K)))) (h : cycSum cross c ≠ 0) :
    polyCentroid (ring c :: holes) = pt (momX c / (3 * cycSum cross c), momY c / (3 * cycSum cross c)) := by
  obtain ⟨x, hx⟩ := ring_eq c (ring_ne_nil_of c h)
  rw [hx, polyCentroid_corners c x holes h]

theorem momX_fan (o : K × K) (c : List (K × K)) :
    cycSum (fun p q => turn o p q * (o.1 + p.1 + q.1)) c = momX c := by
  unfold momX
  rw [cycSum_congr (g := fun p q => (p.1 + q.1) * cross p q +
      ((fun r : K × K => o.1 * (o.2 * r.1 - o.1 * r.2) + (o.2 * r.1 * r.1 - o.1 * r.1 * r.2)) q -
       (fun r : K × K => o.1 * (o.2 * r.1 - o.1 * r.2) + (o.2 * r.1 * r.1 - o.1 * r.1 * r.2)) p))
    (by intro a b; simp only [turn, cross]; ring), cycSum_add, cycSum_tele, add_zero]

theorem momY_fan (o : K × K) (c : List (K × K)) :
    cycSum (fun p q => turn o p q * (o.2 + p.2 + q.2)) c = momY c := by
  unfold momY
  rw [cycSum_congr (g := fun p q => (p.2 + q.2) * cross p q +
      ((fun r : K × K => o.2 * (o.2 * r.1 - o.1 * r.2) + (o.2 * r.1 * r.2 - o.1 * r.2 * r.2)) q -
       (fun r : K × K => o.2 * (o.2 * r.1 - o.1 * r.2) + (o.2 * r.1 * r.2 - o.1 * r.2 * r.2)) p))
    (by intro a b; simp only [turn, cross]; ring), cycSum_add, cycSum_tele, add_zero]

end

end GoGeo
