import Verif.Spec.Cells
import Verif.Props.Line
import Verif.Props.Measure
import Mathlib.Data.Nat.Pairing
import Mathlib.Algebra.Order.Floor.Semiring
import Mathlib.Data.Rat.Floor
import Mathlib.Tactic.Positivity

/-!
# C96, C97, C98: geohash and S2 cells
-/

namespace GoGeo
open GoFloat Spec
variable {F : Type} [GoFloat F]

/-! ## C96 -/

/-- **C96.** For a library that behaves as documented, and a point `X = lng`, `Y = lat`: the code has the
length asked for, its boundary contains the point and its centre, and the code of the centre is the code. -/
theorem C96_cell (lib : GeohashLib F) (ok : GeohashOk lib) (p : Point F) (hp : OnGlobe p.Y p.X) (n : Nat) (hn : n ≤ 12)
    (srid : Int) :
    (GeohashEncode lib p n srid).length = n ∧
    InBox p (GeohashGetBoundary lib (GeohashEncode lib p n srid) srid) ∧
    InBox (GeohashGetCenter lib (GeohashEncode lib p n srid) srid)
      (GeohashGetBoundary lib (GeohashEncode lib p n srid) srid) ∧
    GeohashEncode lib (GeohashGetCenter lib (GeohashEncode lib p n srid) srid) n srid = GeohashEncode lib p n srid := by
  refine ⟨ok.length _ _ _ hp hn, ?_, ?_, ok.recode _ _ _ hp hn⟩
  · obtain ⟨h1, h2, h3, h4⟩ := ok.box p.Y p.X n hp hn
    exact ⟨h3, h4, h1, h2⟩
  · obtain ⟨h1, h2, h3, h4⟩ := ok.center p.Y p.X n hp hn
    exact ⟨h3, h4, h1, h2⟩

/-- **C96 (neighbours).** The neighbours are, from north clockwise, the codes of the centre moved by the
width of the boundary in `X` and its height in `Y`. -/
theorem C96_neighbors (lib : GeohashLib F) (ok : GeohashOk lib) (hash : String) (srid : Int) :
    let c := GeohashGetCenter lib hash srid
    let b := GeohashGetBoundary lib hash srid
    let w := b.MaxX - b.MinX
    let h := b.MaxY - b.MinY
    GeohashGetAllNeighbors lib hash srid =
      ([⟨c.X, c.Y + h⟩, ⟨c.X + w, c.Y + h⟩, ⟨c.X + w, c.Y⟩, ⟨c.X + w, c.Y - h⟩, ⟨c.X, c.Y - h⟩, ⟨c.X - w, c.Y - h⟩,
        ⟨c.X - w, c.Y⟩, ⟨c.X - w, c.Y + h⟩] : List (Point F)).map fun q => GeohashEncode lib q hash.length srid :=
  ok.neighbors hash

/-- **C96 (srid).** The srid has no effect: coordinates in metres are taken for degrees. -/
theorem C96_srid_ignored (lib : GeohashLib F) (p : Point F) (n : Nat) (hash : String) (srid srid' : Int) :
    GeohashEncode lib p n srid = GeohashEncode lib p n srid' ∧
    GeohashGetCenter lib hash srid = GeohashGetCenter lib hash srid' ∧
    GeohashGetBoundary lib hash srid = GeohashGetBoundary lib hash srid' ∧
    GeohashGetAllNeighbors lib hash srid = GeohashGetAllNeighbors lib hash srid' := ⟨rfl, rfl, rfl, rfl⟩

/-! ### a library that behaves as documented: the published algorithm in exact arithmetic -/

namespace RefHash

/-- bisect the two intervals in turn -/
def enc : Nat → ℚ × ℚ → ℚ × ℚ → ℚ → ℚ → List Bool
  | 0, _, _, _, _ => []
  | k + 1, I, J, x, y =>
    if (I.1 + I.2) / 2 ≤ x then true :: enc k J ((I.1 + I.2) / 2, I.2) y x
    else false :: enc k J (I.1, (I.1 + I.2) / 2) y x

/-- the intervals reached -/
def dec : List Bool → ℚ × ℚ → ℚ × ℚ → (ℚ × ℚ) × (ℚ × ℚ)
  | [], I, J => (I, J)
  | true :: bs, I, J => (dec bs J ((I.1 + I.2) / 2, I.2)).swap
  | false :: bs, I, J => (dec bs J (I.1, (I.1 + I.2) / 2)).swap

theorem enc_length (k : Nat) : ∀ I J x y, (enc k I J x y).length = k := by
  induction k with
  | zero => intros; rfl
  | succ k ih => intro I J x y; unfold enc; split_ifs <;> simp [ih]

theorem dec_enc (k : Nat) : ∀ I J x y, I.1 ≤ x → x < I.2 → J.1 ≤ y → y < J.2 →
    let r := dec (enc k I J x y) I J
    r.1.1 ≤ x ∧ x < r.1.2 ∧ r.2.1 ≤ y ∧ y < r.2.2 := by
  induction k with
  | zero => intro I J x y h1 h2 h3 h4; exact ⟨h1, h2, h3, h4⟩
  | succ k ih =>
    intro I J x y h1 h2 h3 h4
    unfold enc
    split_ifs with h
    · obtain ⟨a, b, c, d⟩ := ih J ((I.1 + I.2) / 2, I.2) y x h3 h4 h h2
      exact ⟨c, d, a, b⟩
    · obtain ⟨a, b, c, d⟩ := ih J (I.1, (I.1 + I.2) / 2) y x h3 h4 h1 (not_le.1 h)
      exact ⟨c, d, a, b⟩

theorem dec_sub (bs : List Bool) : ∀ I J, I.1 < I.2 → J.1 < J.2 →
    let r := dec bs I J
    I.1 ≤ r.1.1 ∧ r.1.1 < r.1.2 ∧ r.1.2 ≤ I.2 ∧ J.1 ≤ r.2.1 ∧ r.2.1 < r.2.2 ∧ r.2.2 ≤ J.2 := by
  induction bs with
  | nil => intro I J h1 h2; exact ⟨le_refl _, h1, le_refl _, le_refl _, h2, le_refl _⟩
  | cons b bs ih =>
    intro I J h1 h2
    cases b
    · obtain ⟨a, b, c, d, e, f⟩ := ih J (I.1, (I.1 + I.2) / 2) h2 (by simp only; linarith)
      exact ⟨d, e, le_trans f (by simp only; linarith), a, b, c⟩
    · obtain ⟨a, b, c, d, e, f⟩ := ih J ((I.1 + I.2) / 2, I.2) h2 (by simp only; linarith)
      exact ⟨le_trans (by simp only; linarith) d, e, f, a, b, c⟩

theorem enc_dec (bs : List Bool) : ∀ I J x y, I.1 < I.2 → J.1 < J.2 →
    (let r := dec bs I J; r.1.1 ≤ x ∧ x < r.1.2 ∧ r.2.1 ≤ y ∧ y < r.2.2) → enc bs.length I J x y = bs := by
  induction bs with
  | nil => intros; rfl
  | cons b bs ih =>
    intro I J x y h1 h2 h
    cases b
    · have hJ : (I.1, (I.1 + I.2) / 2).1 < (I.1, (I.1 + I.2) / 2).2 := by simp only; linarith
      obtain ⟨-, -, -, -, -, f⟩ := dec_sub bs J (I.1, (I.1 + I.2) / 2) h2 hJ
      obtain ⟨p, q, r, s⟩ := h
      show enc (bs.length + 1) I J x y = _
      unfold enc
      rw [if_neg (not_le.2 (lt_of_lt_of_le q f)), ih J _ y x h2 hJ ⟨r, s, p, q⟩]
    · have hJ : ((I.1 + I.2) / 2, I.2).1 < ((I.1 + I.2) / 2, I.2).2 := by simp only; linarith
      obtain ⟨-, -, -, d, -, -⟩ := dec_sub bs J ((I.1 + I.2) / 2, I.2) h2 hJ
      obtain ⟨p, q, r, s⟩ := h
      show enc (bs.length + 1) I J x y = _
      unfold enc
      rw [if_pos (le_trans d p), ih J _ y x h2 hJ ⟨r, s, p, q⟩]

/-- the alphabet of geohash -/
def alphabet : List Char := "0123456789bcdefghjkmnpqrstuvwxyz".toList

def charOf (a b c d e : Bool) : Char := alphabet.getD (a.toNat * 16 + b.toNat * 8 + c.toNat * 4 + d.toNat * 2 + e.toNat) '0'

def bitsOf (c : Char) : List Bool :=
  let i := alphabet.findIdx (· == c)
  [i.testBit 4, i.testBit 3, i.testBit 2, i.testBit 1, i.testBit 0]

theorem bitsOf_charOf : ∀ a b c d e : Bool, bitsOf (charOf a b c d e) = [a, b, c, d, e] := by decide +kernel

def pack : List Bool → List Char
  | a :: b :: c :: d :: e :: rest => charOf a b c d e :: pack rest
  | _ => []

theorem pack_spec (n : Nat) : ∀ bs : List Bool, bs.length = 5 * n → (pack bs).length = n ∧ (pack bs).flatMap bitsOf = bs := by
  induction n with
  | zero =>
    intro bs h
    rw [List.length_eq_zero_iff.1 (by omega : bs.length = 0)]
    exact ⟨rfl, rfl⟩
  | succ n ih =>
    intro bs h
    match bs, h with
    | a :: b :: c :: d :: e :: rest, h =>
      obtain ⟨h1, h2⟩ := ih rest (by simp at h; omega)
      refine ⟨by simp [pack, h1], ?_⟩
      rw [pack, List.flatMap_cons, bitsOf_charOf, h2]; rfl

/-- finite values -/
def num : XR ℚ → ℚ
  | .fin q => q
  | _ => 0

def encode (lat lng : XR ℚ) (n : Nat) : String :=
  String.ofList (pack (enc (5 * n) (-180, 180) (-90, 90) (num lng) (num lat)))

/-- intervals of longitude and latitude -/
def cell (h : String) : (ℚ × ℚ) × (ℚ × ℚ) := dec (h.toList.flatMap bitsOf) (-180, 180) (-90, 90)

def mid (I : ℚ × ℚ) : ℚ := (I.1 + I.2) / 2

theorem mid_lo {I : ℚ × ℚ} (h : I.1 < I.2) : I.1 ≤ mid I := by unfold mid; linarith
theorem mid_hi {I : ℚ × ℚ} (h : I.1 < I.2) : mid I ≤ I.2 := by unfold mid; linarith

def box (h : String) : HashBox (XR ℚ) :=
  ⟨.fin (cell h).2.1, .fin (cell h).2.2, .fin (cell h).1.1, .fin (cell h).1.2⟩

def center (h : String) : XR ℚ × XR ℚ := (.fin (mid (cell h).2), .fin (mid (cell h).1))

def lib : GeohashLib (XR ℚ) where
  EncodeWithPrecision := encode
  DecodeCenter := center
  BoundingBox := box
  Neighbors h :=
    let b := box h
    let c := center h
    let dlat := b.MaxLat - b.MinLat
    let dlng := b.MaxLng - b.MinLng
    [encode (c.1 + dlat) c.2 h.length, encode (c.1 + dlat) (c.2 + dlng) h.length, encode c.1 (c.2 + dlng) h.length,
     encode (c.1 - dlat) (c.2 + dlng) h.length, encode (c.1 - dlat) c.2 h.length, encode (c.1 - dlat) (c.2 - dlng) h.length,
     encode c.1 (c.2 - dlng) h.length, encode (c.1 + dlat) (c.2 - dlng) h.length]

theorem onGlobe {lat lng : XR ℚ} (h : OnGlobe lat lng) : ∃ a b : ℚ, lat = .fin a ∧ lng = .fin b ∧
    -90 ≤ a ∧ a < 90 ∧ -180 ≤ b ∧ b < 180 := by
  obtain ⟨h1, h2, h3, h4⟩ := h
  have e90 : (lit 90 : XR ℚ) = .fin 90 := by rw [XR.fin_lit]; norm_num
  have e180 : (lit 180 : XR ℚ) = .fin 180 := by rw [XR.fin_lit]; norm_num
  unfold Le at h1 h3
  rw [e90] at h1 h2
  rw [e180] at h3 h4
  match lat, lng, h1, h2, h3, h4 with
  | .fin a, .fin b, h1, h2, h3, h4 =>
    exact ⟨a, b, rfl, rfl, of_decide_eq_true h1, of_decide_eq_true h2, of_decide_eq_true h3, of_decide_eq_true h4⟩

theorem cell_encode (a b : ℚ) (n : Nat) : cell (encode (.fin a) (.fin b) n) =
    dec (enc (5 * n) (-180, 180) (-90, 90) b a) (-180, 180) (-90, 90) := by
  unfold cell encode
  rw [String.toList_ofList, (pack_spec n _ (enc_length _ _ _ _ _)).2]; rfl

theorem le_fin {a b : ℚ} (h : a ≤ b) : Le (.fin a : XR ℚ) (.fin b) := decide_eq_true h

theorem length_ok (lat lng : XR ℚ) (n : Nat) : (encode lat lng n).length = n := by
  unfold encode
  rw [← String.length_toList, String.toList_ofList, (pack_spec n _ (enc_length _ _ _ _ _)).1]

theorem box_ok (a b : ℚ) (n : Nat) (h1 : -90 ≤ a) (h2 : a < 90) (h3 : -180 ≤ b) (h4 : b < 180) :
    let c := cell (encode (.fin a) (.fin b) n)
    c.1.1 ≤ b ∧ b < c.1.2 ∧ c.2.1 ≤ a ∧ a < c.2.2 := by
  rw [cell_encode]
  exact dec_enc (5 * n) (-180, 180) (-90, 90) b a h3 h4 h1 h2

theorem cell_proper (h : String) : (cell h).1.1 < (cell h).1.2 ∧ (cell h).2.1 < (cell h).2.2 := by
  obtain ⟨-, b, -, -, e, -⟩ := dec_sub (h.toList.flatMap bitsOf) (-180, 180) (-90, 90) (by norm_num) (by norm_num)
  exact ⟨b, e⟩

theorem recode_ok (a b : ℚ) (n : Nat) :
    enc (5 * n) (-180, 180) (-90, 90) (mid (cell (encode (.fin a) (.fin b) n)).1) (mid (cell (encode (.fin a) (.fin b) n)).2) =
      enc (5 * n) (-180, 180) (-90, 90) b a := by
  have key := enc_dec (enc (5 * n) (-180, 180) (-90, 90) b a) (-180, 180) (-90, 90)
    (mid (cell (encode (.fin a) (.fin b) n)).1) (mid (cell (encode (.fin a) (.fin b) n)).2) (by norm_num) (by norm_num) (by
      obtain ⟨-, q, -, -, e, -⟩ := dec_sub (enc (5 * n) (-180, 180) (-90, 90) b a) (-180, 180) (-90, 90)
        (by norm_num) (by norm_num)
      rw [cell_encode]
      refine ⟨?_, ?_, ?_, ?_⟩ <;> · unfold mid; linarith)
  rwa [enc_length] at key

theorem encode_congr {a b a' b' : ℚ} {n : Nat}
    (h : enc (5 * n) (-180, 180) (-90, 90) b a = enc (5 * n) (-180, 180) (-90, 90) b' a') :
    encode (.fin a) (.fin b) n = encode (.fin a') (.fin b') n := by
  unfold encode num
  rw [h]

theorem lib_ok : GeohashOk lib where
  length := fun lat lng n _ _ => length_ok lat lng n
  box := by
    intro lat lng n hp _
    obtain ⟨a, b, rfl, rfl, h1, h2, h3, h4⟩ := onGlobe hp
    obtain ⟨p, q, r, s⟩ := box_ok a b n h1 h2 h3 h4
    exact ⟨le_fin r, le_fin s.le, le_fin p, le_fin q.le⟩
  center := by
    intro lat lng n hp _
    obtain ⟨b, e⟩ := cell_proper (encode lat lng n)
    exact ⟨le_fin (mid_lo e), le_fin (mid_hi e), le_fin (mid_lo b), le_fin (mid_hi b)⟩
  recode := by
    intro lat lng n hp _
    obtain ⟨a, b, rfl, rfl, -⟩ := onGlobe hp
    exact encode_congr (recode_ok a b n)
  neighbors := fun h => rfl

/-- the published example: 57.64911° N, 10.40744° E has the code `u4pruydqqvj`; its northern neighbour -/
example : OnGlobe (.fin (5764911 / 100000) : XR ℚ) (.fin (1040744 / 100000)) ∧
    GeohashEncode lib ⟨.fin (1040744 / 100000), .fin (5764911 / 100000)⟩ 11 4326 = "u4pruydqqvj" ∧
    (GeohashGetAllNeighbors lib "dqcjq" 4326) = ["dqcjw", "dqcjx", "dqcjr", "dqcjp", "dqcjn", "dqcjj", "dqcjm", "dqcjt"] := by
  refine ⟨?_, ?_, ?_⟩
  · unfold OnGlobe Le; decide +kernel
  · decide +kernel
  · decide +kernel

end RefHash

/-! ## C97 -/

section
variable {LL P : Type}

/-- **C97.** For a library that behaves as assumed, and a point `X = lng`, `Y = lat` in degrees: the id is
not zero, and looking up the centre of the cell at the same level gives the cell; the boundary has four
corners. -/
theorem C97_cell (lib : S2Lib F LL P) (isCell : Nat → Prop) (ok : S2Ok lib isCell) (p : Point F) (hp : OnGlobe p.Y p.X)
    (level : Int) (h0 : 0 ≤ level) (h30 : level ≤ 30) :
    S2GetCellID lib p level 4326 ≠ 0 ∧
    (∃ c, S2GetCenter lib (S2GetCellID lib p level 4326) 4326 = some c ∧
      S2GetCellID lib c level 4326 = S2GetCellID lib p level 4326) ∧
    (∃ b, S2GetBoundary lib (S2GetCellID lib p level 4326) 4326 = some b ∧ b.length = 4) := by
  obtain ⟨h1, h2⟩ := ok.cell p.Y p.X level hp h0 h30
  have e : S2GetCellID lib p level 4326 = lib.Parent (lib.CellIDFromLatLng (lib.LatLngFromDegrees p.Y p.X)) level := by
    unfold S2GetCellID; rw [if_pos rfl]
  rw [e]
  refine ⟨ok.nonzero _ h1, ⟨_, by unfold S2GetCenter; rw [if_pos rfl], ?_⟩, ⟨_, by unfold S2GetBoundary; rw [if_pos rfl], ?_⟩⟩
  · have h3 := ok.center _ h1
    unfold S2GetCellID
    rw [if_pos rfl]
    rw [h2] at h3
    exact h3
  · rw [List.length_map]; exact ok.corners _ h1

/-- **C97 (axes).** Centre, corners and neighbours are those of the library, with `X` the longitude. -/
theorem C97_axes (lib : S2Lib F LL P) (id : Nat) :
    S2GetCenter lib id 4326 = some ⟨lib.lngDegrees (lib.LatLng id), lib.latDegrees (lib.LatLng id)⟩ ∧
    (∃ b, S2GetBoundary lib id 4326 = some b ∧
      b.map (·.X) = (lib.cellVertices id).map (fun v => lib.lngDegrees (lib.LatLngFromPoint v)) ∧
      b.map (·.Y) = (lib.cellVertices id).map (fun v => lib.latDegrees (lib.LatLngFromPoint v))) ∧
    S2GetAllNeighbors lib id 4326 = lib.AllNeighbors id (lib.Level id) := by
  refine ⟨by unfold S2GetCenter; rw [if_pos rfl], ⟨_, by unfold S2GetBoundary; rw [if_pos rfl], ?_, ?_⟩,
    by unfold S2GetAllNeighbors; rw [if_pos rfl]⟩ <;> simp

/-- **C97 (other srids).** With any srid but 4326 the functions answer zero, nil or nothing. -/
theorem C97_srid (lib : S2Lib F LL P) (p : Point F) (level : Int) (id : Nat) (srid : Int) (h : srid ≠ 4326) :
    S2GetCellID lib p level srid = 0 ∧ S2GetCenter lib id srid = none ∧ S2GetBoundary lib id srid = none ∧
    S2GetAllNeighbors lib id srid = [] := by
  unfold S2GetCellID S2GetCenter S2GetBoundary S2GetAllNeighbors
  rw [if_neg h, if_neg h, if_neg h, if_neg h]
  exact ⟨rfl, rfl, rfl, rfl⟩

end

/-! ### a library that behaves as assumed: a grid of longitude and latitude -/

namespace RefGrid
open RefHash (num)

def mk (l i j : Nat) : Nat := Nat.pair l (Nat.pair i j) + 1

def un (id : Nat) : Nat × Nat × Nat :=
  let a := (id - 1).unpair
  (a.1, a.2.unpair)

theorem un_mk (l i j : Nat) : un (mk l i j) = (l, i, j) := by
  unfold un mk
  simp

/-- row or column `⌊(x + h) / (2h) · 2^l⌋` -/
def slot (h x : ℚ) (l : Nat) : Nat := ⌊(x + h) / (2 * h) * 2 ^ l⌋₊

def mid (h : ℚ) (l i : Nat) : ℚ := (i + 1 / 2) / 2 ^ l * (2 * h) - h

def lib : S2Lib (XR ℚ) (ℚ × ℚ) (ℚ × ℚ) where
  LatLngFromDegrees lat lng := (num lat, num lng)
  latDegrees ll := .fin ll.1
  lngDegrees ll := .fin ll.2
  CellIDFromLatLng ll := mk 30 (slot 90 ll.1 30) (slot 180 ll.2 30)
  Parent id level :=
    let u := un id
    mk level.toNat (u.2.1 / 2 ^ (u.1 - level.toNat)) (u.2.2 / 2 ^ (u.1 - level.toNat))
  Level id := (un id).1
  LatLng id := (mid 90 (un id).1 (un id).2.1, mid 180 (un id).1 (un id).2.2)
  cellVertices id := [(0, 0), (0, 1), (1, 1), (1, 0)].map fun (d : ℚ × ℚ) =>
    (((un id).2.1 + d.1) / 2 ^ (un id).1 * 180 - 90, ((un id).2.2 + d.2) / 2 ^ (un id).1 * 360 - 180)
  LatLngFromPoint p := p
  PointFromLatLng p := p
  AllNeighbors id _ := [id - 1, id + 1]
  covering pts _ level := pts.map fun p => mk level.toNat (slot 90 p.1 level.toNat) (slot 180 p.2 level.toNat)

def isCell (id : Nat) : Prop := ∃ l i j, l ≤ 30 ∧ id = mk l i j

theorem slot_mid (h : ℚ) (hh : 0 < h) (l i : Nat) (hl : l ≤ 30) : slot h (mid h l i) 30 / 2 ^ (30 - l) = i := by
  have e : (mid h l i + h) / (2 * h) * 2 ^ 30 = (i + 1 / 2) * 2 ^ (30 - l) := by
    have h30 : (2 : ℚ) ^ 30 = 2 ^ l * 2 ^ (30 - l) := by rw [← pow_add, Nat.add_sub_cancel' hl]
    unfold mid
    rw [h30]
    have : (2 : ℚ) ^ l ≠ 0 := by positivity
    field_simp
    ring
  unfold slot
  rw [e]
  have h1 : (2 ^ (30 - l) * i : ℕ) ≤ ⌊((i : ℚ) + 1 / 2) * 2 ^ (30 - l)⌋₊ := by
    apply Nat.le_floor
    push_cast
    have : (0 : ℚ) < 2 ^ (30 - l) := by positivity
    nlinarith
  have h2 : ⌊((i : ℚ) + 1 / 2) * 2 ^ (30 - l)⌋₊ < 2 ^ (30 - l) * (i + 1) := by
    rw [Nat.floor_lt (by positivity)]
    push_cast
    have : (0 : ℚ) < 2 ^ (30 - l) := by positivity
    nlinarith
  have hp : 0 < 2 ^ (30 - l) := by positivity
  apply Nat.le_antisymm
  · exact Nat.le_of_lt_succ ((Nat.div_lt_iff_lt_mul hp).2 (by rw [Nat.mul_comm]; exact h2))
  · rw [Nat.le_div_iff_mul_le hp, Nat.mul_comm]; exact h1

theorem lib_ok : S2Ok lib isCell where
  cell := by
    intro lat lng level _ h0 h30
    refine ⟨⟨level.toNat, _, _, by omega, rfl⟩, ?_⟩
    show ((un (mk _ _ _)).1 : Int) = level
    rw [un_mk]
    show ((level.toNat : Nat) : Int) = level
    omega
  center := by
    rintro id ⟨l, i, j, hl, rfl⟩
    show (let u := un (mk 30 (slot 90 (mid 90 (un (mk l i j)).1 (un (mk l i j)).2.1) 30)
        (slot 180 (mid 180 (un (mk l i j)).1 (un (mk l i j)).2.2) 30))
      mk (((un (mk l i j)).1 : Int)).toNat (u.2.1 / 2 ^ (u.1 - (((un (mk l i j)).1 : Int)).toNat))
        (u.2.2 / 2 ^ (u.1 - (((un (mk l i j)).1 : Int)).toNat))) = _
    simp only [un_mk, Int.toNat_natCast]
    rw [slot_mid 90 (by norm_num) l i hl, slot_mid 180 (by norm_num) l j hl]
  corners := fun _ _ => rfl
  nonzero := by
    rintro id ⟨l, i, j, -, rfl⟩
    exact Nat.succ_ne_zero _

end RefGrid

/-! ## C98 -/

theorem newPolygon_frame {α : Type} [Inhabited α] (grow : Nat → Nat → Nat) (eq : α → α → Bool) (m : Mem α) (a b : α) (mid : List α) :
    ∃ m' r, NewPolygonFromPois grow eq m (a :: mid ++ [b]) = .ok (m', r) ∧ m'.Valid r ∧
      m'.read r = (a :: mid ++ [b]) ++ (if eq a b then [] else [a]) ∧ ∀ t, m.Valid t → m'.read t = m.read t := by
  obtain ⟨m', line, e, hv, hr, -, hk, -, -⟩ := copyLoop_spec grow (a :: mid ++ [b]) m Slice.nil (nil_valid m)
  have hr' : m'.read line = a :: mid ++ [b] := by rw [hr]; simp [Mem.read, Slice.nil]
  have fr : ∀ t, m.Valid t → m'.read t = m.read t ∧ (m'.append grow line [a]).1.read t = m.read t := by
    intro t ht
    obtain ⟨m₁, l₁, e₁, -, -, h1, h2, -⟩ := C27_newLineString_partial grow m (a :: mid ++ [b]) t ht [a]
    have e₂ : (m', line) = (m₁, l₁) := by rw [← e, ← e₁]; rfl
    cases e₂
    exact ⟨h1, h2⟩
  have hlen : line.len = mid.length + 2 := by rw [← hv.length, hr']; simp
  have hver : LineVerify line = none := by unfold LineVerify; rw [if_neg (by omega), if_neg (by omega)]
  have g1 : m'.get line 0 = .ok a := get_ok 0 a (by rw [hr']; rfl)
  have g2 : m'.get line ((line.len : Int) - 1) = .ok b := by
    have : (line.len : Int) - 1 = ((line.len - 1 : Nat) : Int) := by omega
    rw [this]
    refine get_ok _ b ?_
    rw [hr', hlen, show a :: mid ++ [b] = (a :: mid) ++ [b] from rfl, List.getElem?_append_right (by simp)]
    simp
  unfold NewPolygonFromPois NewLinearRing NewRingFromLine
  simp only [e, hver, ne_eq, not_true_eq_false, if_false, g1, g2, bind, Except.bind]
  by_cases hq : eq a b = true
  · rw [if_pos hq, if_pos hq]
    exact ⟨m', line, rfl, hv, by rw [hr', List.append_nil], fun t ht => (fr t ht).1⟩
  · rw [if_neg hq, if_neg hq]
    obtain ⟨h1, h2, -⟩ := Mem.append_spec grow hv [a]
    exact ⟨_, _, rfl, h2, by rw [h1, hr'], fun t ht => (fr t ht).2⟩

section
variable {LL P : Type}

/-- the library's loop through the points, in order -/
def Spec.loopOf (lib : S2Lib F LL P) (pts : List (Point F)) : List P := pts.map fun p => s2Point lib p.Y p.X

/-- **C98 (counter-clockwise rings).** The library gets the loop in the order given, closed; but the points
of the caller's ring are left in reverse order.  Other memory is not touched. -/
theorem C98_ccw (grow : Nat → Nat → Nat) (lib : S2Lib F LL P) (m : Mem (Point F)) (e : Slice) (holes : List Slice)
    (he : m.Valid e) (a b : Point F) (mid : List (Point F)) (hr : m.read e = a :: mid ++ [b])
    (hccw : IsCCW ((e :: holes).map m.read) = true) (level srid : Int) :
    ∃ m', S2RegionCoverer grow lib m (e :: holes) level srid = .ok (m',
        lib.covering (loopOf lib ((if Point.Equal b a then [] else [b]) ++ a :: mid ++ [b])) (s2Point lib b.Y b.X) level) ∧
      m'.read e = (m.read e).reverse ∧
      ∀ t, m.Valid t → t.arr ≠ e.arr → m'.read t = m.read t := by
  obtain ⟨m₁, h1, hv1, hr1, hf1⟩ := C25_reverse m e he
  have hrev : m₁.read e = b :: mid.reverse ++ [a] := by rw [hr1, hr]; simp
  obtain ⟨m₂, r, h2, hv2, hr2, hf2⟩ := newPolygon_frame grow Point.Equal m₁ b a mid.reverse
  rw [← hrev] at h2
  have g : m₂.get r 0 = .ok b := get_ok 0 b (by rw [hr2]; rfl)
  refine ⟨m₂, ?_, by rw [hf2 e hv1, hr1], fun t ht hne => by rw [hf2 t (hf1 t ht hne).1, (hf1 t ht hne).2]⟩
  unfold S2RegionCoverer
  rw [if_pos hccw]
  simp only [bind, Except.bind, exteriorSlice, List.headD_cons, h1, h2, g]
  unfold toLoop loopOf s2Point
  rw [hr2, ← List.map_reverse]
  congr 4
  simp only [List.reverse_append, List.reverse_cons, List.reverse_reverse, List.reverse_nil, List.nil_append, List.append_assoc]
  split_ifs <;> simp

/-- **C98 (other rings).** The library gets the loop in reverse order and nothing is changed. -/
theorem C98_cw (grow : Nat → Nat → Nat) (lib : S2Lib F LL P) (m : Mem (Point F)) (e : Slice) (holes : List Slice)
    (a : Point F) (rest : List (Point F)) (hr : m.read e = a :: rest)
    (hcw : IsCCW ((e :: holes).map m.read) = false) (level srid : Int) :
    S2RegionCoverer grow lib m (e :: holes) level srid = .ok (m,
      lib.covering (loopOf lib (a :: rest).reverse) (s2Point lib a.Y a.X) level) := by
  have g : m.get e 0 = .ok a := get_ok 0 a (by rw [hr]; rfl)
  unfold S2RegionCoverer
  rw [if_neg (by rw [hcw]; simp)]
  simp only [bind, Except.bind, exteriorSlice, List.headD_cons, g]
  unfold toLoop loopOf s2Point
  rw [hr, ← List.map_reverse]

/-- **C98 (empty).** A polygon without rings or with an empty exterior ring panics. -/
theorem C98_empty_panics (grow : Nat → Nat → Nat) (lib : S2Lib F LL P) (m : Mem (Point F)) (poly : List Slice)
    (h : m.read (exteriorSlice poly) = []) (hc : IsCCW (poly.map m.read) = false) (level srid : Int) :
    S2RegionCoverer grow lib m poly level srid = .error .index := by
  have g : m.get (exteriorSlice poly) 0 = .error .index := by
    unfold Mem.get
    rw [if_neg (by omega), h]
    rfl
  unfold S2RegionCoverer
  rw [if_neg (by rw [hc]; simp)]
  simp only [bind, Except.bind, g]

end

section
variable {LL P : Type} {K : Type} [Field K] [LinearOrder K] [IsStrictOrderedRing K]

theorem equal_self (p : K × K) : Point.Equal (pt p) (pt p) = true := by
  have h : GoFloat.lt (GoFloat.abs ((XR.fin p.1 : XR K) - XR.fin p.1)) COORDPRESION = true ∧
      GoFloat.lt (GoFloat.abs ((XR.fin p.2 : XR K) - XR.fin p.2)) COORDPRESION = true := by
    rw [XR.fin_sub, XR.fin_sub, sub_self, sub_self, XR.fin_abs, abs_zero]
    have : GoFloat.lt (XR.fin 0 : XR K) COORDPRESION = true := by
      have h := prec_pos_xr (K := K)
      rwa [XR.fin_lit, Nat.cast_zero] at h
    exact ⟨this, this⟩
  unfold Point.Equal pt
  simp only [h.1, h.2, Bool.and_self]

/-- **C98 (orientation).** For a closed ring of non-zero area, given in either direction, the library gets
the corners in counter-clockwise order, starting and ending at the first corner, which is also the start
point of the covering; so both directions give the same cells. -/
theorem C98_orientation (grow : Nat → Nat → Nat) (lib : S2Lib (XR K) LL P) (p : K × K) (c : List (K × K))
    (ha : GetArea (.polygon [ring (p :: c)]) ≠ .fin 0) :
    ∃ pts, (pts = ring (p :: c) ∨ pts = (ring (p :: c)).reverse) ∧ IsCCW [pts] = true ∧
      ∀ (m : Mem (Point (XR K))) (e : Slice) (holes : List Slice) (level srid : Int), m.Valid e →
        m.read e = ring (p :: c) ∨ m.read e = (ring (p :: c)).reverse →
        ∃ m', S2RegionCoverer grow lib m (e :: holes) level srid = .ok (m',
          lib.covering (loopOf lib pts) (s2Point lib (.fin p.2) (.fin p.1)) level) := by
  have hflip := C31_ccw_reverse (p :: c) [] ha
  have hring : ring (p :: c) = pt p :: c.map pt ++ [pt p] := by simp [ring]
  have hrev : (ring (p :: c)).reverse = pt p :: (c.map pt).reverse ++ [pt p] := by rw [hring]; simp
  have head : ∀ (l : List (Point (XR K))) ls, IsCCW (l :: ls) = IsCCW [l] := fun _ _ => rfl
  have key : ∀ pts : List (Point (XR K)), (∃ mid, pts = pt p :: mid ++ [pt p]) → IsCCW [pts] = true → IsCCW [pts.reverse] = false →
      ∀ (m : Mem (Point (XR K))) (e : Slice) (holes : List Slice) (level srid : Int), m.Valid e →
        m.read e = pts ∨ m.read e = pts.reverse →
        ∃ m', S2RegionCoverer grow lib m (e :: holes) level srid = .ok (m',
          lib.covering (loopOf lib pts) (s2Point lib (.fin p.2) (.fin p.1)) level) := by
    rintro pts ⟨mid, rfl⟩ h1 h2 m e holes level srid he hr
    rcases hr with hr | hr
    · obtain ⟨m', h3, -⟩ := C98_ccw grow lib m e holes he (pt p) (pt p) mid hr (by
        rw [List.map_cons, head, hr]; exact h1) level srid
      rw [if_pos (equal_self p), List.nil_append] at h3
      exact ⟨m', h3⟩
    · have hr' : m.read e = pt p :: (mid.reverse ++ [pt p]) := by rw [hr]; simp
      have h3 := C98_cw grow lib m e holes (pt p) _ hr' (by
        rw [List.map_cons, head, hr]; exact h2) level srid
      refine ⟨m, ?_⟩
      rw [h3]
      simp [pt]
  cases hc : IsCCW [ring (p :: c)] with
  | true =>
    refine ⟨ring (p :: c), Or.inl rfl, hc, fun m e holes level srid he hr => ?_⟩
    exact key _ ⟨_, hring⟩ hc (by rw [hflip, hc]; rfl) m e holes level srid he hr
  | false =>
    have hc' : IsCCW [(ring (p :: c)).reverse] = true := by rw [hflip, hc]; rfl
    refine ⟨(ring (p :: c)).reverse, Or.inr rfl, hc', fun m e holes level srid he hr => ?_⟩
    exact key _ ⟨_, hrev⟩ hc' (by rw [List.reverse_reverse, hc]) m e holes level srid he (by
      rw [List.reverse_reverse]; exact hr.symm)

end

/-- a square, counter-clockwise, in memory -/
def squareMem : Mem (Point (XR ℚ)) := ⟨[ring [(0, 0), (2, 0), (2, 2), (0, 2)]]⟩

def squareSlice : Slice := ⟨0, 0, 5, 5⟩

/-- **C98** is false: the call reverses the caller's ring. -/
theorem C98_argument_false : ∃ m' ids, S2RegionCoverer (fun _ _ => 0) RefGrid.lib squareMem [squareSlice] 3 4326 = .ok (m', ids) ∧
    squareMem.read squareSlice = ring [((0 : ℚ), (0 : ℚ)), (2, 0), (2, 2), (0, 2)] ∧
    m'.read squareSlice = ring [((0 : ℚ), (0 : ℚ)), (0, 2), (2, 2), (2, 0)] ∧
    IsCCW [squareMem.read squareSlice] = true ∧ IsCCW [m'.read squareSlice] = false := by
  obtain ⟨m', h1, h2, -⟩ := C98_ccw (fun _ _ => 0) RefGrid.lib squareMem squareSlice [] ⟨by decide, by decide +kernel⟩
    (pt (0, 0)) (pt (0, 0)) [pt (2, 0), pt (2, 2), pt (0, 2)] (by decide +kernel) (by decide +kernel) 3 4326
  refine ⟨m', _, h1, by decide +kernel, ?_, by decide +kernel, ?_⟩
  · rw [h2]; decide +kernel
  · rw [h2]; decide +kernel

/-- the hypotheses of `C98_orientation` hold of the square -/
example : GetArea (.polygon [ring [((0 : ℚ), (0 : ℚ)), (2, 0), (2, 2), (0, 2)]]) ≠ .fin 0 ∧ squareMem.Valid squareSlice ∧
    squareMem.read squareSlice = ring [((0 : ℚ), (0 : ℚ)), (2, 0), (2, 2), (0, 2)] :=
  ⟨by decide +kernel, ⟨by decide, by decide +kernel⟩, by decide +kernel⟩

end GoGeo
