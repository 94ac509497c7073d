import Mathlib.Data.List.Basic

/-!
# Package regexp

A backtracking matcher for the constructs the package uses: character classes, sequence, greedy star, capturing groups that are matched exactly once.
Go's `regexp` returns the leftmost match, and among those the one a backtracking search finds first (documentation of package regexp);
the bodies of the stars here match no empty string.
-/

namespace GoGeo.Regex

inductive Re where
  /-- one character of a class -/
  | chr (p : Char → Bool)
  | seq (a b : Re)
  /-- `a*` -/
  | star (a : Re)
  /-- `(a)` -/
  | cap (a : Re)

/-- `a+` -/
def plus (a : Re) : Re := .seq a (.star a)

abbrev Caps := List (List Char)
/-- what is left to do after a match, given the rest of the text and the groups so far -/
abbrev Cont := List Char → Caps → Option Caps

/-- greedy repetition; each round must consume something -/
def starM (f : List Char → Caps → Cont → Option Caps) : Nat → List Char → Caps → Cont → Option Caps
  | 0, s, g, k => k s g
  | n + 1, s, g, k =>
    match f s g (fun r g' => if r.length < s.length then starM f n r g' k else none) with
    | some x => some x
    | none => k s g

/-- match a prefix of the text and go on with `k`; the first success in order of preference -/
def Re.m : Re → List Char → Caps → Cont → Option Caps
  | .chr p, s, g, k =>
    match s with
    | [] => none
    | c :: s => if p c then k s g else none
  | .seq a b, s, g, k => a.m s g fun r g' => b.m r g' k
  | .star a, s, g, k => starM a.m s.length s g k
  | .cap a, s, g, k => a.m s g fun r g' => k r (g' ++ [s.take (s.length - r.length)])

/-- `FindStringSubmatch`: the whole leftmost match and its groups -/
def Re.find (r : Re) (s : List Char) : Option Caps :=
  match r.m s [] fun rest g => some (s.take (s.length - rest.length) :: g) with
  | some x => some x
  | none =>
    match s with
    | [] => none
    | _ :: t => r.find t

/-! ### lemmas -/

theorem seq_m (a b : Re) (s : List Char) (g : Caps) (k : Cont) : (Re.seq a b).m s g k = a.m s g fun r g' => b.m r g' k := rfl
theorem cap_m (a : Re) (s : List Char) (g : Caps) (k : Cont) : (Re.cap a).m s g k = a.m s g fun r g' => k r (g' ++ [s.take (s.length - r.length)]) := rfl
theorem chr_nil (p : Char → Bool) (g : Caps) (k : Cont) : (Re.chr p).m [] g k = none := rfl
theorem chr_cons (p : Char → Bool) (c : Char) (s : List Char) (g : Caps) (k : Cont) : (Re.chr p).m (c :: s) g k = if p c then k s g else none := rfl
theorem star_m (a : Re) (s : List Char) (g : Caps) (k : Cont) : (Re.star a).m s g k = starM a.m s.length s g k := rfl
/-- a match at the beginning -/
theorem find_here (r : Re) (s : List Char) (x : Caps) (h : (r.m s [] fun rest g => some (s.take (s.length - rest.length) :: g)) = some x) : r.find s = some x := by
  rw [Re.find.eq_def, h]
/-- no match at the beginning -/
theorem find_next (r : Re) (c : Char) (s : List Char) (h : ∀ k, r.m (c :: s) [] k = none) : r.find (c :: s) = r.find s := by
  rw [Re.find.eq_def, h]

/-- what a greedy star of a class does on a maximal run `u`: the longest prefix with which `k` succeeds -/
def greedy (k : List Char → Option Caps) : List Char → List Char → Option Caps
  | [], t => k t
  | c :: u, t =>
    match greedy k u t with
    | some x => some x
    | none => k (c :: u ++ t)

theorem starM_chr (p : Char → Bool) (g : Caps) (k : Cont) : ∀ (u t : List Char) (n : Nat), u.length ≤ n → (∀ c ∈ u, p c = true) → (∀ c, t.head? = some c → p c = false) →
    starM (Re.chr p).m n (u ++ t) g k = greedy (fun r => k r g) u t
  | [], t, 0, _, _, _ => rfl
  | [], t, n + 1, _, _, ht => by
    rw [List.nil_append, starM]
    cases t with
    | nil => rfl
    | cons c t => simp only [Re.m, ht c rfl, Bool.false_eq_true, if_false, greedy]
  | c :: u, t, 0, hn, _, _ => by simp at hn
  | c :: u, t, n + 1, hn, hu, ht => by
    rw [starM]
    have hc : p c = true := hu c (by simp)
    have e : ∀ K : Cont, (Re.chr p).m (c :: u ++ t) g K = K (u ++ t) g := fun K => by simp [Re.m, hc]
    rw [e, if_pos (by simp), starM_chr p g k u t n (by simpa using hn) (fun x hx => hu x (by simp [hx])) ht]
    rfl

theorem star_chr (p : Char → Bool) (u t : List Char) (g : Caps) (k : Cont) (hu : ∀ c ∈ u, p c = true) (ht : ∀ c, t.head? = some c → p c = false) :
    (Re.star (.chr p)).m (u ++ t) g k = greedy (fun r => k r g) u t := by
  rw [Re.m]
  exact starM_chr p g k u t _ (by simp) hu ht

theorem greedy_all (k : List Char → Option Caps) (u t : List Char) (x : Caps) (h : k t = some x) : greedy k u t = some x := by
  induction u with
  | nil => exact h
  | cons c u ih => rw [greedy, ih]

/-- if the star takes everything and the rest succeeds, that is the result -/
theorem star_all (p : Char → Bool) (u t : List Char) (g : Caps) (k : Cont) (hu : ∀ c ∈ u, p c = true) (ht : ∀ c, t.head? = some c → p c = false) (x : Caps)
    (h : k t g = some x) : (Re.star (.chr p)).m (u ++ t) g k = some x := by
  rw [star_chr p u t g k hu ht]; exact greedy_all _ u t x h

theorem star_none (p : Char → Bool) (t : List Char) (g : Caps) (k : Cont) (ht : ∀ c, t.head? = some c → p c = false) :
    (Re.star (.chr p)).m t g k = k t g := star_chr p [] t g k (by simp) ht

theorem plus_all (p : Char → Bool) (u t : List Char) (g : Caps) (k : Cont) (h0 : u ≠ []) (hu : ∀ c ∈ u, p c = true) (ht : ∀ c, t.head? = some c → p c = false) (x : Caps)
    (h : k t g = some x) : (plus (.chr p)).m (u ++ t) g k = some x := by
  cases u with
  | nil => exact absurd rfl h0
  | cons c u =>
    unfold plus
    rw [Re.m, List.cons_append, Re.m]
    simp only [hu c (by simp), if_true]
    exact star_all p u t g k (fun y hy => hu y (by simp [hy])) ht x h

/-- all ways lead to the same result or nowhere, and one leads somewhere -/
theorem greedy_const (k : List Char → Option Caps) (x : Caps) : ∀ (u t : List Char), (∀ r, r <:+ u ++ t → k r = none ∨ k r = some x) → k (u ++ t) = some x →
    greedy k u t = some x
  | [], t, _, h => h
  | c :: u, t, h, h1 => by
    rw [greedy]
    by_cases h2 : k (u ++ t) = some x
    · rw [greedy_const k x u t (fun r hr => h r (hr.trans (by simp))) h2]
    · cases hg : greedy k u t with
      | none => exact h1
      | some y =>
        have : ∀ u : List Char, ∀ y, (∀ r, r <:+ u ++ t → k r = none ∨ k r = some x) → greedy k u t = some y → y = x := by
          intro u
          induction u with
          | nil =>
            intro y h hy
            rcases h t (by simp) with h | h
            · rw [greedy, h] at hy; cases hy
            · rw [greedy, h] at hy; cases hy; rfl
          | cons d u ih =>
            intro y h hy
            rw [greedy] at hy
            cases hg : greedy k u t with
            | some z =>
              rw [hg] at hy; cases hy
              exact ih _ (fun r hr => h r (hr.trans (by simp))) hg
            | none =>
              rw [hg] at hy
              rcases h (d :: u ++ t) (by simp) with h | h
              · simp only at hy; rw [h] at hy; cases hy
              · simp only at hy; rw [h] at hy; cases hy; rfl
        rw [this u y (fun r hr => h r (hr.trans (by simp))) hg]

theorem greedy_snoc (k : List Char → Option Caps) (u : List Char) (c : Char) (h : k [] = none) : greedy k (u ++ [c]) [] = greedy k u [c] := by
  induction u with
  | nil =>
    simp only [List.nil_append, greedy, h]
    rfl
  | cons d u ih =>
    rw [List.cons_append, greedy, ih, greedy]
    simp

/-- one round of a star that succeeds -/
theorem starM_step (f : List Char → Caps → Cont → Option Caps) (n : Nat) (s : List Char) (g : Caps) (k : Cont) (x : Caps)
    (h : f s g (fun r g' => if r.length < s.length then starM f n r g' k else none) = some x) : starM f (n + 1) s g k = some x := by
  rw [starM, h]

/-- a star whose body does not match -/
theorem starM_stop (f : List Char → Caps → Cont → Option Caps) (n : Nat) (s : List Char) (g : Caps) (k : Cont) (h : ∀ k', f s g k' = none) : starM f n s g k = k s g := by
  cases n with
  | zero => rfl
  | succ n => rw [starM, h]

theorem take_sub_length {s u t : List Char} (h : s = u ++ t) : s.take (s.length - t.length) = u := by
  subst h; simp

/-! ### soundness: what a match means, without the search -/

/-- `r` matches exactly `u`, with groups `g` -/
inductive Matches : Re → List Char → Caps → Prop
  | chr {p c} : p c = true → Matches (.chr p) [c] []
  | seq {a b u v g g'} : Matches a u g → Matches b v g' → Matches (.seq a b) (u ++ v) (g ++ g')
  | star_nil {a} : Matches (.star a) [] []
  | star_cons {a u v g g'} : Matches a u g → Matches (.star a) v g' → Matches (.star a) (u ++ v) (g ++ g')
  | cap {a u g} : Matches a u g → Matches (.cap a) u (g ++ [u])

theorem starM_sound {a : Re} (h : ∀ s g k x, a.m s g k = some x → ∃ u t g', s = u ++ t ∧ Matches a u g' ∧ k t (g ++ g') = some x) :
    ∀ (n : Nat) (s : List Char) (g : Caps) (k : Cont) (x : Caps), starM a.m n s g k = some x →
    ∃ u t g', s = u ++ t ∧ Matches (.star a) u g' ∧ k t (g ++ g') = some x
  | 0, s, g, k, x, e => ⟨[], s, [], rfl, .star_nil, by rw [List.append_nil]; exact e⟩
  | n + 1, s, g, k, x, e => by
    rw [starM] at e
    cases hm : a.m s g (fun r g' => if r.length < s.length then starM a.m n r g' k else none) with
    | none =>
      rw [hm] at e
      exact ⟨[], s, [], rfl, .star_nil, by rw [List.append_nil]; exact e⟩
    | some y =>
      rw [hm] at e
      cases e
      obtain ⟨u, t, g', hs, hu, hk⟩ := h _ _ _ _ hm
      split_ifs at hk
      obtain ⟨v, t', g'', ht, hv, hk'⟩ := starM_sound h n t _ k x hk
      exact ⟨u ++ v, t', g' ++ g'', by rw [hs, ht, List.append_assoc], .star_cons hu hv, by rw [← List.append_assoc]; exact hk'⟩

theorem m_sound : ∀ (r : Re) (s : List Char) (g : Caps) (k : Cont) (x : Caps), r.m s g k = some x →
    ∃ u t g', s = u ++ t ∧ Matches r u g' ∧ k t (g ++ g') = some x
  | .chr p, [], g, k, x, e => by cases e
  | .chr p, c :: s, g, k, x, e => by
    rw [chr_cons] at e
    split_ifs at e with hp
    exact ⟨[c], s, [], rfl, .chr hp, by rw [List.append_nil]; exact e⟩
  | .seq a b, s, g, k, x, e => by
    rw [seq_m] at e
    obtain ⟨u, t, g', hs, hu, hk⟩ := m_sound a _ _ _ _ e
    obtain ⟨v, t', g'', ht, hv, hk'⟩ := m_sound b _ _ _ _ hk
    exact ⟨u ++ v, t', g' ++ g'', by rw [hs, ht, List.append_assoc], .seq hu hv, by rw [← List.append_assoc]; exact hk'⟩
  | .star a, s, g, k, x, e => by
    rw [star_m] at e
    exact starM_sound (m_sound a) _ s g k x e
  | .cap a, s, g, k, x, e => by
    rw [cap_m] at e
    obtain ⟨u, t, g', hs, hu, hk⟩ := m_sound a _ _ _ _ e
    rw [take_sub_length hs, List.append_assoc] at hk
    exact ⟨u, t, g' ++ [u], hs, .cap hu, hk⟩

/-- what `find` returns is a match somewhere in the text -/
theorem find_sound (r : Re) : ∀ (s : List Char) (x : Caps), r.find s = some x → ∃ pre w post g, s = pre ++ w ++ post ∧ Matches r w g ∧ x = w :: g
  | s, x, e => by
    rw [Re.find.eq_def] at e
    cases hm : r.m s [] (fun rest g => some (s.take (s.length - rest.length) :: g)) with
    | some y =>
      rw [hm] at e
      cases e
      obtain ⟨u, t, g', hs, hu, hk⟩ := m_sound r _ _ _ _ hm
      simp only [Option.some.injEq] at hk
      rw [take_sub_length hs] at hk
      exact ⟨[], u, t, g', by simpa using hs, hu, by rw [← hk]; rfl⟩
    | none =>
      rw [hm] at e
      match s with
      | [] => cases e
      | c :: t =>
        obtain ⟨pre, w, post, g, hs, hw, hx⟩ := find_sound r t x e
        exact ⟨c :: pre, w, post, g, by rw [hs]; rfl, hw, hx⟩

end GoGeo.Regex
