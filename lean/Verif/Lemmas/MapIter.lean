import Verif.Lemmas.MapOrder

/-!
# Lemmas about iteration and the height bound
-/

namespace Verif.Map

variable {κ α : Type}

/-- Elements after a position. -/
def after (z : Pos κ α) : List (κ × α) := toList z.right ++ rights z.path

/-- Elements before a position. -/
def before (z : Pos κ α) : List (κ × α) := lefts z.path ++ toList z.left

/-- All elements from an optional position on. -/
def fromPos : Option (Pos κ α) → List (κ × α)
  | none => []
  | some z => (z.key, z.val) :: after z

/-- All elements up to an optional position, backwards. -/
def uptoPos : Option (Pos κ α) → List (κ × α)
  | none => []
  | some z => (z.key, z.val) :: (before z).reverse

theorem fromPos_firstPos (t : Tree κ α) (p : Path κ α) (h : t ≠ .nil) :
    fromPos (firstPos t p) = toList t ++ rights p := by
  induction t generalizing p with
  | nil => exact absurd rfl h
  | node b l k v r ihl _ =>
    cases l with
    | nil => simp [firstPos, fromPos, after, toList]
    | node lb ll lk lv lr =>
      simp only [firstPos]
      rw [ihl _ (by simp)]
      simp [rights, toList]

theorem uptoPos_lastPos (t : Tree κ α) (p : Path κ α) (h : t ≠ .nil) :
    uptoPos (lastPos t p) = (lefts p ++ toList t).reverse := by
  induction t generalizing p with
  | nil => exact absurd rfl h
  | node b l k v r _ ihr =>
    cases r with
    | nil => simp [lastPos, uptoPos, before, toList]
    | node rb rl rk rv rr =>
      simp only [lastPos]
      rw [ihr _ (by simp)]
      simp [lefts, toList]

theorem fromPos_climbNext (p : Path κ α) (t : Tree κ α) : fromPos (climbNext p t) = rights p := by
  induction p generalizing t with
  | nil => rfl
  | cons f p ih =>
    obtain ⟨d, b, k, v, s⟩ := f
    cases d
    · simp [climbNext, fromPos, after, rights]
    · simp [climbNext, ih, rights]

theorem uptoPos_climbPrev (p : Path κ α) (t : Tree κ α) :
    uptoPos (climbPrev p t) = (lefts p).reverse := by
  induction p generalizing t with
  | nil => rfl
  | cons f p ih =>
    obtain ⟨d, b, k, v, s⟩ := f
    cases d
    · simp [climbPrev, ih, lefts]
    · simp [climbPrev, uptoPos, before, lefts]

theorem fromPos_nextPos (z : Pos κ α) : fromPos (nextPos z) = after z := by
  obtain ⟨p, b, l, k, v, r⟩ := z
  cases r with
  | nil => simp [nextPos, fromPos_climbNext, after, toList]
  | node rb rl rk rv rr =>
    simp only [nextPos]
    rw [fromPos_firstPos _ _ (by simp)]
    simp [after, rights]

theorem uptoPos_prevPos (z : Pos κ α) : uptoPos (prevPos z) = (before z).reverse := by
  obtain ⟨p, b, l, k, v, r⟩ := z
  cases l with
  | nil => simp [prevPos, uptoPos_climbPrev, before, toList]
  | node rb rl rk rv rr =>
    simp only [prevPos]
    rw [uptoPos_lastPos _ _ (by simp)]
    simp [before, lefts]

/-! ### Next and previous are inverse -/

theorem prev_firstPos (t : Tree κ α) (p : Path κ α) (z : Pos κ α) (h : firstPos t p = some z) :
    prevPos z = climbPrev p t := by
  induction t generalizing p with
  | nil => simp [firstPos] at h
  | node b l k v r ihl _ =>
    cases l with
    | nil =>
      simp only [firstPos, Option.some.injEq] at h
      subst h; rfl
    | node lb ll lk lv lr =>
      simp only [firstPos] at h
      rw [ihl _ h]; rfl

theorem next_lastPos (t : Tree κ α) (p : Path κ α) (z : Pos κ α) (h : lastPos t p = some z) :
    nextPos z = climbNext p t := by
  induction t generalizing p with
  | nil => simp [lastPos] at h
  | node b l k v r _ ihr =>
    cases r with
    | nil =>
      simp only [lastPos, Option.some.injEq] at h
      subst h; rfl
    | node lb ll lk lv lr =>
      simp only [lastPos] at h
      rw [ihr _ h]; rfl

theorem prev_climbNext (p : Path κ α) (t : Tree κ α) (ht : t ≠ .nil) (z : Pos κ α) (h : climbNext p t = some z) :
    prevPos z = lastPos t p := by
  induction p generalizing t with
  | nil => simp [climbNext] at h
  | cons f p ih =>
    obtain ⟨d, b, k, v, s⟩ := f
    cases t with
    | nil => exact absurd rfl ht
    | node tb tl tk tv tr =>
      cases d with
      | L =>
        simp only [climbNext, Option.some.injEq] at h
        subst h; rfl
      | R =>
        simp only [climbNext] at h
        rw [ih _ (by simp [plug1]) h]; rfl

theorem next_climbPrev (p : Path κ α) (t : Tree κ α) (ht : t ≠ .nil) (z : Pos κ α) (h : climbPrev p t = some z) :
    nextPos z = firstPos t p := by
  induction p generalizing t with
  | nil => simp [climbPrev] at h
  | cons f p ih =>
    obtain ⟨d, b, k, v, s⟩ := f
    cases t with
    | nil => exact absurd rfl ht
    | node tb tl tk tv tr =>
      cases d with
      | R =>
        simp only [climbPrev, Option.some.injEq] at h
        subst h; rfl
      | L =>
        simp only [climbPrev] at h
        rw [ih _ (by simp [plug1]) h]; rfl

theorem prev_next (z z' : Pos κ α) (h : nextPos z = some z') : prevPos z' = some z := by
  obtain ⟨p, b, l, k, v, r⟩ := z
  cases r with
  | nil =>
    rw [prev_climbNext _ _ (by simp) _ h]; rfl
  | node rb rl rk rv rr =>
    rw [prev_firstPos _ _ _ h]; rfl

theorem next_prev (z z' : Pos κ α) (h : prevPos z = some z') : nextPos z' = some z := by
  obtain ⟨p, b, l, k, v, r⟩ := z
  cases l with
  | nil =>
    rw [next_climbPrev _ _ (by simp) _ h]; rfl
  | node rb rl rk rv rr =>
    rw [next_lastPos _ _ _ h]; rfl

theorem iterate_next (n : Nat) (z : Option (Pos κ α)) (h : (fromPos z).length ≤ n) :
    iterate nextPos n z = .ok (fromPos z) := by
  induction n generalizing z with
  | zero => cases z <;> simp_all [iterate, fromPos]
  | succ n ih =>
    cases z with
    | none => simp [iterate, fromPos]
    | some z =>
      have hl : (fromPos (nextPos z)).length ≤ n := by
        rw [fromPos_nextPos]; simpa [fromPos] using h
      simp [iterate, ih _ hl, Out.bind, fromPos_nextPos]; simp [fromPos]

theorem iterate_prev (n : Nat) (z : Option (Pos κ α)) (h : (uptoPos z).length ≤ n) :
    iterate prevPos n z = .ok (uptoPos z) := by
  induction n generalizing z with
  | zero => cases z <;> simp_all [iterate, uptoPos]
  | succ n ih =>
    cases z with
    | none => simp [iterate, uptoPos]
    | some z =>
      have hl : (uptoPos (prevPos z)).length ≤ n := by
        rw [uptoPos_prevPos]; simpa [uptoPos] using h
      simp [iterate, ih _ hl, Out.bind, uptoPos_prevPos]; simp [uptoPos]

theorem size_eq (t : Tree κ α) : size t = (toList t).length := by
  induction t with
  | nil => rfl
  | node b l k v r ihl ihr => simp [size, toList, ihl, ihr]; omega

theorem fromPos_first (t : Tree κ α) : fromPos (firstPos t []) = toList t := by
  cases t with
  | nil => rfl
  | node b l k v r => rw [fromPos_firstPos _ _ (by simp)]; simp [rights]

theorem uptoPos_last (t : Tree κ α) : uptoPos (lastPos t []) = (toList t).reverse := by
  cases t with
  | nil => rfl
  | node b l k v r => rw [uptoPos_lastPos _ _ (by simp)]; simp [lefts]

theorem forward_eq (t : Tree κ α) : forward t = .ok (toList t) := by
  unfold forward
  rw [iterate_next _ _ (by rw [fromPos_first, size_eq]; omega), fromPos_first]

theorem backward_eq (t : Tree κ α) : backward t = .ok (toList t).reverse := by
  unfold backward
  rw [iterate_prev _ _ (by rw [uptoPos_last, size_eq]; simp), uptoPos_last]

theorem indexLoop_eq (n i : Nat) (z : Option (Pos κ α)) (h : (fromPos z).length ≤ n) :
    indexLoop n i z = .ok (fromPos z)[i]? := by
  induction n generalizing z i with
  | zero => cases z <;> simp_all [indexLoop, fromPos]
  | succ n ih =>
    cases z with
    | none => simp [indexLoop, fromPos]
    | some z =>
      have hl : (fromPos (nextPos z)).length ≤ n := by
        rw [fromPos_nextPos]; simpa [fromPos] using h
      cases i with
      | zero => simp [indexLoop, fromPos]
      | succ i => simp [indexLoop, ih _ _ hl, fromPos_nextPos]; simp [fromPos]

theorem countLoop_eq (n c : Nat) (z : Option (Pos κ α)) (h : (fromPos z).length ≤ n) :
    countLoop n c z = .ok (c + (fromPos z).length) := by
  induction n generalizing z c with
  | zero => cases z <;> simp_all [countLoop, fromPos]
  | succ n ih =>
    cases z with
    | none => simp [countLoop, fromPos]
    | some z =>
      have hl : (fromPos (nextPos z)).length ≤ n := by
        rw [fromPos_nextPos]; simpa [fromPos] using h
      simp [countLoop, ih _ _ hl, fromPos_nextPos]; simp [fromPos]; omega

theorem index_eq (t : Tree κ α) (i : Nat) : index t i = .ok (toList t)[i]? := by
  unfold index
  rw [indexLoop_eq _ _ _ (by rw [fromPos_first, size_eq]; omega), fromPos_first]

theorem count_eq (t : Tree κ α) : count t = .ok (toList t).length := by
  unfold count
  rw [countLoop_eq _ _ _ (by rw [fromPos_first, size_eq]; omega), fromPos_first]
  simp

/-- A balanced tree of height `h` has at least `(21/13)^h - 1` elements. -/
theorem bal_size (t : Tree κ α) (hb : Bal t) :
    21 ^ height t ≤ (size t + 1) * 13 ^ height t := by
  have key : ∀ (n : Nat) (t : Tree κ α), height t ≤ n → Bal t →
      21 ^ height t ≤ (size t + 1) * 13 ^ height t := by
    intro n
    induction n with
    | zero =>
      intro t ht _
      cases t with
      | nil => simp [height, size]
      | node => simp [height] at ht
    | succ n ih =>
      intro t ht hb
      cases t with
      | nil => simp [height, size]
      | node b l k v r =>
        simp only [Bal] at hb
        simp only [height] at ht ⊢
        have il := ih l (by omega) hb.1
        have ir := ih r (by omega) hb.2.1
        simp only [size]
        -- the taller side has height m, the other at least m - 1
        have aux : ∀ (m a b : Nat), 21 ^ (m + 1) ≤ a * 13 ^ (m + 1) → 21 ^ m ≤ b * 13 ^ m →
            21 ^ (1 + (m + 1)) ≤ (a + b) * 13 ^ (1 + (m + 1)) := by
          intro m a b h1 h2
          simp only [Nat.pow_succ, Nat.pow_add, Nat.pow_one] at h1 h2 ⊢
          generalize 21 ^ m = x at *
          rw [Nat.add_mul]
          have e1 : a * (13 * (13 ^ m * 13)) = 13 * (a * (13 ^ m * 13)) := by
            rw [Nat.mul_left_comm]
          have e2 : b * (13 * (13 ^ m * 13)) = 169 * (b * 13 ^ m) := by
            generalize 13 ^ m = y
            rw [show 13 * (y * 13) = 169 * y by omega, Nat.mul_left_comm]
          rw [e1, e2]
          omega
        have mono : ∀ (m b : Nat), 21 ^ (m + 1) ≤ b * 13 ^ (m + 1) → 21 ^ m ≤ b * 13 ^ m := by
          intro m b h
          simp only [Nat.pow_succ] at h
          have e : b * (13 ^ m * 13) = 13 * (b * 13 ^ m) := by
            rw [← Nat.mul_assoc, Nat.mul_comm]
          rw [e] at h
          omega
        rcases Nat.lt_trichotomy (height l) (height r) with h | h | h
        · have e : height r = height l + 1 := by omega
          rw [show max (height l) (height r) = height l + 1 by omega]
          rw [e] at ir
          have := aux _ _ _ ir il
          rw [show size r + 1 + (size l + 1) = size l + 1 + size r + 1 by omega] at this
          exact this
        · rw [show max (height l) (height r) = height l by omega]
          rw [← h] at ir
          cases hh : height l with
          | zero =>
            simp only [hh] at il ir
            simp; omega
          | succ m =>
            rw [hh] at il ir
            have := aux _ _ _ ir (mono _ _ il)
            rw [show size r + 1 + (size l + 1) = size l + 1 + size r + 1 by omega] at this
            exact this
        · have e : height l = height r + 1 := by omega
          rw [show max (height l) (height r) = height r + 1 by omega]
          rw [e] at il
          have := aux _ _ _ il ir
          rw [show size l + 1 + (size r + 1) = size l + 1 + size r + 1 by omega] at this
          exact this
  exact key _ t (Nat.le_refl _) hb

theorem height_bound (t : Tree κ α) (hb : Bal t) : 2 ^ (100 * height t) ≤ (size t + 1) ^ 145 := by
  have h := bal_size t hb
  have h1 : (21 ^ height t) ^ 145 ≤ ((size t + 1) * 13 ^ height t) ^ 145 :=
    Nat.pow_le_pow_left h 145
  rw [Nat.mul_pow, ← Nat.pow_mul, ← Nat.pow_mul, Nat.mul_comm (height t) 145, Nat.pow_mul,
    Nat.pow_mul 13] at h1
  have h2 : 2 ^ 100 * 13 ^ 145 ≤ 21 ^ 145 := by decide +kernel
  have h3 := Nat.pow_le_pow_left h2 (height t)
  rw [Nat.mul_pow, ← Nat.pow_mul] at h3
  have h4 := Nat.le_trans h3 h1
  exact Nat.le_of_mul_le_mul_right h4 (Nat.pow_pos (Nat.pow_pos (by omega)))

end Verif.Map
