import Verif.Model.AppendCost
import Verif.Props.Array
import Verif.Props.DynString

/-!
# Properties of the cost of appending: C140
-/

namespace Verif.Props

open Verif Verif.Arr Verif.Dyn Verif.Texts Verif.AppendCost Verif.Str

variable {α : Type}

/-! ## Arrays -/

theorem append_reserved {a a' : Arr α} {x : α} (h : Arr.append true (.ext x) a = .ok (a', false)) :
    a'.count = a.count + 1 ∧ a'.reserved = if a.count + 1 > a.reserved then newReservedCount a.loc.length a.reserved (a.count + 1) else a.reserved := by
  unfold Arr.append appendWith ensure at h
  by_cases hc : a.count + 1 > a.reserved
  · rw [if_pos hc] at h ⊢
    unfold setReserved at h
    simp only [if_true, Out.bind_eq_ok, Out.ok.injEq] at h
    obtain ⟨r, ⟨r', ⟨p, hp, rfl⟩, rfl⟩, h⟩ := h
    simp only [Bool.false_eq_true, if_false, Arg.get, Out.bind_eq_ok, Out.ok.injEq, Prod.mk.injEq] at h
    obtain ⟨v, -, b, hb, rfl, -⟩ := h
    exact ⟨rfl, rfl⟩
  · rw [if_neg hc] at h ⊢
    simp only [Out.ok_bind, Bool.false_eq_true, if_false, Arg.get, Out.bind_eq_ok, Out.ok.injEq, Prod.mk.injEq] at h
    obtain ⟨b, hb, rfl, -⟩ := h
    unfold Arr.store
    cases a.heap <;> exact ⟨rfl, rfl⟩

theorem appendElements_cost (xs : List α) : ∀ (a : Arr α) (ys : List α), Contains a ys → a.count ≤ a.reserved →
    ∃ a' n, appendElements xs a = .ok (a', n) ∧ Contains a' (ys ++ xs) ∧ n ≤ 5 * xs.length + (3 * a.count - 2 * a.reserved) := by
  induction xs with
  | nil => intro a ys h _; exact ⟨a, 0, rfl, by simpa using h, by omega⟩
  | cons x xs ih =>
    intro a ys h hc
    obtain ⟨a1, h1, h2⟩ := appendWith_ok h (fun a' moved => (Arg.ext x).get a a' moved) x (fun _ _ _ _ => rfl)
    have h1 : Arr.append true (.ext x) a = .ok (a1, false) := h1
    obtain ⟨e1, e2⟩ := append_reserved h1
    have key : a1.count ≤ a1.reserved ∧ arraySteps a + (3 * a1.count - 2 * a1.reserved) ≤ 5 + (3 * a.count - 2 * a.reserved) := by
      unfold arraySteps
      by_cases hg : a.count + 1 > a.reserved
      · rw [if_pos hg] at e2 ⊢
        have m1 := Nat.le_max_left (max (a.count + 1) 4) (a.reserved + max ((a.reserved / 2 + 3) / 4 * 4) (if a.loc.length = 0 then 4 else a.loc.length))
        have m2 := Nat.le_max_right (max (a.count + 1) 4) (a.reserved + max ((a.reserved / 2 + 3) / 4 * 4) (if a.loc.length = 0 then 4 else a.loc.length))
        have m3 := Nat.le_max_left (a.count + 1) 4
        have m4 := Nat.le_max_left ((a.reserved / 2 + 3) / 4 * 4) (if a.loc.length = 0 then 4 else a.loc.length)
        unfold newReservedCount at e2
        rw [← e2] at m1 m2
        omega
      · rw [if_neg hg] at e2 ⊢
        omega
    obtain ⟨a', n, h3, h4, h5⟩ := ih a1 (ys ++ [x]) h2 key.1
    refine ⟨a', n + arraySteps a, ?_, by simpa using h4, ?_⟩
    · rw [appendElements, h1, Out.ok_bind]
      simp only [Bool.false_eq_true, if_false]
      rw [h3]; rfl
    · rw [List.length_cons]; omega

/-- **C140 for arrays.** Appending `n` elements one by one to an empty array (with any number of slots inside the object) takes at most `5 n` constructions and
moves, and the array then holds them. -/
theorem C140_array_appends (base : Nat) (xs : List α) :
    ∃ a n, appendElements xs (newBase base) = .ok (a, n) ∧ ShowsArray a xs ∧ n ≤ 5 * xs.length := by
  obtain ⟨a, n, h1, h2, h3⟩ := appendElements_cost xs (newBase base) [] (contains_newBase base) (by simp [newBase])
  refine ⟨a, n, h1, ?_, by simpa [newBase] using h3⟩
  exact contains_shows (by simpa using h2)

/-- Ten elements: 22 steps, three blocks. -/
example : ∃ a, appendElements (List.replicate 10 true) (newBase 0) = .ok (a, 22) ∧ a.reserved = 12 := ⟨_, rfl, rfl⟩

/-! ## Strings -/

/-- The text of a piece. -/
def PieceText : Piece → Bytes → Prop
  | .text t _, u => Holds t u
  | .char k _, u => k ≠ 0 ∧ u = [k]

theorem grow_sizes {g : Nat → Byte} {size : Nat} {s s' : Dyn} {m : Bool} (h : grow g size s = .ok (s', m)) :
    s'.logical = s.logical ∧ s'.physical = if size > s.physical then max (physSize size) (s.physical + s.physical / 2) else s.physical := by
  unfold grow at h
  by_cases hc : size > s.physical
  · rw [if_pos hc] at h ⊢
    simp only [Out.bind_eq_ok, Out.ok.injEq, Prod.mk.injEq] at h
    obtain ⟨b, -, rfl, -⟩ := h
    exact ⟨rfl, rfl⟩
  · rw [if_neg hc] at h ⊢
    cases h
    exact ⟨rfl, rfl⟩

/-- The potential of a string. -/
def strPot (s : Dyn) : Nat := 3 * s.logical - 2 * s.physical

theorem grow_cost {s s' : Dyn} {l : Nat} (h : s.logical ≤ s.physical) (hl : s'.logical = s.logical + l)
    (hp : s'.physical = if s.logical + l > s.physical then max (physSize (s.logical + l)) (s.physical + s.physical / 2) else s.physical) :
    s'.logical ≤ s'.physical ∧ growSteps (s.logical + l) s + strPot s' ≤ 3 * l + 1 + strPot s := by
  unfold growSteps strPot
  by_cases hc : s.logical + l > s.physical
  · rw [if_pos hc] at hp ⊢
    have m1 := Nat.le_max_left (physSize (s.logical + l)) (s.physical + s.physical / 2)
    have m2 := Nat.le_max_right (physSize (s.logical + l)) (s.physical + s.physical / 2)
    have m3 := physSize_ge (s.logical + l)
    rw [← hp] at m1 m2
    omega
  · rw [if_neg hc] at hp ⊢
    omega

theorem piece_cost {s : Dyn} {a u : Bytes} (hs : WF s a) (p : Piece) (hp : PieceText p u) :
    ∃ s' n, p.run s = .ok (s', n) ∧ WF s' (a ++ u) ∧ n + strPot s' ≤ 5 * u.length + 3 + strPot s := by
  have hle : ∀ {s : Dyn} {a : Bytes}, WF s a → s.logical ≤ s.physical := by
    intro s a hs
    have := holds_length hs.holds
    have h1 := hs.block
    have h2 := hs.logical
    omega
  cases p with
  | char k g =>
    obtain ⟨hk, rfl⟩ := hp
    obtain ⟨s', h1, h2⟩ := appendChar_wf g hs hk
    refine ⟨s', _, by rw [Piece.run, h1, Out.ok_bind], h2, ?_⟩
    have hsz : s'.physical = if s.logical + 1 > s.physical then max (physSize (s.logical + 1)) (s.physical + s.physical / 2) else s.physical := by
      unfold appendChar at h1
      simp only [Out.bind_eq_ok, Out.ok.injEq] at h1
      obtain ⟨⟨r, m⟩, hg, b, -, b', -, rfl⟩ := h1
      rw [← (grow_sizes hg).2]
      exact physical_store _ _
    have hlog : s'.logical = s.logical + 1 := by rw [h2.logical, hs.logical]; simp
    have := (grow_cost (hle hs) hlog hsz).2
    simp only [List.length_singleton]
    omega
  | text t g =>
    have hp : Holds t u := hp
    obtain ⟨s', h1, h2⟩ := appendText_wf g hs hp
    refine ⟨s', _, by rw [Piece.run, getTextLength_holds hp, Out.ok_bind, h1, Out.ok_bind], h2, ?_⟩
    unfold appendText at h1
    simp only [srcText, getTextLength_holds hp, Out.ok_bind] at h1
    by_cases hu : u.length > 0
    · rw [if_pos hu] at h1 ⊢
      have hsz : s'.physical = if s.logical + u.length > s.physical then max (physSize (s.logical + u.length)) (s.physical + s.physical / 2)
          else s.physical := by
        simp only [Out.bind_eq_ok, Out.ok.injEq, srcAfter] at h1
        obtain ⟨⟨r, m⟩, hg, src, -, b, -, rfl⟩ := h1
        rw [← (grow_sizes hg).2]
        exact physical_store _ _
      have hlog : s'.logical = s.logical + u.length := by rw [h2.logical, hs.logical]; simp; omega
      have := (grow_cost (hle hs) hlog hsz).2
      omega
    · rw [if_neg hu] at h1 ⊢
      cases h1
      omega

theorem pieces_cost (ps : List (Piece × Bytes)) : ∀ (s : Dyn) (a : Bytes), WF s a → (∀ p ∈ ps, PieceText p.1 p.2) →
    ∃ s' n, appendPieces (ps.map Prod.fst) s = .ok (s', n) ∧ WF s' (a ++ (ps.map Prod.snd).flatten) ∧
      n ≤ 5 * (ps.map Prod.snd).flatten.length + 3 * ps.length + strPot s := by
  induction ps with
  | nil => intro s a hs _; exact ⟨s, 0, rfl, by simpa using hs, by simp⟩
  | cons p ps ih =>
    intro s a hs h
    obtain ⟨s1, n1, h1, h2, h3⟩ := piece_cost hs p.1 (h p (by simp))
    obtain ⟨s2, n2, h4, h5, h6⟩ := ih s1 _ h2 fun q hq => h q (by simp [hq])
    refine ⟨s2, n2 + n1, ?_, by simpa using h5, ?_⟩
    · rw [List.map_cons, appendPieces, h1, Out.ok_bind]
      dsimp only
      rw [h4, Out.ok_bind]
    · simp only [List.map_cons, List.flatten_cons, List.length_append, List.length_cons] at *
      omega

/-- **C140 for strings.** Building a text from pieces with `+=` reads and copies at most five bytes for each byte of the text and three for each piece, and
the string then shows the text. -/
theorem C140_string_appends (ps : List (Piece × Bytes)) (h : ∀ p ∈ ps, PieceText p.1 p.2) :
    ∃ s n, appendPieces (ps.map Prod.fst) newEmpty = .ok (s, n) ∧ ShowsText s (ps.map Prod.snd).flatten ∧
      n ≤ 5 * (ps.map Prod.snd).flatten.length + 3 * ps.length := by
  obtain ⟨s, n, h1, h2, h3⟩ := pieces_cost ps newEmpty [] wf_empty h
  exact ⟨s, n, h1, wf_shows (by simpa using h2), by simpa [strPot, newEmpty] using h3⟩

/-- Twenty letters: 40 bytes written, and 16 moved when the string leaves the object. -/
example : ∃ s, appendPieces (List.replicate 20 (.char 97 fun _ => 0)) newEmpty = .ok (s, 56) ∧ s.physical = 64 := ⟨_, rfl, rfl⟩

end Verif.Props
