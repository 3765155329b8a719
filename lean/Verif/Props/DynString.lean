import Verif.Lemmas.DynString

/-!
# Properties of `String<0>` (C42, C43)
-/

namespace Verif.Props

open Verif Verif.Texts Verif.Str Verif.Dyn

/-! ## C42: a `String` never writes outside its storage and holds the described text -/

/-- Operations on a collection of `String` objects, numbered by `i`, `j`. -/
inductive StrOp where
  | newEmpty (i : Nat)
  | newText (i : Nat) (t : Bytes)
  | newTextN (i : Nat) (t : Bytes) (n : Nat)
  | newInt (i : Nat) (n : Int)
  | newCopy (i j : Nat)
  | newMove (i j : Nat)
  | newPlus (i j : Nat) (t : Bytes)
  | newPlusInt (i j : Nat) (n : Int)
  | setText (i : Nat) (t : Src)
  | setN (i : Nat) (t : Src) (n : Nat)
  | setInt (i : Nat) (n : Int)
  | assign (i j : Nat)
  | moveAssign (i j : Nat)
  | append (i j : Nat)
  | appendText (i : Nat) (t : Src)
  | appendN (i : Nat) (t : Src) (n : Nat)
  | appendChar (i : Nat) (k : Byte)
  | appendInt (i : Nat) (n : Int)
  | setLength (i n : Nat)
  | purge (i : Nat)
  | lower (i : Nat)
  | upper (i : Nat)
  | replace (i : Nat) (x y : Byte)

/-- Replace entry `i`. -/
def upd {α : Type} (f : Nat → α) (i : Nat) (x : α) : Nat → α := fun k => if k = i then x else f k

/-- One operation of the model; `g` gives the contents of new blocks. Constructing an object from itself is
not possible in C++ (`ub`). -/
def StrOp.run (wrapv : Bool) (g : Nat → Byte) (σ : Nat → Dyn) : StrOp → Out (Nat → Dyn)
  | .newEmpty i => .ok (upd σ i Dyn.newEmpty)
  | .newText i t => Dyn.newText g t >>= fun s => .ok (upd σ i s)
  | .newTextN i t n => Dyn.newTextN g t n >>= fun s => .ok (upd σ i s)
  | .newInt i n => Dyn.newInt wrapv n >>= fun s => .ok (upd σ i s)
  | .newCopy i j => if i = j then .ub else Dyn.newCopy g (σ j) >>= fun s => .ok (upd σ i s)
  | .newMove i j => if i = j then .ub else Dyn.newMove (σ j) >>= fun r => .ok (upd (upd σ j r.2) i r.1)
  | .newPlus i j t => if i = j then .ub else Dyn.newPlus g (σ j).data t >>= fun s => .ok (upd σ i s)
  | .newPlusInt i j n => if i = j then .ub else Dyn.newPlusInt wrapv g (σ j).data n >>= fun s => .ok (upd σ i s)
  | .setText i t => Dyn.setText g t (σ i) >>= fun s => .ok (upd σ i s)
  | .setN i t n => Dyn.setN g t n (σ i) >>= fun s => .ok (upd σ i s)
  | .setInt i n => Dyn.setInt wrapv g n (σ i) >>= fun s => .ok (upd σ i s)
  | .assign i j => (if i = j then Dyn.assignSelf g (σ i) else Dyn.assign g (σ i) (σ j)) >>= fun s => .ok (upd σ i s)
  | .moveAssign i j =>
    if i = j then Dyn.movedFrom (σ i) >>= fun s => .ok (upd σ i s)
    else Dyn.moveAssign (σ i) (σ j) >>= fun r => .ok (upd (upd σ j r.2) i r.1)
  | .append i j => (if i = j then Dyn.appendSelf g (σ i) else Dyn.append g (σ i) (σ j)) >>= fun s => .ok (upd σ i s)
  | .appendText i t => Dyn.appendText g t (σ i) >>= fun s => .ok (upd σ i s)
  | .appendN i t n => Dyn.appendN g t n (σ i) >>= fun s => .ok (upd σ i s)
  | .appendChar i k => Dyn.appendChar g k (σ i) >>= fun s => .ok (upd σ i s)
  | .appendInt i n => Dyn.appendInt wrapv g n (σ i) >>= fun s => .ok (upd σ i s)
  | .setLength i n => Dyn.setLength g n (σ i) >>= fun s => .ok (upd σ i s)
  | .purge i => Dyn.purge (σ i) >>= fun s => .ok (upd σ i s)
  | .lower i => Dyn.toLower (σ i) >>= fun s => .ok (upd σ i s)
  | .upper i => Dyn.toUpper (σ i) >>= fun s => .ok (upd σ i s)
  | .replace i x y => Dyn.replaceChar x y (σ i) >>= fun s => .ok (upd σ i s)

/-- A history; every operation sees its own contents of new blocks. -/
def StrOp.runAll (wrapv : Bool) : List (StrOp × (Nat → Byte)) → (Nat → Dyn) → Out (Nat → Dyn)
  | [], σ => .ok σ
  | (o, g) :: os, σ => o.run wrapv g σ >>= StrOp.runAll wrapv os

/-- The text a `const char *` argument denotes, when object `i` holds `a`. -/
def ArgText (a : Bytes) : Src → Bytes → Prop
  | .ext t, u => Holds t u
  | .own k, u => k ≤ a.length ∧ u = a.drop k

/-- ASCII lower and upper case. -/
def lowerByte (c : Byte) : Byte := if (65 : Byte) ≤ c ∧ c ≤ 90 then c + 32 else c
@[inherit_doc lowerByte]
def upperByte (c : Byte) : Byte := if (97 : Byte) ≤ c ∧ c ≤ 122 then c - 32 else c

/-- Specification: what an operation does to the texts of the objects. A moved-from object may hold any text. -/
inductive StrSpec : StrOp → (Nat → Bytes) → (Nat → Bytes) → Prop
  | newEmpty {i τ} : StrSpec (.newEmpty i) τ (upd τ i [])
  | newText {i t u τ} : Holds t u → StrSpec (.newText i t) τ (upd τ i u)
  | newTextN {i t u n τ} : Holds t u → StrSpec (.newTextN i t n) τ (upd τ i (u.take n))
  | newInt {i n u τ} : -(2 ^ 31) < n → n < 2 ^ 31 → IntText n u → StrSpec (.newInt i n) τ (upd τ i u)
  | newCopy {i j τ} : i ≠ j → StrSpec (.newCopy i j) τ (upd τ i (τ j))
  | newMove {i j x τ} : i ≠ j → StrSpec (.newMove i j) τ (upd (upd τ j x) i (τ j))
  | newPlus {i j t u τ} : i ≠ j → Holds t u → StrSpec (.newPlus i j t) τ (upd τ i (τ j ++ u))
  | newPlusInt {i j n u τ} : i ≠ j → -(2 ^ 31) < n → n < 2 ^ 31 → IntText n u →
      StrSpec (.newPlusInt i j n) τ (upd τ i (τ j ++ u))
  | setText {i t u τ} : ArgText (τ i) t u → StrSpec (.setText i t) τ (upd τ i u)
  | setN {i t u n τ} : ArgText (τ i) t u → StrSpec (.setN i t n) τ (upd τ i (u.take n))
  | setInt {i n u τ} : -(2 ^ 31) < n → n < 2 ^ 31 → IntText n u → StrSpec (.setInt i n) τ (upd τ i u)
  | assign {i j τ} : StrSpec (.assign i j) τ (upd τ i (τ j))
  | moveAssign {i j x τ} : i ≠ j → StrSpec (.moveAssign i j) τ (upd (upd τ j x) i (τ j))
  | moveSelf {i x τ} : StrSpec (.moveAssign i i) τ (upd τ i x)
  | append {i j τ} : StrSpec (.append i j) τ (upd τ i (τ i ++ τ j))
  | appendText {i t u τ} : ArgText (τ i) t u → StrSpec (.appendText i t) τ (upd τ i (τ i ++ u))
  | appendN {i t u n τ} : ArgText (τ i) t u → StrSpec (.appendN i t n) τ (upd τ i (τ i ++ u.take n))
  | appendChar {i k τ} : k ≠ 0 → StrSpec (.appendChar i k) τ (upd τ i (τ i ++ [k]))
  | appendInt {i n u τ} : -(2 ^ 31) < n → n < 2 ^ 31 → IntText n u → StrSpec (.appendInt i n) τ (upd τ i (τ i ++ u))
  | setLength {i n τ} : n ≤ (τ i).length → StrSpec (.setLength i n) τ (upd τ i ((τ i).take n))
  | purge {i τ} : StrSpec (.purge i) τ (upd τ i [])
  | lower {i τ} : StrSpec (.lower i) τ (upd τ i ((τ i).map lowerByte))
  | upper {i τ} : StrSpec (.upper i) τ (upd τ i ((τ i).map upperByte))
  | replace {i x y τ} : y ≠ 0 → StrSpec (.replace i x y) τ (upd τ i ((τ i).map fun c => if c = x then y else c))

/-- A history that the specification allows, whatever the moved-from objects hold. -/
def Allowed : List StrOp → (Nat → Bytes) → Prop
  | [], _ => True
  | o :: os, τ => (∃ τ', StrSpec o τ τ') ∧ ∀ τ', StrSpec o τ τ' → Allowed os τ'

/-- The texts after a history. -/
inductive StrSpecAll : List StrOp → (Nat → Bytes) → (Nat → Bytes) → Prop
  | nil {τ} : StrSpecAll [] τ τ
  | cons {o os τ τ' τ''} : StrSpec o τ τ' → StrSpecAll os τ' τ'' → StrSpecAll (o :: os) τ τ''

/-- What a client sees: the object has the text `a`, and `GetStringLength` is its length. -/
def ShowsText (s : Dyn) (a : Bytes) : Prop := Holds s.data a ∧ s.length = a.length

/-- C42: after every allowed history that begins with empty strings, there was no undefined behaviour and
every object shows the text that the history describes. -/
def C42_statement : Prop :=
  ∀ (wrapv : Bool) (os : List (StrOp × (Nat → Byte))), Allowed (os.map Prod.fst) (fun _ => []) →
    ∃ σ τ, StrOp.runAll wrapv os (fun _ => Dyn.newEmpty) = .ok σ ∧ StrSpecAll (os.map Prod.fst) (fun _ => []) τ ∧
      ∀ i, ShowsText (σ i) (τ i)

/-- Operations outside the four known defects: arguments inside the object itself, `assign`/`append` of an
object to itself, `AppendString` with a length beyond the end of its argument, and `SetStringLength` to a
length between 1 and 15. -/
def StrOp.Tame : StrOp → Prop
  | .assign i j | .append i j => i ≠ j
  | .setText _ t | .setN _ t _ | .appendText _ t => ∃ b, t = .ext b
  | .appendN _ t n => ∃ b, t = .ext b ∧ ∀ u, Holds b u → n ≤ u.length
  | .setLength _ n => n = 0 ∨ 16 ≤ n
  | _ => True

theorem wf_shows {s : Dyn} {a : Bytes} (h : WF s a) : ShowsText s a :=
  ⟨h.holds, by rw [Dyn.length, h.logical]; omega⟩

theorem wf_upd {σ : Nat → Dyn} {τ : Nat → Bytes} {i : Nat} {s : Dyn} {a : Bytes} (h : ∀ k, WF (σ k) (τ k)) (hs : WF s a) :
    ∀ k, WF (upd σ i s k) (upd τ i a k) := by
  intro k; unfold upd; split
  · exact hs
  · exact h k

theorem lower_eq : (fun c : Byte => if 65 ≤ c.toNat ∧ c.toNat < 65 + 26 then c + 32 else c) = lowerByte := by
  funext c
  have h : (65 ≤ c.toNat ∧ c.toNat < 65 + 26) ↔ ((65 : Byte) ≤ c ∧ c ≤ 90) := by
    simp only [UInt8.le_iff_toNat_le]; simp; omega
  simp only [lowerByte, h]

theorem upper_eq : (fun c : Byte => if 97 ≤ c.toNat ∧ c.toNat < 97 + 26 then c - 32 else c) = upperByte := by
  funext c
  have h : (97 ≤ c.toNat ∧ c.toNat < 97 + 26) ↔ ((97 : Byte) ≤ c ∧ c ≤ 122) := by
    simp only [UInt8.le_iff_toNat_le]; simp; omega
  simp only [upperByte, h]

theorem lowerByte_ne (c : Byte) (h : c ≠ 0) : lowerByte c ≠ 0 := by
  have : ∀ n : Fin 256, UInt8.ofNat n ≠ 0 → lowerByte (UInt8.ofNat n) ≠ 0 := by decide +kernel
  simpa using this ⟨c.toNat, c.toNat_lt⟩ (by simpa using h)

theorem upperByte_ne (c : Byte) (h : c ≠ 0) : upperByte c ≠ 0 := by
  have : ∀ n : Fin 256, UInt8.ofNat n ≠ 0 → upperByte (UInt8.ofNat n) ≠ 0 := by decide +kernel
  simpa using this ⟨c.toNat, c.toNat_lt⟩ (by simpa using h)

/-- One step. -/
theorem step_wf (wrapv : Bool) (g : Nat → Byte) (o : StrOp) (ht : o.Tame) {σ : Nat → Dyn} {τ τ' : Nat → Bytes}
    (hw : ∀ k, WF (σ k) (τ k)) (hsp : StrSpec o τ τ') :
    ∃ σ' τ'', o.run wrapv g σ = .ok σ' ∧ StrSpec o τ τ'' ∧ ∀ k, WF (σ' k) (τ'' k) := by
  have fin : ∀ {i : Nat} {x : Out Dyn} {a : Bytes}, (∃ s, x = .ok s ∧ WF s a) → StrSpec o τ (upd τ i a) →
      o.run wrapv g σ = (x >>= fun s => .ok (upd σ i s)) →
      ∃ σ' τ'', o.run wrapv g σ = .ok σ' ∧ StrSpec o τ τ'' ∧ ∀ k, WF (σ' k) (τ'' k) := by
    rintro i x a ⟨s, rfl, hs⟩ h1 h2
    exact ⟨upd σ i s, upd τ i a, h2, h1, wf_upd hw hs⟩
  cases hsp with
  | newEmpty => exact ⟨_, _, rfl, .newEmpty, wf_upd hw wf_empty⟩
  | newText h => exact fin (newText_wf g h) (.newText h) rfl
  | newTextN h => exact fin (newTextN_wf g _ h) (.newTextN h) rfl
  | newInt h1 h2 h => exact fin (newInt_wf wrapv h1 h2 h) (.newInt h1 h2 h) rfl
  | @newCopy i j _ h => exact fin (newCopy_wf g (hw j)) (.newCopy h) (by simp only [StrOp.run, if_neg h])
  | @newMove i j x _ h =>
    obtain ⟨s, t', e, h1, a', h2⟩ := newMove_wf (hw j)
    exact ⟨_, _, by simp only [StrOp.run, if_neg h, e]; rfl, .newMove (x := a') h, wf_upd (wf_upd hw h2) h1⟩
  | @newPlus i j t u _ h hu =>
    exact fin (newPlus_wf g (hw j).holds hu) (.newPlus h hu) (by simp only [StrOp.run, if_neg h])
  | @newPlusInt i j n u _ h h1 h2 hu =>
    exact fin (newPlusInt_wf wrapv g (hw j).holds h1 h2 hu) (.newPlusInt h h1 h2 hu) (by simp only [StrOp.run, if_neg h])
  | @setText i t u _ h => obtain ⟨b, rfl⟩ := ht; exact fin (setText_wf g (hw i) h) (.setText h) rfl
  | @setN i t u n _ h => obtain ⟨b, rfl⟩ := ht; exact fin (setN_wf g n (hw i) h) (.setN h) rfl
  | @setInt i n u _ h1 h2 h => exact fin (setInt_wf wrapv g (hw i) h1 h2 h) (.setInt h1 h2 h) rfl
  | @assign i j =>
    have hij : i ≠ j := ht
    exact fin (assign_wf g (hw i) (hw j)) .assign (by simp only [StrOp.run, if_neg hij])
  | @moveAssign i j x _ h =>
    obtain ⟨s, t', e, h1, a', h2⟩ := moveAssign_wf (hw i) (hw j)
    exact ⟨_, _, by simp only [StrOp.run, if_neg h, e]; rfl, .moveAssign (x := a') h, wf_upd (wf_upd hw h2) h1⟩
  | @moveSelf i x =>
    obtain ⟨t', e, a', h⟩ := movedFrom_wf (hw i)
    exact ⟨_, _, by simp only [StrOp.run, if_pos rfl, e]; rfl, .moveSelf (x := a'), wf_upd hw h⟩
  | @append i j =>
    have hij : i ≠ j := ht
    exact fin (append_wf g (hw i) (hw j)) .append (by simp only [StrOp.run, if_neg hij])
  | @appendText i t u _ h => obtain ⟨b, rfl⟩ := ht; exact fin (appendText_wf g (hw i) h) (.appendText h) rfl
  | @appendN i t u n _ h =>
    obtain ⟨b, rfl, hn⟩ := ht
    exact fin (appendN_wf g n (hw i) h (hn u h)) (.appendN h) rfl
  | @appendChar i k _ h => exact fin (appendChar_wf g (hw i) h) (.appendChar h) rfl
  | @appendInt i n u _ h1 h2 h => exact fin (appendInt_wf wrapv g (hw i) h1 h2 h) (.appendInt h1 h2 h) rfl
  | @setLength i n _ h =>
    have hc : n = 0 ∨ 16 ≤ n := ht
    exact fin (setLength_cut_wf g (hw i) h (hc.elim Or.inl fun h => Or.inr (Or.inl h)))
      (.setLength h) rfl
  | @purge i => exact fin (purge_wf (hw i).loc) .purge rfl
  | @lower i =>
    refine fin (x := Dyn.toLower (σ i)) ?_ .lower rfl
    rw [Dyn.toLower, lower_eq]; exact mapStore_wf lowerByte (hw i) lowerByte_ne
  | @upper i =>
    refine fin (x := Dyn.toUpper (σ i)) ?_ .upper rfl
    rw [Dyn.toUpper, upper_eq]; exact mapStore_wf upperByte (hw i) upperByte_ne
  | @replace i x y _ h =>
    refine fin (x := Dyn.replaceChar x y (σ i)) ?_ (.replace h) rfl
    rw [Dyn.replaceChar]
    exact mapStore_wf _ (hw i) (fun c hc => by split <;> assumption)

theorem run_wf (wrapv : Bool) (os : List (StrOp × (Nat → Byte))) (ht : ∀ p ∈ os, p.1.Tame) :
    ∀ (σ : Nat → Dyn) (τ : Nat → Bytes), (∀ k, WF (σ k) (τ k)) → Allowed (os.map Prod.fst) τ →
    ∃ σ' τ', StrOp.runAll wrapv os σ = .ok σ' ∧ StrSpecAll (os.map Prod.fst) τ τ' ∧ ∀ k, WF (σ' k) (τ' k) := by
  induction os with
  | nil => intro σ τ hw _; exact ⟨σ, τ, rfl, .nil, hw⟩
  | cons p os ih =>
    intro σ τ hw ha
    obtain ⟨o, g⟩ := p
    obtain ⟨⟨τ1, h1⟩, h2⟩ := ha
    obtain ⟨σ1, τ2, e, hs, hw1⟩ := step_wf wrapv g o (ht (o, g) (by simp)) hw h1
    obtain ⟨σ', τ', e', hs', hw'⟩ := ih (fun p hp => ht p (by simp [hp])) σ1 τ2 hw1 (h2 τ2 hs)
    exact ⟨σ', τ', by rw [StrOp.runAll, e, Out.ok_bind, e'], .cons hs hs', hw'⟩

/-- C42 for all histories that avoid the four defects listed at `StrOp.Tame`. Missing: those operations,
where C42 fails (`C42_violated_*`). -/
theorem C42_histories_partial (wrapv : Bool) (os : List (StrOp × (Nat → Byte))) (ht : ∀ p ∈ os, p.1.Tame)
    (ha : Allowed (os.map Prod.fst) (fun _ => [])) :
    ∃ σ τ, StrOp.runAll wrapv os (fun _ => Dyn.newEmpty) = .ok σ ∧ StrSpecAll (os.map Prod.fst) (fun _ => []) τ ∧
      ∀ i, ShowsText (σ i) (τ i) := by
  obtain ⟨σ, τ, e, hs, hw⟩ := run_wf wrapv os ht (fun _ => Dyn.newEmpty) (fun _ => []) (fun _ => wf_empty) ha
  exact ⟨σ, τ, e, hs, fun i => wf_shows (hw i)⟩

/-- Twenty times `a`, terminated. -/
def longText : Bytes := List.replicate 20 97 ++ [0]

theorem longText_holds : Holds longText (List.replicate 20 97) := ⟨by decide, [], rfl⟩

/-- Defect 1: `String s("aaaaaaaaaaaaaaaaaaaa"); s.SetStringLength(3); s += "aaaaaaaaaaaaaaaaaaaa";` writes past
the end of the 16 local bytes: `SetStringLength` goes back to the local storage but keeps the old
`physicalSize`. -/
theorem C42_violated : ¬ C42_statement := by
  intro h
  have ha : Allowed [.newText 0 longText, .setLength 0 3, .appendText 0 (.ext longText)] (fun _ => []) := by
    refine ⟨⟨_, .newText longText_holds⟩, ?_⟩
    intro τ' h1
    cases h1 with
    | newText h1 =>
      rw [holds_unique h1 longText_holds]
      refine ⟨⟨_, .setLength (by simp [upd])⟩, ?_⟩
      intro τ'' h2
      exact ⟨⟨_, .appendText longText_holds⟩, fun _ _ => trivial⟩
  obtain ⟨σ, τ, e, -⟩ := h false [(.newText 0 longText, fun _ => 0), (.setLength 0 3, fun _ => 0),
    (.appendText 0 (.ext longText), fun _ => 0)] ha
  have hr : ∀ f : Nat → Dyn, StrOp.runAll false [(.newText 0 longText, fun _ => 0), (.setLength 0 3, fun _ => 0),
    (.appendText 0 (.ext longText), fun _ => 0)] f = .ub := by
    intro f
    have e1 : Dyn.newText (fun _ => 0) longText = .ok ⟨21, 64, some (longText ++ List.replicate 43 0), loc0⟩ := by
      decide +kernel
    have e2 : Dyn.setLength (fun _ => 0) 3 ⟨21, 64, some (longText ++ List.replicate 43 0), loc0⟩
        = .ok ⟨4, 64, none, [97, 97, 97, 0] ++ loc0.drop 4⟩ := by decide +kernel
    have e3 : Dyn.appendText (fun _ => 0) (.ext longText) ⟨4, 64, none, [97, 97, 97, 0] ++ loc0.drop 4⟩ = .ub := by
      decide +kernel
    simp only [StrOp.runAll, StrOp.run, e1, Out.ok_bind, upd, if_pos, e2, e3, Out.ub_bind]
  rw [hr] at e
  cases e

/-- Defect 2: appending a non-empty string to itself (`s += s`) always runs past the end of the block,
because the terminator of the source is overwritten first. -/
theorem C42_violated_self_append (g : Nat → Byte) (s : Dyn) (a : Bytes) (hs : WF s a) (ha : a ≠ []) :
    appendSelf g s = .ub := by
  have hpos : 0 < a.length := by cases a with | nil => exact absurd rfl ha | cons => simp
  obtain ⟨s', m, e, hw, hsz⟩ := grow_props g (s.logical + (s.logical - 1)) hs
  have hl := hs.logical
  have hl2 := hw.logical
  simp only [appendSelf]
  rw [if_pos (by omega), e, Out.ok_bind]
  simp only [hl2, Nat.add_sub_cancel]
  -- the loop never meets a NUL: every byte it reads is a byte it has copied before
  have loop : ∀ (n i : Nat) (b : Bytes), i + a.length ≤ b.length → (∀ k < i + a.length, ∀ x, b[k]? = some x → x ≠ 0) →
      b.length + 1 ≤ n + (i + a.length) → copyText (.own 0) n i (i + a.length) b = .ub := by
    intro n
    induction n with
    | zero => intro i b h1 _ h3; omega
    | succ n ih =>
      intro i b h1 h2 h3
      have hlt : i < b.length := by omega
      have hrd : rdSrc (.own 0) b i = .ok b[i] := by
        simp [rdSrc, Text.rd, List.getElem?_eq_getElem hlt]
      have hne : b[i] ≠ 0 := h2 i (by omega) _ (List.getElem?_eq_getElem hlt)
      rw [copyText, hrd, Out.ok_bind]
      by_cases hd : i + a.length < b.length
      · rw [wr, if_pos hd, Out.ok_bind, if_neg hne, show i + a.length + 1 = (i + 1) + a.length by omega]
        apply ih
        · simp; omega
        · intro k hk x hx
          rw [List.getElem?_set] at hx
          split at hx
          · cases hx; exact hne
          · exact h2 k (by omega) x hx
        · simp; omega
      · rw [wr_ub hd]; rfl
  have hlen := holds_length hw.holds
  have := loop (s'.data.length + 1) 0 s'.data (by omega) (by
    intro k hk x hx
    obtain ⟨h0, r, e⟩ := hw.holds
    rw [e, List.getElem?_append_left (by omega)] at hx
    exact fun e0 => h0 (e0 ▸ List.mem_of_getElem? hx)) (by omega)
  simp only [Nat.zero_add] at this
  rw [copyInto, this]; rfl

/-- Defect 3: `String a("ab"); String b(a); b = b;` changes `b` to fifteen zeros, with reported length 2. -/
theorem C42_violated_self_assign (g : Nat → Byte) :
    ∃ b b' : Dyn, (newText g [97, 98, 0] >>= newCopy g) = .ok b ∧ ShowsText b [97, 98] ∧
      assignSelf g b = .ok b' ∧ b'.length = 2 ∧ Holds b'.data (List.replicate 15 48) := by
  have e1 : newText g [97, 98, 0] = .ok ⟨3, 16, none, [97, 98, 0] ++ loc0.drop 3⟩ := rfl
  have h1 : WF ⟨3, 16, none, [97, 98, 0] ++ loc0.drop 3⟩ [97, 98] := ⟨rfl, ⟨by decide, _, rfl⟩, rfl, rfl⟩
  have e2 : newCopy g ⟨3, 16, none, [97, 98, 0] ++ loc0.drop 3⟩ =
      .ok ⟨3, 64, some (put (fresh g 64) 0 [97, 98, 0]), loc0⟩ := by
    rw [newCopy, if_pos (by decide), copyInto_ext h1.holds (by rw [length_fresh]; decide)]; rfl
  refine ⟨⟨3, 64, some (put (fresh g 64) 0 [97, 98, 0]), loc0⟩, ⟨3, 16, none, loc0⟩, ?_, ?_, ?_, rfl, ?_⟩
  · rw [e1, Out.ok_bind, e2]
  · exact ⟨holds_put_zero (u := [97, 98]) (by decide), rfl⟩
  · have : copyInto (.own 0) 0 loc0 = .ok loc0 := by decide +kernel
    simp only [assignSelf, resize]
    rw [if_pos (by decide), if_neg (by decide)]
    simp only [Dyn.data, Option.getD_none]
    rw [this]; rfl
  · exact ⟨by decide, [], rfl⟩

theorem copy_onto {b a : Bytes} (h : Holds b a) : copyInto (.own 0) 0 b = .ok b := by
  obtain ⟨h0, r, e⟩ := h
  have loop : ∀ (n i : Nat), i ≤ a.length → a.length < i + n → ∃ k, copyText (.own 0) n i i b = .ok (b, k) := by
    intro n
    induction n with
    | zero => intro i h1 h2; omega
    | succ n ih =>
      intro i h1 h2
      have hlt : i < b.length := by rw [e]; simp; omega
      have hrd : rdSrc (.own 0) b i = .ok b[i] := by simp [rdSrc, Text.rd, List.getElem?_eq_getElem hlt]
      have hset : b.set i b[i] = b := List.set_getElem_self hlt
      rw [copyText, hrd, Out.ok_bind, wr, if_pos hlt, Out.ok_bind, hset]
      by_cases hz : b[i] = 0
      · rw [if_pos hz]; exact ⟨_, rfl⟩
      · rw [if_neg hz]
        refine ih (i + 1) ?_ (by omega)
        refine Decidable.byContradiction fun hc => ?_
        have : i = a.length := by omega
        subst this
        exact hz (by simp [e])
  have hl : a.length < b.length := by rw [e]; simp
  obtain ⟨k, hk⟩ := loop (b.length + 1) 0 (by omega) (by omega)
  rw [copyInto, hk]; rfl

/-- **C42** for `s = s`, as far as it holds: the text stays if it is in the object itself, or if it is longer than 15 bytes and its block is not
more than twice as large as needed. -/
theorem C42_self_assign_partial (g : Nat → Byte) (s : Dyn) (a : Bytes) (hs : WF s a)
    (h : a = [] ∨ s.heap = none ∨ 15 < a.length ∧ s.physical / 2 ≤ a.length + 1) :
    ∃ s', assignSelf g s = .ok s' ∧ ShowsText s' a := by
  have hl := hs.logical
  have hb := holds_length hs.holds
  have hp := hs.block
  unfold assignSelf
  by_cases ha : a = []
  · subst ha
    rw [if_neg (by rw [hl]; simp)]
    obtain ⟨s', e, hw⟩ := purge_wf hs.loc
    exact ⟨s', e, wf_shows hw⟩
  have hpos : 0 < a.length := List.length_pos_iff.2 ha
  rw [if_pos (by omega)]
  have key : ∃ p', (resize g s.logical s).1 = { s with physical := p' } := by
    unfold resize
    rcases h with h | h | ⟨h1, h2⟩
    · exact absurd h ha
    · have : s.data = s.loc := by simp [Dyn.data, h]
      rw [this, hs.loc] at hb
      rw [if_neg (by omega)]
      exact ⟨16, by rw [← h]⟩
    · rw [if_pos (by omega), if_neg (by omega)]
      exact ⟨s.physical, rfl⟩
  obtain ⟨p', e⟩ := key
  rw [e]
  have hd : ({ s with physical := p' } : Dyn).data = s.data := rfl
  dsimp only
  rw [hd, copy_onto hs.holds, Out.ok_bind]
  refine ⟨_, rfl, ?_, ?_⟩
  · have : (({ s with physical := p' } : Dyn).store s.data).data = s.data := by
      cases hh : s.heap <;> simp [Dyn.store, Dyn.data, hh]
    rw [this]; exact hs.holds
  · have : (({ s with physical := p' } : Dyn).store s.data).logical = s.logical := by
      cases hh : s.heap <;> simp [Dyn.store, hh]
    rw [Dyn.length, this, hl]; omega

/-- `String a("b"); a = a;` -/
example : (newText (fun _ => 7) [98, 0] >>= fun s => assignSelf (fun _ => 7) s >>= fun s' => .ok (s == s', s'.length)) = .ok (true, 1) := by decide +kernel

/-- Defect 4: `AppendString("ab", 5)` on an empty string reports the length 5 for the text `ab`. -/
theorem C42_violated_append_length (g : Nat → Byte) :
    ∃ s, appendN g (.ext [97, 98, 0, 99, 99, 0]) 5 newEmpty = .ok s ∧ s.length = 5 ∧ Holds s.data [97, 98] :=
  ⟨⟨6, 16, none, [97, 98, 0] ++ loc0.drop 3⟩, rfl, rfl, by decide, _, rfl⟩

/-- An argument inside the object itself is freed before it is read when the string has to grow. -/
theorem C42_violated_own_argument (g : Nat → Byte) (s : Dyn) (a : Bytes) (i : Nat) (hs : WF s a) (hi : i < a.length)
    (hh : s.heap.isSome) (hfull : s.logical = s.physical) : appendText g (.own i) s = .ub := by
  have hhold : Holds (s.data.drop i) (a.drop i) := by
    obtain ⟨h0, r, e⟩ := hs.holds
    refine ⟨fun h => h0 (List.mem_of_mem_drop h), r, ?_⟩
    rw [e, List.drop_append_of_le_length (by omega)]
  simp only [appendText, srcText]
  rw [getTextLength_holds hhold, Out.ok_bind, if_pos (by simp; omega)]
  have hg : ∃ s', grow g (s.logical + (a.drop i).length) s = .ok (s', true) := by
    simp only [grow]
    have hl := hs.logical
    have hp := physSize_ge (s.logical + (a.drop i).length)
    rw [if_pos (by simp; omega), copyInto_ext hs.holds (by rw [length_fresh]; omega)]
    exact ⟨_, rfl⟩
  obtain ⟨s', e⟩ := hg
  rw [e, Out.ok_bind]
  obtain ⟨h, e2⟩ := Option.isSome_iff_exists.mp hh
  simp only [srcAfter, e2]
  rfl

/-- `SetStringLength` to a greater length gives room for exactly the new length and a terminator there; this
is how the parser uses it (C4Json.cpp:1114) before it writes the characters. -/
theorem C42_extend_partial (g : Nat → Byte) (n : Nat) :
    ∃ s, setLength g n newEmpty = .ok s ∧ s.length = n ∧ n < s.data.length ∧ s.data[n]? = some 0 ∧
      s.data.length = s.physical ∧ s.loc.length = 16 := by
  by_cases h0 : n = 0
  · subst h0; exact ⟨newEmpty, rfl, rfl, by decide, rfl, rfl, rfl⟩
  unfold setLength
  have hlog : newEmpty.logical = 1 := rfl
  have hphys : newEmpty.physical = 16 := rfl
  have hne : n + 1 ≠ 1 := by omega
  simp only [hlog, hphys, if_pos hne]
  rw [if_pos (by omega)]
  by_cases h16 : n + 1 > 16
  · have hp := physSize_ge (n + 1)
    have hm : min n (1 - 1) = 0 := by omega
    have l1 : (put (fresh g (physSize (n + 1))) 0 [0]).length = physSize (n + 1) := by
      rw [length_put (by rw [length_fresh]; simp; omega), length_fresh]
    rw [if_pos h16, if_pos (Or.inl (by omega)), hm, copyIntoMax, copyTextMax, wr_ok (by rw [length_fresh]; omega),
      Out.ok_bind, Out.ok_bind, Out.ok_bind, Out.ok_bind]
    simp only [Dyn.data, Option.getD_some]
    have l2 : (put (put (fresh g (physSize (n + 1))) 0 [0]) n [0]).length = physSize (n + 1) := by
      rw [length_put (by rw [l1]; simp; omega), l1]
    rw [wr_ok (by omega), Out.ok_bind]
    refine ⟨_, rfl, ?_, ?_, ?_, ?_, rfl⟩
    · simp only [Dyn.length, logical_store]; omega
    · simp only [Dyn.store, Option.getD_some]; omega
    · simp only [Dyn.store, Option.getD_some]
      rw [← set_eq_put (by omega), List.getElem?_set_self (by omega)]
    · simpa [Dyn.store] using l2
  · rw [if_neg h16]
    have hh : newEmpty.heap = none := rfl
    have hl : newEmpty.loc.length = 16 := rfl
    simp only [hh]
    rw [Out.ok_bind]
    simp only [Dyn.data, Option.getD_none]
    rw [wr, if_pos (by omega), Out.ok_bind]
    refine ⟨_, rfl, ?_, ?_, ?_, ?_, ?_⟩
    · simp only [Dyn.length, logical_store]; omega
    · simp only [Dyn.store, Option.getD_none, List.length_set]; omega
    · simp only [Dyn.store, Option.getD_none]
      rw [List.getElem?_set_self (by omega)]
    · simp [Dyn.store, hl]
    · simp [Dyn.store, hl]

example : ∃ s, (newText (fun _ => 7) [97, 0] >>= appendText (fun _ => 7) (.ext longText) >>= appendInt false (fun _ => 7) (-12)
    >>= setLength (fun _ => 7) 20 >>= toUpper) = .ok s ∧ ShowsText s (List.replicate 20 65) := by
  refine ⟨⟨21, 64, some (List.replicate 20 65 ++ 0 :: List.replicate 43 7), [97, 0] ++ loc0.drop 2⟩,
    by decide +kernel, ⟨by decide +kernel, List.replicate 43 7, rfl⟩, rfl⟩

/-! ## C43: escape encoding -/

/-- An upper-case hexadecimal digit and its value. -/
def HexVal (c : Byte) (n : Nat) : Prop := (n < 10 ∧ c.toNat = 48 + n) ∨ (10 ≤ n ∧ n < 16 ∧ c.toNat = 55 + n)

/-- Specification: the text denoted by a text with escape sequences. An escape is a backslash and a letter or
a double quote or a backslash, or, for characters without such an escape, a backslash, `x` and two hexadecimal digits. -/
inductive DenotesText : Bytes → Bytes → Prop
  | nil : DenotesText [] []
  | plain {c e a} : 32 ≤ c.toNat → c.toNat ≠ 34 → c.toNat ≠ 92 → c.toNat ≠ 127 → DenotesText e a → DenotesText (c :: e) (c :: a)
  | letter {l c e a} : (l, c) ∈ ([(97, 7), (98, 8), (116, 9), (110, 10), (118, 11), (102, 12), (114, 13), (34, 34), (92, 92)] :
      List (Byte × Byte)) → DenotesText e a → DenotesText (92 :: l :: e) (c :: a)
  | hex {h l c : Byte} {m n : Nat} {e a} : HexVal h m → HexVal l n → c.toNat = 16 * m + n →
      c ∉ ([7, 8, 9, 10, 11, 12, 13, 34, 92] : Bytes) → DenotesText e a →
      DenotesText (92 :: 120 :: h :: l :: e) (c :: a)

/-- C43: the object stays in order and its text denotes the old text. -/
def C43_statement : Prop :=
  ∀ (g : Nat → Byte) (s : Dyn) (a : Bytes), WF s a →
    ∃ s' e, encodeEscapes g s = .ok s' ∧ DenotesText e a ∧ ShowsText s' e

theorem denotes_byte {c : Byte} {e a : Bytes} (hc : c ≠ 0) (h : DenotesText e a) : DenotesText (encodedBytes c ++ e) (c :: a) := by
  have key : ∀ n : Fin 256, UInt8.ofNat n ≠ 0 →
      (encodedBytes (UInt8.ofNat n) = [UInt8.ofNat n] ∧ 32 ≤ n.val ∧ n.val ≠ 34 ∧ n.val ≠ 92 ∧ n.val ≠ 127) ∨
      (∃ l, encodedBytes (UInt8.ofNat n) = [92, l] ∧ (l, UInt8.ofNat n) ∈ ([(97, 7), (98, 8), (116, 9), (110, 10),
        (118, 11), (102, 12), (114, 13), (34, 34), (92, 92)] : List (Byte × Byte))) ∨
      (encodedBytes (UInt8.ofNat n) = [92, 120, hexDigit (n.val / 16), hexDigit (n.val % 16)] ∧
        UInt8.ofNat n ∉ ([7, 8, 9, 10, 11, 12, 13, 34, 92] : Bytes)) := by
    intro n hn
    have : (encodedBytes (UInt8.ofNat n) = [UInt8.ofNat n] ∧ 32 ≤ n.val ∧ n.val ≠ 34 ∧ n.val ≠ 92 ∧ n.val ≠ 127) ∨
      ((encodedBytes (UInt8.ofNat n) = [92, (encodedBytes (UInt8.ofNat n)).getD 1 0] ∧
        ((encodedBytes (UInt8.ofNat n)).getD 1 0, UInt8.ofNat n) ∈ ([(97, 7), (98, 8), (116, 9), (110, 10),
        (118, 11), (102, 12), (114, 13), (34, 34), (92, 92)] : List (Byte × Byte)))) ∨
      (encodedBytes (UInt8.ofNat n) = [92, 120, hexDigit (n.val / 16), hexDigit (n.val % 16)] ∧
        UInt8.ofNat n ∉ ([7, 8, 9, 10, 11, 12, 13, 34, 92] : Bytes)) := by
      revert n; decide +kernel
    rcases this with h | h | h
    · exact Or.inl h
    · exact Or.inr (Or.inl ⟨_, h⟩)
    · exact Or.inr (Or.inr h)
  have hh : ∀ n : Fin 16, HexVal (hexDigit n) n := by
    unfold HexVal; decide +kernel
  have := key ⟨c.toNat, c.toNat_lt⟩ (by simpa using hc)
  simp only [UInt8.ofNat_toNat] at this
  rcases this with ⟨e1, h1, h2, h3, h4⟩ | ⟨l, e1, h1⟩ | ⟨e1, h1⟩
  · rw [e1]; exact .plain h1 h2 h3 h4 h
  · rw [e1]; exact .letter h1 h
  · rw [e1]
    have hlt := c.toNat_lt
    exact .hex (hh ⟨c.toNat / 16, by omega⟩) (hh ⟨c.toNat % 16, by omega⟩) (by simp only; omega) h1 h

theorem denotes_encoded {a : Bytes} (h0 : 0 ∉ a) : DenotesText (a.flatMap encodedBytes) a := by
  induction a with
  | nil => exact .nil
  | cons c a ih =>
    rw [List.flatMap_cons]
    exact denotes_byte (fun e => h0 (by simp [e])) (ih (fun h => h0 (by simp [h])))

/-- The contents are right and stay inside the storage for every text; the reported length is right when the
text has nothing to escape. Missing: the reported length otherwise, where C43 fails (`C43_violated`). -/
theorem C43_contents_partial (g : Nat → Byte) (s : Dyn) (a : Bytes) (hs : WF s a) :
    ∃ s' e, encodeEscapes g s = .ok s' ∧ DenotesText e a ∧ Holds s'.data e ∧ (e = a → ShowsText s' e) := by
  obtain ⟨s', e1, h1, -, -, h4⟩ := encodeEscapes_spec g hs
  refine ⟨s', _, e1, denotes_encoded hs.holds.1, h1, fun he => ⟨h1, ?_⟩⟩
  have hall : ∀ c ∈ a, encodedSize c ≤ 1 := by
    have hsum : (a.map encodedSize).sum = a.length := by rw [← length_flatMap_encoded, he]
    clear he h1 h4 e1 hs
    induction a with
    | nil => simp
    | cons k a ih =>
      simp only [List.map_cons, List.sum_cons, List.length_cons] at hsum
      have hge : a.length ≤ (a.map encodedSize).sum := by
        clear ih hsum
        induction a with
        | nil => simp
        | cons x a ih2 =>
          simp only [List.map_cons, List.sum_cons, List.length_cons]
          rcases encodedSize_cases x with h | h | h <;> omega
      have hk : 1 ≤ encodedSize k := by rcases encodedSize_cases k with h | h | h <;> omega
      intro c hc
      rcases List.mem_cons.mp hc with rfl | hc
      · omega
      · exact ih (by omega) c hc
  rw [if_pos hall] at h4
  rw [Dyn.length, h4, he]; omega

/-- C43 fails for **every** text that contains something to escape: the reported length is one less than the
length of the new text. -/
theorem C43_reported_length (g : Nat → Byte) (s s' : Dyn) (a e : Bytes) (hs : WF s a) (c : Byte) (hc : c ∈ a)
    (h1 : 1 < encodedSize c) (hr : encodeEscapes g s = .ok s') (he : Holds s'.data e) : s'.length = (e.length : Int) - 1 := by
  obtain ⟨s'', e1, h2, -, -, h4⟩ := encodeEscapes_spec g hs
  rw [hr] at e1
  cases e1
  rw [if_neg (fun h => by have := h c hc; omega)] at h4
  rw [Dyn.length, h4, holds_unique he h2]

theorem C43_violated : ¬ C43_statement := by
  intro h
  have hw : WF ⟨2, 16, none, [10, 0] ++ loc0.drop 2⟩ [10] := ⟨rfl, ⟨by decide, _, rfl⟩, rfl, rfl⟩
  obtain ⟨s', e, h1, -, h2, h3⟩ := h (fun _ => 0) _ _ hw
  have := C43_reported_length _ _ _ _ e hw 10 (by decide) (by decide) h1 h2
  omega

/-- The encoded text determines the original text. -/
theorem C43_decodable (e a a' : Bytes) (h : DenotesText e a) (h' : DenotesText e a') : a = a' := by
  induction h generalizing a' with
  | nil => cases h'; rfl
  | plain h1 h2 h3 h4 _ ih =>
    cases h' with
    | plain _ _ _ _ h => rw [ih _ h]
    | letter => exact absurd rfl h3
    | hex => exact absurd rfl h3
  | @letter l c e a hm _ ih =>
    cases h' with
    | plain _ _ h3 => exact absurd rfl h3
    | @letter _ c' _ _ hm' h =>
      rw [ih _ h]
      have : ∀ p ∈ ([(97, 7), (98, 8), (116, 9), (110, 10), (118, 11), (102, 12), (114, 13), (34, 34), (92, 92)] :
        List (Byte × Byte)), ∀ q ∈ ([(97, 7), (98, 8), (116, 9), (110, 10), (118, 11), (102, 12), (114, 13), (34, 34),
        (92, 92)] : List (Byte × Byte)), p.1 = q.1 → p.2 = q.2 := by decide
      have hcc : c = c' := this _ hm _ hm' rfl
      rw [hcc]
    | hex => revert hm; simp
  | @hex hh l c m n e a h1 h2 h3 _ _ ih =>
    cases h' with
    | plain _ _ h3 => exact absurd rfl h3
    | letter hm => revert hm; simp
    | @hex _ _ c' m' n' _ a' h1' h2' h3' _ h =>
      rw [ih _ h]
      have : c = c' := by
        apply UInt8.toNat_inj.mp
        unfold HexVal at h1 h2 h1' h2'
        omega
      rw [this]

example : ∃ s, (newText (fun _ => 7) [97, 10, 34, 1, 0] >>= encodeEscapes (fun _ => 7)) = .ok s ∧
    Holds s.data [97, 92, 110, 92, 34, 92, 120, 48, 49] ∧ s.length = 8 :=
  ⟨⟨9, 64, some ([97, 92, 110, 92, 34, 92, 120, 48, 49, 0] ++ List.replicate 54 7), [97, 10, 34, 1, 0] ++ loc0.drop 5⟩,
    by decide +kernel, ⟨by decide, List.replicate 54 7, rfl⟩, rfl⟩

end Verif.Props
