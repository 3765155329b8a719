import Mathlib.Algebra.Field.Rat
import Mathlib.Tactic.Ring
import Mathlib.Tactic.FieldSimp
import Mathlib.Tactic.NormNum
import Verif.Lemmas.Builtin

/-!
# Properties of the built-in number reader (C53, C59)
-/

namespace Verif.Props

open Verif Verif.Builtin Verif.Spec

/-! ## C53: tables and grammar -/

/-- C53: on terminated texts the reader has no undefined behaviour (table accesses included), and what it accepts is a decimal
literal. -/
def C53_statement : Prop :=
  (∀ (D : Type) (A : Arith D) (t : Bytes), 0 ∈ t → ∃ r, readDouble A t = .ok r) ∧
  (∀ (D : Type) (A : Arith D) (t : Bytes) (v : D) (r : Bytes), readDouble A t = .ok (.inr (v, r)) →
    ∃ p d, t = p ++ r ∧ LooseNum p d)

/-- Arithmetic without values. -/
def noArith : Arith Unit := ⟨fun _ => (), fun _ _ => (), fun _ _ => (), fun _ _ => (), fun _ => (), ()⟩

theorem looseNum_chars {p : Bytes} {d : Dec} (h : LooseNum p d) : 0x5F ∉ p := by
  have hd : ∀ ds : Bytes, (∀ d ∈ ds, Digit d) → 0x5F ∉ ds := fun ds h hm => absurd (h _ hm) (by unfold Digit; decide)
  obtain ⟨h1, h2, h3, h4, h5, h6⟩ := h
  have e1 := hd _ h2
  have e2 := hd _ h3
  simp only [List.mem_append, not_or]
  refine ⟨?_, e1, ?_, ?_⟩
  · rcases h1 with ⟨rfl, -⟩ | ⟨rfl, -⟩ | ⟨rfl, -⟩ <;> decide
  · rcases h4 with ⟨rfl, -⟩ | rfl
    · simp
    · intro h
      rcases List.mem_cons.1 h with h | h
      · exact absurd h (by decide)
      · exact e2 h
  · have key : ∀ (c : Byte) (pre ds : Bytes), c = 0x65 ∨ c = 0x45 → 0x5F ∉ pre → (∀ d ∈ ds, Digit d) → 0x5F ∉ c :: (pre ++ ds) := by
      intro c pre ds hc hp hds h
      rcases List.mem_cons.1 h with h | h
      · rcases hc with rfl | rfl <;> exact absurd h (by decide)
      · rcases List.mem_append.1 h with h | h
        · exact hp h
        · exact hd _ hds h
    cases h6 with
    | none => simp
    | unsigned hc _ hds => exact key _ [] _ hc (by simp) hds
    | plus hc _ hds => exact key _ [0x2B] _ hc (by decide) hds
    | minus hc _ hds => exact key _ [0x2D] _ hc (by decide) hds

/-- **C53 is violated**: the reader accepts `1_0` (as 10). -/
theorem C53_violated : ¬ C53_statement := by
  intro H
  obtain ⟨p, d, h1, h2⟩ := H.2 Unit noArith [0x31, 0x5F, 0x30, 0] () [0] rfl
  have : p = [0x31, 0x5F, 0x30] := (List.append_cancel_right (bs := [0]) (as := [0x31, 0x5F, 0x30]) h1).symm
  exact looseNum_chars h2 (by rw [this]; decide)

/-- **C53, the part that holds**: on terminated texts the reader has no undefined behaviour, and what it accepts is a decimal literal
apart from underscores between digits. Missing: nothing but the underscores. -/
theorem C53_partial :
    (∀ (D : Type) (A : Arith D) (t : Bytes), 0 ∈ t → ∃ r, readDouble A t = .ok r) ∧
    (∀ (D : Type) (A : Arith D) (t : Bytes) (v : D) (r : Bytes), readDouble A t = .ok (.inr (v, r)) →
      ∃ p, t = p ++ r ∧ ∃ d, LooseNum (p.filter (· ≠ 0x5F)) d ∧ d.neg = false) := by
  refine ⟨fun D A t h => readDouble_safe A t h, fun D A t v r h => ?_⟩
  obtain ⟨p, ip, fp, e, h1, h2, -⟩ := readDouble_sound A h
  refine ⟨p, h1, ?_⟩
  obtain ⟨hi, hf, hne, he⟩ := h2
  rename_i it ft et
  -- removing the underscores from groups leaves the digits
  have hfd : ∀ ds : Bytes, (∀ d ∈ ds, Digit d) → ds.filter (· ≠ 0x5F) = ds := by
    intro ds hds
    rw [List.filter_eq_self]
    intro d hd
    have := hds d hd
    by_contra hn
    have : d = 0x5F := by simpa using hn
    subst this
    exact absurd (hds _ hd) (by unfold Digit; decide)
  have hgr : ∀ {lz : Bool} {s ds : Bytes}, Grouped lz s ds →
      s.filter (· ≠ 0x5F) = ds ∧ (∀ d ∈ ds, Digit d) ∧ ds ≠ [] := by
    rintro lz s ds ⟨g, gs, k1, rfl, rfl⟩
    obtain ⟨a1, a2, a3⟩ := k1 g (by simp)
    have k2 : ∀ gs : List Bytes, (∀ g ∈ gs, ∀ d ∈ g, Digit d) →
        ((gs.map (0x5F :: ·)).flatten).filter (· ≠ 0x5F) = gs.flatten := by
      intro gs
      induction gs with
      | nil => intro _; rfl
      | cons g gs ih =>
        intro h
        rw [List.map_cons, List.flatten_cons, List.filter_append, List.filter_cons, if_neg (by decide), hfd g (h g (by simp)),
          ih (fun g hg => h g (by simp [hg]))]
        rfl
    have k3 := k2 gs (fun g hg => (k1 g (by simp [hg])).2.1)
    refine ⟨by rw [List.filter_append, hfd g a2, k3], ?_, by simp [a1]⟩
    intro d hd
    rcases List.mem_append.1 hd with h | h
    · exact a2 d h
    · obtain ⟨g', h1, h2⟩ := List.mem_flatten.1 h
      exact (k1 g' (by simp [h1])).2.1 d h2
  have e1 : it.filter (· ≠ 0x5F) = ip ∧ (∀ d ∈ ip, Digit d) := by
    rcases hi with ⟨rfl, rfl⟩ | hg
    · exact ⟨rfl, by simp⟩
    · exact ⟨(hgr hg).1, (hgr hg).2.1⟩
  have e2 : (∀ d ∈ fp, Digit d) ∧ (ft.filter (· ≠ 0x5F) = [] ∧ fp = [] ∨ ft.filter (· ≠ 0x5F) = 0x2E :: fp) := by
    cases hf with
    | none => exact ⟨by simp, .inl ⟨rfl, rfl⟩⟩
    | point => exact ⟨by simp, .inr (by decide)⟩
    | some hg => exact ⟨(hgr hg).2.1, .inr (by rw [List.filter_cons, if_pos (by decide), (hgr hg).1])⟩
  have e3 : ∃ x, RfcExp (et.filter (· ≠ 0x5F)) x := by
    have hx : ∀ c : Byte, c = 0x65 ∨ c = 0x45 → c ≠ 0x5F := by rintro c (rfl | rfl) <;> decide
    cases he with
    | none => exact ⟨_, .none⟩
    | unsigned hc hg =>
      rw [List.filter_cons, if_pos (by simpa using hx _ hc), (hgr hg).1]
      exact ⟨_, .unsigned hc (hgr hg).2.2 (hgr hg).2.1⟩
    | plus hc hg =>
      rw [List.filter_cons, if_pos (by simpa using hx _ hc), List.filter_cons, if_pos (by decide), (hgr hg).1]
      exact ⟨_, .plus hc (hgr hg).2.2 (hgr hg).2.1⟩
    | minus hc hg =>
      rw [List.filter_cons, if_pos (by simpa using hx _ hc), List.filter_cons, if_pos (by decide), (hgr hg).1]
      exact ⟨_, .minus hc (hgr hg).2.2 (hgr hg).2.1⟩
  obtain ⟨x, e3⟩ := e3
  refine ⟨⟨false, decimal (ip ++ fp), x - fp.length⟩, ?_, rfl⟩
  rw [List.filter_append, List.filter_append, e1.1]
  exact LooseNum.mk (sg := []) (.inl ⟨rfl, rfl⟩) e1.2 e2.1 e2.2 hne e3

/-- The accepted literals, exactly: a literal of the form `UnderNum` is accepted in front of any character that cannot belong to
it, whatever is accepted has this form, and the value depends only on its digits and its exponent. -/
theorem C53_grammar_partial {D : Type} (A : Arith D) :
    ∃ value : Bytes → Bytes → Option Int → D,
      (∀ p ip fp e c r, UnderNum p ip fp e → ¬ Digit c → c ∉ [0x5F, 0x2E, 0x65, 0x45] →
        readDouble A (p ++ c :: r) = .ok (.inr (value ip fp e, c :: r))) ∧
      (∀ t v r, readDouble A t = .ok (.inr (v, r)) → ∃ p ip fp e, t = p ++ r ∧ UnderNum p ip fp e ∧ v = value ip fp e) := by
  refine ⟨valueOf A, fun p ip fp e c r h h1 h2 => ?_, fun t v r h => readDouble_sound A h⟩
  simp only [List.mem_cons, List.not_mem_nil, or_false, not_or] at h2
  exact readDouble_ok A h ⟨h1, h2.1, h2.2.1, h2.2.2.1, h2.2.2.2⟩ r

/-! ## C59: the value -/

/-- Arithmetic without rounding; `none` is an infinite or undefined value. -/
def exactArith : Arith (Option Rat) where
  ofNat n := some n
  add x y := x.bind fun x => y.map fun y => x + y
  mul x y := x.bind fun x => y.map fun y => x * y
  div x y := x.bind fun x => y.map fun y => x / y
  lit e := some ((10 : Rat) ^ e)
  huge := none

/-- The number a literal denotes. -/
def Dec.toRat (d : Dec) : Rat := (if d.neg then -1 else 1) * d.mantissa * (10 : Rat) ^ d.exponent

/-- C59: apart from rounding, the reader yields the denoted number for every unsigned RFC 8259 number that is zero or a normal
number of the format. -/
def C59_statement : Prop :=
  ∀ (t : Bytes) (d : Dec) (c : Byte) (r : Bytes), RfcNum t d → d.neg = false → ¬ Digit c → c ∉ [0x5F, 0x2E, 0x65, 0x45] →
    d.mantissa = 0 ∨ (10 : Rat) ^ (-307 : Int) ≤ Dec.toRat d ∧ Dec.toRat d ≤ (10 : Rat) ^ (308 : Int) →
    readDouble exactArith (t ++ c :: r) = .ok (.inr (some (Dec.toRat d), c :: r))

theorem feed_whole (ds : Bytes) : ∀ n : Nat,
    feed (fun v x => exactArith.add (exactArith.mul v (exactArith.ofNat 10)) (exactArith.ofNat x)) (some (n : Rat)) ds =
      some ((n : Rat) * 10 ^ ds.length + decimal ds) := by
  induction ds with
  | nil => intro n; simp [feed, decimal]
  | cons c ds ih =>
    intro n
    have := ih (n * 10 + (c.toNat - 48))
    unfold feed at this ⊢
    rw [List.foldl_cons]
    have e : exactArith.add (exactArith.mul (some (n : Rat)) (exactArith.ofNat 10)) (exactArith.ofNat (c.toNat - 48)) =
        some (((n * 10 + (c.toNat - 48) : Nat)) : Rat) := by
      simp [exactArith]
    rw [show (fun v x => exactArith.add (exactArith.mul v (exactArith.ofNat 10)) (exactArith.ofNat x)) (some (n : Rat)) (c.toNat - 48) = _ from e, this]
    simp only [decimal, List.length_cons]
    push_cast
    congr 1
    ring

theorem feed_fraction (ds : Bytes) : ∀ (v : Rat) (k : Nat),
    (feed (fun (s : Option Rat × Option Rat) x => (exactArith.add s.1 (exactArith.div (exactArith.ofNat x) s.2), exactArith.mul s.2 (exactArith.ofNat 10)))
      (some v, some ((10 : Rat) ^ (k + 1))) ds).1 = some (v + decimal ds / 10 ^ (k + ds.length)) := by
  induction ds with
  | nil => intro v k; simp [feed, decimal]
  | cons c ds ih =>
    intro v k
    have := ih (v + ((c.toNat - 48 : Nat) : Rat) / 10 ^ (k + 1)) (k + 1)
    unfold feed at this ⊢
    rw [List.foldl_cons]
    have e : ((exactArith.add (some v) (exactArith.div (exactArith.ofNat (c.toNat - 48)) (some ((10 : Rat) ^ (k + 1)))),
        exactArith.mul (some ((10 : Rat) ^ (k + 1))) (exactArith.ofNat 10)) : Option Rat × Option Rat) =
        (some (v + ((c.toNat - 48 : Nat) : Rat) / 10 ^ (k + 1)), some ((10 : Rat) ^ (k + 1 + 1))) := by
      simp [exactArith, pow_succ]
    rw [show ((fun (s : Option Rat × Option Rat) (c : Byte) => (exactArith.add s.1 (exactArith.div (exactArith.ofNat (c.toNat - 48)) s.2),
      exactArith.mul s.2 (exactArith.ofNat 10))) (some v, some ((10 : Rat) ^ (k + 1))) c) = _ from e, this]
    simp only [decimal, List.length_cons]
    push_cast
    congr 1
    have h10 : (10 : Rat) ≠ 0 := by norm_num
    field_simp
    ring

theorem decimal_append (a b : Bytes) : decimal (a ++ b) = decimal a * 10 ^ b.length + decimal b := by
  induction a with
  | nil => simp [decimal]
  | cons c a ih =>
    simp only [List.cons_append, decimal, ih, List.length_append, Nat.pow_add]
    ring

theorem valueOf_exact (ip fp : Bytes) (e : Option Int) : valueOf exactArith ip fp e =
    (match e with
      | none => some ((decimal (ip ++ fp) : Rat) * 10 ^ (-(fp.length : Int)))
      | some e => if 309 ≤ e then none else if e ≤ -309 then some 0
        else some ((decimal (ip ++ fp) : Rat) * 10 ^ (e - fp.length))) := by
  have h10 : (10 : Rat) ≠ 0 := by norm_num
  have h0 : (feed (fun (s : Option Rat × Option Rat) x =>
      (exactArith.add s.1 (exactArith.div (exactArith.ofNat x) s.2), exactArith.mul s.2 (exactArith.ofNat 10)))
      (feed (fun v x => exactArith.add (exactArith.mul v (exactArith.ofNat 10)) (exactArith.ofNat x)) (exactArith.ofNat 0) ip, exactArith.ofNat 10) fp).1 =
      some ((decimal (ip ++ fp) : Rat) * 10 ^ (-(fp.length : Int))) := by
    have e1 := feed_whole ip 0
    have e0 : exactArith.ofNat 0 = some ((0 : Nat) : Rat) := rfl
    rw [e0, e1]
    have e2 := feed_fraction fp ((0 : Nat) * 10 ^ ip.length + decimal ip) 0
    have e3 : exactArith.ofNat 10 = some ((10 : Rat) ^ (0 + 1)) := by simp [exactArith]
    rw [← e3] at e2
    rw [e2, decimal_append]
    push_cast
    rw [zpow_neg, zpow_natCast, Nat.zero_add]
    congr 1
    field_simp
    ring
  unfold valueOf
  simp only [h0]
  cases e with
  | none => rfl
  | some e =>
    simp only [applyExp, power]
    by_cases h1 : 309 ≤ e
    · rw [if_pos h1, if_pos h1]; rfl
    · rw [if_neg h1, if_neg h1]
      by_cases h2 : e ≤ -309
      · rw [if_pos h2, if_pos h2]; simp [exactArith]
      · rw [if_neg h2, if_neg h2]
        simp only [exactArith, Option.bind_some, Option.map_some]
        rw [mul_assoc, ← zpow_add₀ h10]
        congr 3
        ring

/-- RFC 8259 numbers are literals of the reader: the parts. -/
theorem rfc_under {i ft fd et : Bytes} {e : Int} (hi : RfcInt i) (hf : RfcFrac ft fd) (he : RfcExp et e) :
    ∃ e', UnderNum (i ++ (ft ++ et)) i fd e' ∧ e'.getD 0 = e := by
  have hg : ∀ ds : Bytes, ds ≠ [] → (∀ d ∈ ds, Digit d) → Grouped false ds ds := by
    intro ds h1 h2
    refine ⟨ds, [], ?_, by simp, by simp⟩
    intro g hg
    simp only [List.mem_cons, List.not_mem_nil, or_false] at hg
    subst hg
    exact ⟨h1, h2, by simp⟩
  have h1 : UnderInt i i := by
    right
    cases hi with
    | zero =>
      refine ⟨[0x30], [], ?_, rfl, rfl⟩
      intro g hg
      simp only [List.mem_cons, List.not_mem_nil, or_false] at hg
      subst hg
      exact ⟨by simp, by unfold Digit; decide, by simp⟩
    | @pos c ds hc h0 hds =>
      have : ((c :: ds).head? == some 0x30) = false := by simpa using h0
      rw [this]
      refine hg _ (by simp) ?_
      intro d hd
      rcases List.mem_cons.1 hd with rfl | hd
      · exact hc
      · exact hds d hd
  have h2 : UnderFrac ft fd := by
    cases hf with
    | none => exact .none
    | some a b => exact .some (hg _ a b)
  have h3 : i ++ fd ≠ [] := by cases hi <;> simp
  cases he with
  | none => exact ⟨none, ⟨h1, h2, h3, .none⟩, rfl⟩
  | unsigned hc a b => exact ⟨some _, ⟨h1, h2, h3, .unsigned hc (hg _ a b)⟩, rfl⟩
  | plus hc a b => exact ⟨some _, ⟨h1, h2, h3, .plus hc (hg _ a b)⟩, rfl⟩
  | minus hc a b => exact ⟨some _, ⟨h1, h2, h3, .minus hc (hg _ a b)⟩, rfl⟩

/-- **C59 is violated**: `0e309` is zero, but the reader multiplies 0 by infinity. -/
theorem C59_violated : ¬ C59_statement := by
  intro H
  have hd : ∀ d ∈ [0x33, 0x30, 0x39], Digit d := by unfold Digit; decide
  have h := H [0x30, 0x65, 0x33, 0x30, 0x39] ⟨false, decimal ([0x30] ++ []), (decimal [0x33, 0x30, 0x39] : Int) - ([] : Bytes).length⟩ 0 []
    (RfcNum.pos (i := [0x30]) (ft := []) (et := 0x65 :: [0x33, 0x30, 0x39]) .zero .none (.unsigned (.inl rfl) (by simp) hd)) rfl
    (by unfold Digit; decide) (by decide) (.inl rfl)
  have hg : Grouped false [0x33, 0x30, 0x39] [0x33, 0x30, 0x39] := by
    refine ⟨[0x33, 0x30, 0x39], [], ?_, rfl, rfl⟩
    intro g hg
    simp only [List.mem_cons, List.not_mem_nil, or_false] at hg
    subst hg
    exact ⟨by simp, hd, by simp⟩
  have hu : UnderNum ([0x30] ++ ([] ++ 0x65 :: [0x33, 0x30, 0x39])) [0x30] [] (some (decimal [0x33, 0x30, 0x39])) := by
    refine ⟨.inr ⟨[0x30], [], ?_, rfl, rfl⟩, .none, by simp, .unsigned (.inl rfl) hg⟩
    intro g hg
    simp only [List.mem_cons, List.not_mem_nil, or_false] at hg
    subst hg
    exact ⟨by simp, by unfold Digit; decide, by simp⟩
  have h' := readDouble_ok exactArith hu (c := 0) ⟨by unfold Digit; decide, by decide, by decide, by decide, by decide⟩ []
  rw [show ([0x30, 0x65, 0x33, 0x30, 0x39] : Bytes) = [0x30] ++ ([] ++ 0x65 :: [0x33, 0x30, 0x39]) from rfl, h', valueOf_exact] at h
  have he : (309 : Int) ≤ (decimal [0x33, 0x30, 0x39] : Int) := by decide
  simp [he] at h

/-- **C59 is violated** as well for small numbers: every RFC 8259 number with an exponent part of -309 or less is read as 0, for
example `100e-309`. -/
theorem C59_violated_small (ip fp t : Bytes) (e : Int) (h : UnderNum t ip fp (some e)) (he : e ≤ -309) (c : Byte) (r : Bytes)
    (h1 : ¬ Digit c) (h2 : c ∉ [0x5F, 0x2E, 0x65, 0x45]) : readDouble exactArith (t ++ c :: r) = .ok (.inr (some 0, c :: r)) := by
  simp only [List.mem_cons, List.not_mem_nil, or_false, not_or] at h2
  rw [readDouble_ok exactArith h ⟨h1, h2.1, h2.2.1, h2.2.2.1, h2.2.2.2⟩ r, valueOf_exact]
  simp only
  rw [if_neg (by omega), if_pos he]

/-- **C59, the part that holds**: every unsigned RFC 8259 number is accepted, and if its exponent part is between -308 and 308
then the value is the denoted number, apart from rounding.
Missing: the rounding errors of the arithmetic, and larger exponents. -/
theorem C59_partial (i ft fd et : Bytes) (e : Int) (c : Byte) (r : Bytes) (hi : RfcInt i) (hf : RfcFrac ft fd) (he : RfcExp et e)
    (h1 : ¬ Digit c) (h2 : c ∉ [0x5F, 0x2E, 0x65, 0x45]) :
    (∀ (D : Type) (A : Arith D), ∃ v, readDouble A (i ++ (ft ++ et) ++ c :: r) = .ok (.inr (v, c :: r))) ∧
    (-309 < e → e < 309 → readDouble exactArith (i ++ (ft ++ et) ++ c :: r) =
      .ok (.inr (some ((decimal (i ++ fd) : Rat) * 10 ^ (e - fd.length)), c :: r))) := by
  simp only [List.mem_cons, List.not_mem_nil, or_false, not_or] at h2
  obtain ⟨e', h3, rfl⟩ := rfc_under hi hf he
  have hc : Final c := ⟨h1, h2.1, h2.2.1, h2.2.2.1, h2.2.2.2⟩
  refine ⟨fun D A => ⟨_, readDouble_ok A h3 hc r⟩, fun ha hb => ?_⟩
  rw [readDouble_ok exactArith h3 hc r, valueOf_exact]
  cases e' with
  | none => simp
  | some e =>
    simp only [Option.getD_some] at ha hb ⊢
    rw [if_neg (by omega), if_neg (by omega)]

/-! ## Examples -/

/-- `12.5e1,` is 125, `0_1_2]` is 12; `01`, `1__0`, `1_`, `.` and `1e` are errors. -/
example : readDouble exactArith [0x31, 0x32, 0x2E, 0x35, 0x65, 0x31, 0x2C] = .ok (.inr (some 125, [0x2C])) := by
  have h := (C59_partial [0x31, 0x32] [0x2E, 0x35] [0x35] [0x65, 0x31] 1 0x2C [] (.pos (by unfold Digit; decide) (by decide)
    (by unfold Digit; decide)) (.some (by simp) (by unfold Digit; decide)) (.unsigned (ds := [0x31]) (.inl rfl) (by simp)
    (by unfold Digit; decide)) (by unfold Digit; decide) (by decide)).2 (by decide) (by decide)
  simpa [decimal] using h
example : readDouble exactArith [0x30, 0x5F, 0x31, 0x5F, 0x32, 0x5D] = .ok (.inr (some 12, [0x5D])) := by
  simp [readDouble, digitLoop, readFraction, finish, Number.isDigit, exactArith]; norm_num
example : readDouble noArith [0x30, 0x31, 0] = .ok (.inl .kNumbersCannotHaveLeadingZeros) := by decide
example : readDouble noArith [0x31, 0x5F, 0x5F, 0x30, 0] = .ok (.inl .kFloatInvalid) := by decide
example : readDouble noArith [0x31, 0x5F, 0] = .ok (.inl .kFloatInvalid) := by decide
example : readDouble noArith [0x2E, 0] = .ok (.inl .kFloatInvalid) := by decide
example : readDouble noArith [0x31, 0x65, 0] = .ok (.inl .kFloatInvalid) := by decide

end Verif.Props
