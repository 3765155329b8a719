import Verif.Lemmas.Drift
import Verif.Props.Stable

/-!
# Saving and loading again and again without the C library (C149, C150)
-/

namespace Verif.Props

open Verif Verif.Text Verif.Number Verif.Map Verif.Parser Verif.Doc Verif.Write Verif.Texts Verif.Str Verif.B32 Verif.MathFns Verif.FloatText
open Verif.Spec.F32 Verif.NumTrip
open Verif.B64 (Dbl)
open Verif.Spec (units FiniteFloat RfcNum RfcInt RfcFrac Dec decReal value Ws SignedNum SignedLit decimal Digit)

/-- The text that `FloatToString` leaves for a number. -/
def builtinFmt (wrapv : Bool) (x : Dbl) : Bytes :=
  match fixedSetFloat elem wrapv 15 (narrowBits x) (List.replicate 16 0) with
  | .ok c => c.takeWhile (· ≠ 0)
  | _ => []

/-- Number operations that print in this way. -/
def builtinOps (wrapv : Bool) : NumOps Dbl := ⟨fun _ _ _ => .nan, id, builtinFmt wrapv⟩

/-- Without the C library, writing `d` is defined and gives `out`. -/
def Saves (wrapv : Bool) (il : Nat) (ic : Byte) (d : Value Dbl) (out : Bytes) : Prop :=
  (∀ path x, walk d path = some (.num x) → PrintsAs elem wrapv narrowBits x (builtinFmt wrapv x)) ∧ Emits (builtinOps wrapv) il ic d out

/-- Without the C library, the text `out` is accepted and gives `d`. -/
abbrev Loads (out : Bytes) (d : Value Dbl) : Prop := BuiltinAccepts B64.arith B64.negate (out ++ [0]) d

/-- **C149**: what is saved, loaded and saved again is the same text. -/
def C149_statement (wrapv : Bool) : Prop :=
  ∀ d il ic out, (il = 0 ∨ Ws [ic]) → HarmlessStrings d → NumbersAre (Writable wrapv) d → Saves wrapv il ic d out → 2 ≤ out.length →
    ∃ d', Loads out d' ∧ Saves wrapv il ic d' out

/-- Numbers for which this holds: those that become zero, and the multiples of 1/16 below 512 (below 1e5 if the overflowing shift is
defined). -/
def Steady (wrapv : Bool) (v : Rat) : Prop :=
  |v| ≤ 1 / 2 ^ 127 ∨ ∃ k : Int, v = k / 16 ∧ (k.natAbs < 16 * 512 ∨ wrapv = true ∧ k.natAbs < 16 * 10 ^ 5)

/-- **C150**: whole numbers of at most 24 bits come back exactly. -/
def C150_statement (wrapv : Bool) : Prop :=
  ∀ d, HarmlessStrings d → NumbersAre (fun v => ∃ n : Int, v = n ∧ n.natAbs ≤ 2 ^ 24) d → NumbersComeBack wrapv (Within 0) d

/-- Save and load `n` times. -/
def SavedLoaded (wrapv : Bool) : Nat → Value Dbl → Value Dbl → Prop
  | 0, d, d' => d' = d
  | n + 1, d, d' => ∃ out e, Saves wrapv 0 0x20 d out ∧ Loads out e ∧ SavedLoaded wrapv n e d'

/-! ## Single numbers -/

theorem takeWhile_holds {c t : Bytes} (h : Holds c t) : c.takeWhile (· ≠ 0) = t := by
  obtain ⟨h1, r, rfl⟩ := h
  rw [List.takeWhile_append_of_pos]
  · simp
  · intro a ha
    simp only [ne_eq, decide_eq_true_eq]
    rintro rfl
    exact h1 ha

theorem fmt_prints {wrapv : Bool} {x : Dbl} {t : Bytes} (h : PrintsAs elem wrapv narrowBits x t) : builtinFmt wrapv x = t := by
  obtain ⟨c, h1, h2⟩ := h
  rw [builtinFmt, h1]
  exact takeWhile_holds h2

theorem prints_zero {wrapv : Bool} {x : Dbl} {v : Rat} (hx : value x = some v) (h : |v| ≤ 1 / 2 ^ 127) :
    PrintsAs elem wrapv narrowBits x [48, 46, 48] := by
  obtain ⟨hf, hr⟩ := narrow_real hx (h.trans (by norm_num))
  have h0 : narrowBits x / 2 ^ 23 % 256 = 0 := by
    by_contra h0
    have b := bits_normal hf h0
    have c : |(v : ℝ)| ≤ 1 / 2 ^ 127 := by
      have := (Rat.cast_le (K := ℝ)).2 h
      push_cast at this ⊢; exact this
    have a1 : |real (ofBits (narrowBits x))| ≤ |(v : ℝ)| + |real (ofBits (narrowBits x)) - v| := by
      have := abs_add_le (v : ℝ) (real (ofBits (narrowBits x)) - v)
      rwa [show (v : ℝ) + (real (ofBits (narrowBits x)) - v) = real (ofBits (narrowBits x)) by ring] at this
    unfold eps tiny at hr
    norm_num at hr b c
    linarith
  obtain ⟨c', p1, p2⟩ := C79_zero elem wrapv (List.replicate 16 0) rfl _ h0
  exact ⟨c', p1, p2⟩

theorem rfc_zero : RfcNum [48, 46, 48] ⟨false, 0, -1⟩ :=
  RfcNum.pos (i := [48]) (ft := [46, 48]) (et := []) .zero (.some (by decide) (by simp [Spec.Digit])) .none

/-- The float for a multiple of 1/16. -/
theorem sixteenth_bits {x : Dbl} {k : Int} (hx : value x = some ((k : Rat) / 16)) (hk0 : k ≠ 0) (hk : k.natAbs < 16 * 10 ^ 5) :
    FiniteFloat (narrowBits x) ∧ ofBits (narrowBits x) = narrow x ∧ units (narrowBits x) = k.natAbs * 2 ^ 145 ∧
      real (ofBits (narrowBits x)) = (((k : Rat) / 16 : Rat) : ℝ) ∧ 123 * 2 ^ 23 ≤ narrowBits x % 2 ^ 31 ∧
      narrowBits x % 2 ^ 31 < 0x47C35000 ∧ (k.natAbs < 16 * 512 → narrowBits x % 2 ^ 31 < 0x44000000) := by
  obtain ⟨f, v⟩ := narrow_sixteenth hx (by omega)
  have hv : |(k : Rat) / 16| ≤ 2 ^ 127 := by
    rw [abs_div, div_le_iff₀ (by norm_num)]
    have h1 : ((k.natAbs : Nat) : Rat) ≤ ((2 ^ 24 : Nat) : Rat) := Nat.cast_le.2 (by omega)
    rw [Nat.cast_natAbs] at h1
    push_cast at h1
    refine h1.trans ?_
    norm_num
  have hf := (narrow_real hx hv).1
  have hb := narrowBits_real f
  rw [← hb] at v
  have u := sixteenth_units hf v
  obtain ⟨r1, r2, r3⟩ := units_range hf u (by omega)
  exact ⟨hf, hb, u, sixteenth_real v, r1, r2 hk, r3⟩

theorem number_steady {wrapv : Bool} {x : Dbl} {v : Rat} (hx : value x = some v) (h : Steady wrapv v) :
    ∃ t d, PrintsAs elem wrapv narrowBits x t ∧ RfcNum t d ∧
      ∀ s y, SignedNum t s → LitValue B64.arith B64.negate s y → PrintsAs elem wrapv narrowBits y t := by
  have zero : |v| ≤ 1 / 2 ^ 127 → _ := fun h =>
    (⟨[48, 46, 48], _, prints_zero (wrapv := wrapv) hx h, rfc_zero, fun s y hs hy => prints_zero (read_zero hs hy) (by simp)⟩ :
    ∃ t d, PrintsAs elem wrapv narrowBits x t ∧ RfcNum t d ∧
      ∀ s y, SignedNum t s → LitValue B64.arith B64.negate s y → PrintsAs elem wrapv narrowBits y t)
  rcases h with h | ⟨k, rfl, hk⟩
  · exact zero h
  by_cases hk0 : k = 0
  · exact zero (by rw [hk0]; simp)
  have hk5 : k.natAbs < 16 * 10 ^ 5 := by omega
  obtain ⟨hf, hb, hu, hr, b1, b2, b3⟩ := sixteenth_bits hx hk0 hk5
  obtain ⟨c', t, d, p1, p2, p3, p4, p5, -, p7⟩ := C79_near_partial elem wrapv (narrowBits x) (List.replicate 16 0) hf.1 rfl (by omega) b2
    (by rcases hk with h | h
        · exact .inr (b3 h)
        · exact .inl h.1)
  have hd : decReal d = (((k : Rat) / 16 : Rat) : ℝ) := by
    rw [← hr]
    exact exact_real hf p4 p5 (p7 (by rw [hu]; exact Nat.dvd_mul_left _ _)).2
  have k1 : (1 : ℝ) ≤ |(k : ℝ)| := by
    rw [← Int.cast_abs]
    exact_mod_cast Int.one_le_abs hk0
  have k2 : |(k : ℝ)| ≤ 16 * 10 ^ 5 := by
    rw [← Int.cast_abs]
    have : |k| ≤ 16 * 10 ^ 5 := by rw [Int.abs_eq_natAbs]; omega
    exact_mod_cast this
  have kk : |(((k : Rat) / 16 : Rat) : ℝ)| = |(k : ℝ)| / 16 := by
    push_cast
    rw [abs_div, abs_of_pos (by norm_num : (0 : ℝ) < 16)]
  refine ⟨t, d, ⟨c', p1, p2⟩, p3, fun s y hs hy => ?_⟩
  obtain ⟨w, w1, w2⟩ := read_near p3 (printed_length (by rfl) p1 p2) (by rw [hd, kk]; norm_num; linarith)
    (by rw [hd, kk]; norm_num at k2 ⊢; linarith) hs hy
  rw [hd] at w2
  have := narrow_stable hx hk0 hk5.le w1 w2
  refine ⟨c', ?_, p2⟩
  rw [narrowBits, this]
  exact p1

/-! ## Writing documents whose numbers print alike -/

section Congr

variable {D : Type} {rel : D → D → Prop}

theorem relDoc_alike {v v' : Value D} (h : ParserB.SameDoc rel v v') : ParserB.Alike rel v v' := by
  rcases h [] with ⟨h, -⟩ | ⟨x, x', h1, h2, h3⟩
  · simp [walk] at h
  · simp only [walk, Option.some.injEq] at h1 h2
    subst h1 h2
    exact h3

theorem relDoc_step {v v' : Value D} (h : ParserB.SameDoc rel v v') (s : Spec.Step) :
    (Doc.step v s = none ∧ Doc.step v' s = none) ∨
      ∃ x x', Doc.step v s = some x ∧ Doc.step v' s = some x' ∧ ParserB.SameDoc rel x x' := by
  have hs := h [s]
  simp only [walk] at hs
  cases h1 : Doc.step v s with
  | none =>
    cases h2 : Doc.step v' s with
    | none => exact .inl ⟨rfl, rfl⟩
    | some x' => rw [h1, h2] at hs; simp [walk] at hs
  | some x =>
    cases h2 : Doc.step v' s with
    | none => rw [h1, h2] at hs; simp [walk] at hs
    | some x' =>
      refine .inr ⟨x, x', rfl, rfl, fun p => ?_⟩
      have := h (s :: p)
      simpa only [walk, h1, h2, Option.bind_some] using this

theorem relElems_congr {S : Value D → Value D → Prop} (w : Bytes → Value D → Out WRes) (h : ∀ ind x x', S x x' → w ind x = w ind x')
    (l l' : List (Value D)) (hl : l'.length = l.length)
    (hs : ∀ (i : Nat) x x', l[i]? = some x → l'[i]? = some x' → S x x') (ind : Bytes) :
    writeElems w l ind = writeElems w l' ind := by
  induction l generalizing l' ind with
  | nil => cases l' with
    | nil => rfl
    | cons _ _ => simp at hl
  | cons v l ih => cases l' with
    | nil => simp at hl
    | cons v' l' =>
      have hl' : l'.length = l.length := by simpa using hl
      have hi := fun ind => ih l' hl' (fun i x x' h1 h2 => hs (i + 1) x x' (by simpa using h1) (by simpa using h2)) ind
      have he : l.isEmpty = l'.isEmpty := by cases l <;> cases l' <;> simp_all
      simp only [writeElems, h ind v v' (hs 0 v v' rfl rfl), hi, he]

theorem relMembers_congr {S : Value D → Value D → Prop} (w : Bytes → Value D → Out WRes) (h : ∀ ind x x', S x x' → w ind x = w ind x')
    (t t' : Tree Bytes (Value D))
    (hs : ∀ k, (findMapElement nameLt k t = none ∧ findMapElement nameLt k t' = none) ∨
      ∃ x x', findMapElement nameLt k t = some (k, x) ∧ findMapElement nameLt k t' = some (k, x') ∧ S x x')
    (names : List Bytes) (ind : Bytes) : writeMembers w t names ind = writeMembers w t' names ind := by
  induction names generalizing ind with
  | nil => rfl
  | cons k names ih =>
    rcases hs k with ⟨h1, h2⟩ | ⟨x, x', h1, h2, h3⟩
    · simp only [writeMembers, h1, h2]
    · simp only [writeMembers, h1, h2, h ind x x' h3, ih]

/-- `Write` cannot tell documents apart whose numbers print alike. -/
theorem writeValue_rel (N : NumOps D) (il : Nat) (ic : Byte) (hr : ∀ x y, rel x y → N.fmt x = N.fmt y) (n : Nat) :
    ∀ (ind : Bytes) (v v' : Value D), ParserB.SameDoc rel v v' → writeValue N il ic n ind v = writeValue N il ic n ind v' := by
  induction n with
  | zero => intro ind v v' _; rfl
  | succ n ih =>
    intro ind v v' hs
    have ha := relDoc_alike hs
    cases v with
    | null => cases v' <;> first | rfl | exact ha.elim
    | bool b => cases v' <;> first | (rw [show _ = b from ha]) | exact ha.elim
    | num x => cases v' <;> first | exact ha.elim | (simp only [writeValue]; rw [hr _ _ ha])
    | str x => cases v' <;> first | (rw [show _ = x from ha]) | exact ha.elim
    | arr l =>
      cases v' with
      | arr l' =>
        simp only [writeValue]
        rw [relElems_congr (writeValue N il ic n) ih l l' ha]
        intro i x x' h1 h2
        rcases relDoc_step hs (.index i) with ⟨h3, -⟩ | ⟨y, y', h3, h4, h5⟩
        · simp [Doc.step, h1] at h3
        · simp only [Doc.step, h1, h2, Option.some.injEq] at h3 h4
          subst h3 h4
          exact h5
      | _ => exact ha.elim
    | obj t o =>
      cases v' with
      | obj t' o' =>
        have hoo : o' = o := ha.2
        simp only [writeValue, hoo]
        rw [relMembers_congr (writeValue N il ic n) ih t t']
        intro k
        rcases relDoc_step hs (.member k) with ⟨h1, h2⟩ | ⟨x, x', h1, h2, h3⟩
        · simp only [Doc.step, Option.map_eq_none_iff] at h1 h2
          exact .inl ⟨h1, h2⟩
        · simp only [Doc.step, Option.map_eq_some_iff] at h1 h2
          obtain ⟨⟨k1, y⟩, e1, rfl⟩ := h1
          obtain ⟨⟨k2, y'⟩, e2, rfl⟩ := h2
          have hk1 : k1 = k := find_key e1
          have hk2 : k2 = k := find_key e2
          subst hk1
          subst hk2
          exact .inr ⟨y, y', e1, e2, h3⟩
      | _ => exact ha.elim

end Congr

/-- **C149, the part that holds**: for documents with harmless strings whose numbers are steady. Missing: all other numbers; for many
it fails. -/
theorem C149_steady_partial (wrapv : Bool) (d : Value Dbl) (il : Nat) (ic : Byte) (hic : il = 0 ∨ Ws [ic]) (hs : HarmlessStrings d)
    (hn : NumbersAre (Steady wrapv) d) :
    ∃ out, Saves wrapv il ic d out ∧ (2 ≤ out.length → ∃ d', Loads out d' ∧ Saves wrapv il ic d' out) := by
  have key : ∀ path x, walk d path = some (.num x) → PrintsAs elem wrapv narrowBits x (builtinFmt wrapv x) ∧
      ∃ e, RfcNum (builtinFmt wrapv x) e ∧ ∀ s y, SignedNum (builtinFmt wrapv x) s → LitValue B64.arith B64.negate s y →
        PrintsAs elem wrapv narrowBits y (builtinFmt wrapv x) := by
    intro path x hx
    obtain ⟨v, h1, h2⟩ := hn path x hx
    obtain ⟨t, e, h3, h4, h5⟩ := number_steady h1 h2
    rw [fmt_prints h3]
    exact ⟨h3, e, h4, h5⟩
  obtain ⟨out, h1, h2⟩ := C145_builtin_round_trip_partial B64.arith B64.negate (builtinOps wrapv) d il ic hic
    (fun path x hx => let ⟨_, e, h, _⟩ := key path x hx; ⟨e, h⟩) hs
  refine ⟨out, ⟨fun path x hx => (key path x hx).1, h1⟩, fun hl => ?_⟩
  obtain ⟨d', h3, h4⟩ := h2 hl
  refine ⟨d', h3, ?_⟩
  have h5 : ParserB.SameDoc (fun x y => PrintsAs elem wrapv narrowBits y (builtinFmt wrapv x)) d d' := by
    refine sameDoc_mono h4 fun path a b ha h => ?_
    obtain ⟨s, h5, h6⟩ := h
    exact (key path a ha).2.choose_spec.2 s b h5 h6
  constructor
  · intro path y hy
    rcases h5 path with ⟨-, h⟩ | ⟨x, x', h6, h7, h8⟩
    · rw [h] at hy; cases hy
    · rw [h7] at hy
      cases hy
      cases x <;> simp only [ParserB.Alike] at h8
      rw [fmt_prints h8]
      exact h8
  · obtain ⟨n, r, g1, g2, g3⟩ := h1
    refine ⟨n, r, ?_, g2, g3⟩
    rw [← writeValue_rel (rel := fun x y => PrintsAs elem wrapv narrowBits y (builtinFmt wrapv x)) (builtinOps wrapv) il ic
      (fun x y h => (fmt_prints h).symm) n [] d d' h5]
    exact g1

/-! ## Whole numbers -/

theorem number_whole {wrapv : Bool} {x : Dbl} {n : Int} (hx : value x = some (n : Rat))
    (hn : n.natAbs < 512 ∨ wrapv = true ∧ n.natAbs < 10 ^ 5) :
    ∃ t d, PrintsAs elem wrapv narrowBits x t ∧ RfcNum t d ∧
      ∀ s y, SignedNum t s → LitValue B64.arith B64.negate s y → value y = some (n : Rat) := by
  by_cases h0 : n = 0
  · subst h0
    rw [Int.cast_zero] at hx ⊢
    exact ⟨_, _, prints_zero hx (by simp), rfc_zero, fun s y hs hy => read_zero hs hy⟩
  have hx' : value x = some (((16 * n : Int) : Rat) / 16) := by
    rw [hx]; push_cast; congr 1; field_simp
  have e16 : (16 * n).natAbs = 16 * n.natAbs := by rw [Int.natAbs_mul]; rfl
  obtain ⟨hf, hb, hu, hr, b1, b2, b3⟩ := sixteenth_bits hx' (by omega) (by omega)
  rw [e16] at hu
  have hw : wrapv = true ∨ narrowBits x % 2 ^ 31 < 0x44000000 := by
    rcases hn with h | h
    · exact .inr (b3 (by omega))
    · exact .inl h.1
  have hp : fixedSetFloat elem wrapv 15 (narrowBits x) (List.replicate 16 0) = _ := fixed_mid (by omega) b2
  have hneg : decide (2 ^ 31 ≤ narrowBits x) = decide (n < 0) := by
    rw [real_ofBits hf] at hr
    have hu0 : (0 : ℝ) < units (narrowBits x) := by
      rw [hu]
      have : 0 < 16 * n.natAbs * 2 ^ 145 := by have := Nat.two_pow_pos 145; have : 0 < n.natAbs := by omega
                                               positivity
      exact_mod_cast this
    have hq : (0 : ℝ) < units (narrowBits x) / 2 ^ 149 := by positivity
    have hn' : ((((16 * n : Int) : Rat) / 16 : Rat) : ℝ) = (n : ℝ) := by push_cast; field_simp
    rw [hn'] at hr
    by_cases hs : 2 ^ 31 ≤ narrowBits x
    · rw [decide_eq_true hs] at hr ⊢
      rw [if_pos rfl] at hr
      have : (n : ℝ) < 0 := by rw [← hr]; linarith
      rw [decide_eq_true (by exact_mod_cast this)]
    · rw [decide_eq_false hs] at hr ⊢
      rw [if_neg (by simp)] at hr
      have : (0 : ℝ) < n := by rw [← hr]; linarith
      have : 0 < n := by exact_mod_cast this
      rw [decide_eq_false (by omega)]
  rw [hneg] at hp
  generalize hnum : narrowBits x = num at *
  have hE : 127 ≤ num % 2 ^ 31 / 2 ^ 23 % 256 := by
    by_contra hE
    have hE' : num / 2 ^ 23 % 256 = num % 2 ^ 31 / 2 ^ 23 % 256 := by omega
    have j1 : 1 * (16 * 2 ^ 145) ≤ n.natAbs * (16 * 2 ^ 145) := Nat.mul_le_mul_right _ (by omega)
    rw [show n.natAbs * (16 * 2 ^ 145) = 16 * n.natAbs * 2 ^ 145 by ring, ← hu, units, if_neg (by omega), hE'] at j1
    have m1 : num % 2 ^ 23 < 2 ^ 23 := Nat.mod_lt _ (by decide)
    have hp : 2 ^ (num % 2 ^ 31 / 2 ^ 23 % 256 - 1) ≤ 2 ^ 125 := Nat.pow_le_pow_right (by decide) (by omega)
    have : (2 ^ 23 + num % 2 ^ 23) * 2 ^ (num % 2 ^ 31 / 2 ^ 23 % 256 - 1) < 2 ^ 24 * 2 ^ 125 :=
      Nat.lt_of_le_of_lt (Nat.mul_le_mul_left _ hp) (Nat.mul_lt_mul_of_pos_right (by omega) (Nat.two_pow_pos _))
    rw [← Nat.pow_add] at this
    omega
  have hsplit : whole (num % 2 ^ 31) = n.natAbs ∧ rest (num % 2 ^ 31) = 0 := by
    obtain ⟨-, -, u3⟩ := units_split (num % 2 ^ 31) (by omega) (by omega)
    have u3 := u3 hE
    rw [units_mod, hu, show 16 * n.natAbs * 2 ^ 145 = n.natAbs * 2 ^ 23 * 2 ^ 126 by
      rw [Nat.mul_assoc n.natAbs, show 2 ^ 23 * 2 ^ 126 = 16 * 2 ^ 145 by decide, ← Nat.mul_assoc, Nat.mul_comm 16]] at u3
    have u4 := Nat.eq_of_mul_eq_mul_right (Nat.two_pow_pos 126) u3
    have := rest_lt (num % 2 ^ 31)
    omega
  obtain ⟨T, r', k, w, e1, -, -, e4, -, e6, u, e7, e8⟩ := digits_spec wrapv (decide (n < 0)) (num % 2 ^ 31) 0 15 (List.replicate 16 0)
    (shifts_mid (by omega) b2 hw) (by decide) (by decide) (by decide) (by decide)
  obtain rfl : u = [] := by
    cases e7 with
    | none => rfl
    | some h => exact absurd rfl h
  rw [hsplit.1] at e6
  have hwl := natText_length e6 (k := 5) (by omega) (by decide)
  have hsl : (sign (decide (n < 0))).length ≤ 1 := by cases decide (n < 0) <;> simp [sign]
  obtain ⟨⟨ts, t1, rfl⟩, -⟩ := e8 (by simp; omega)
  rw [hsplit.2] at t1
  obtain rfl : ts = [48] := by
    have hfd : fracDigits 7 0 0 0 = [48] := by decide
    rw [hfd] at t1
    obtain ⟨a, b, j, c, d⟩ := t1
    match ts, a, c with
    | [z], _, c =>
      have hj : j = 0 := by simpa using c
      subst hj
      have hz := b z (by simp)
      rcases d with d | ⟨-, d, -⟩
      · unfold Digit at hz
        simp only [decimal] at d
        have : z.toNat = 48 := by simp at d; omega
        rw [show z = 48 from UInt8.toNat_inj.mp this]
      · simp at d
    | _ :: _ :: _, _, c => simp at c; omega
  obtain ⟨w1, w2, -, w3⟩ := natText_digits e6
  have hrd := read_point_zero w3 (by rw [w2]; omega)
  rw [w2] at hrd
  refine ⟨_, _, ⟨_, by rw [hnum, hp, e1]; rfl, e4, r', rfl⟩, printed_rfc e6 (by simp) (by simp [Digit]) e7, fun s y hs hy => ?_⟩
  obtain ⟨z, z1, z2⟩ := hy
  have hnat : value (B64.ofNat n.natAbs) = some (n.natAbs : Rat) := value_ofNat (by omega)
  have habs : ((n.natAbs : Nat) : Rat) = |(n : Rat)| := by rw [Nat.cast_natAbs, Int.cast_abs]
  by_cases hlt : n < 0
  · rw [decide_eq_true hlt] at hs
    obtain rfl := signed_neg (ft := [46, 48]) (et := []) w3 hs
    rw [show w ++ ([46, 48] ++ []) = w ++ [46, 48] by simp] at z1
    dsimp only at z1
    rw [hrd] at z1
    injection z1 with z1
    injection z1 with z1
    injection z1 with z1
    subst z1
    rw [z2, if_pos rfl, value_negate hnat, habs, abs_of_neg (by exact_mod_cast hlt), neg_neg]
  · rw [decide_eq_false hlt] at hs
    obtain rfl := signed_pos (ft := [46, 48]) (et := []) w3 hs
    rw [show w ++ ([46, 48] ++ []) = w ++ [46, 48] by simp] at z1
    dsimp only at z1
    rw [hrd] at z1
    injection z1 with z1
    injection z1 with z1
    injection z1 with z1
    subst z1
    rw [z2, if_neg (by simp), hnat, habs, abs_of_nonneg (by exact_mod_cast Int.not_lt.1 hlt)]

/-- **C150, the part that holds**: whole numbers below 512, and below 1e5 where the overflowing shift is defined. Missing: larger ones,
for which it fails. -/
theorem C150_whole_partial (wrapv : Bool) (d : Value Dbl) (hs : HarmlessStrings d)
    (hn : NumbersAre (fun v => ∃ n : Int, v = n ∧ (n.natAbs < 512 ∨ wrapv = true ∧ n.natAbs < 10 ^ 5)) d) :
    NumbersComeBack wrapv (Within 0) d := by
  refine ⟨fun path x hx => ?_, fun N il ic hic hp => ?_⟩
  · obtain ⟨v, h1, n, rfl, h2⟩ := hn path x hx
    obtain ⟨t, -, h3, -⟩ := number_whole h1 h2
    exact ⟨t, h3⟩
  · have key : ∀ path x, walk d path = some (.num x) → ∃ e, RfcNum (N.fmt x) e ∧
        ∀ s y, SignedNum (N.fmt x) s → LitValue B64.arith B64.negate s y → Within 0 x y := by
      intro path x hx
      obtain ⟨v, h1, n, rfl, h2⟩ := hn path x hx
      obtain ⟨t, e, h3, h4, h5⟩ := number_whole h1 h2
      obtain rfl := prints_det h3 (hp path x hx)
      exact ⟨e, h4, fun s y hs hy => ⟨_, _, h1, h5 s y hs hy, by simp⟩⟩
    obtain ⟨out, h1, h2⟩ := C145_builtin_round_trip_partial B64.arith B64.negate N d il ic hic
      (fun path x hx => let ⟨e, h, _⟩ := key path x hx; ⟨e, h⟩) hs
    refine ⟨out, h1, fun hl => ?_⟩
    obtain ⟨d', h3, h4⟩ := h2 hl
    refine ⟨d', h3, sameDoc_mono h4 fun path a b ha h => ?_⟩
    obtain ⟨s, h5, h6⟩ := h
    obtain ⟨-, -, h7⟩ := key path a ha
    exact h7 s b h5 h6

/-! ## Violations -/

/-- What becomes of a number from 100001 to `2^127`, if its text has no minus sign. -/
def tripFn (wrapv : Bool) (x : Dbl) : Option Dbl :=
  match x with
  | .fin false m q =>
    if 100001 * 2 ^ 1074 ≤ m * 2 ^ q ∧ m * 2 ^ q ≤ 2 ^ 127 * 2 ^ 1074 ∧ (builtinFmt wrapv x).head? ≠ some 0x2D ∧
        2 ≤ (builtinFmt wrapv x).length then
      match Builtin.readDouble B64.arith (builtinFmt wrapv x ++ [0]) with
      | .ok (.inr (y, _)) => some y
      | _ => none
    else none
  | _ => none

def tripsFn (wrapv : Bool) : Nat → Dbl → Option Dbl
  | 0, x => some x
  | n + 1, x => (tripFn wrapv x).bind (tripsFn wrapv n)

theorem emits_num {N : NumOps Dbl} {x : Dbl} : Emits N 0 0x20 (.num x) (cText (N.fmt x)) :=
  ⟨1, _, rfl, rfl, by simp⟩

theorem frac_nonneg (m q : Nat) : (0 : Rat) ≤ m * 2 ^ q / 2 ^ 1074 := by positivity

theorem trip_sound {wrapv : Bool} {x y : Dbl} (h : tripFn wrapv x = some y) :
    Saves wrapv 0 0x20 (.num x) (builtinFmt wrapv x) ∧ Loads (builtinFmt wrapv x) (.num y) := by
  unfold tripFn at h
  split at h
  · rename_i m q
    split at h
    · rename_i hb
      obtain ⟨b1, b2, b3, b4⟩ := hb
      have hx := value_fin false m q
      rw [if_neg (by simp), one_mul] at hx
      have hv0 := frac_nonneg m q
      have v1 : (100001 : Rat) ≤ m * 2 ^ q / 2 ^ 1074 := by
        rw [le_div_iff₀ (pow_pos (by norm_num) _)]
        have := (Nat.cast_le (α := Rat)).2 b1
        rwa [Nat.cast_mul, Nat.cast_mul, Nat.cast_pow, Nat.cast_pow, Nat.cast_ofNat, show ((2 : Nat) : Rat) = 2 from Nat.cast_ofNat] at this
      have v2 : (m : Rat) * 2 ^ q / 2 ^ 1074 ≤ 2 ^ 127 := by
        rw [div_le_iff₀ (pow_pos (by norm_num) _)]
        have := (Nat.cast_le (α := Rat)).2 b2
        rwa [Nat.cast_mul, Nat.cast_mul, Nat.cast_pow, Nat.cast_pow, Nat.cast_pow, Nat.cast_ofNat] at this
      obtain ⟨t, d, h1, h2, -⟩ := number_trip (wrapv := wrapv) hx (.inr (by
        rw [abs_of_nonneg hv0]
        refine ⟨le_trans (by norm_num) v1, v2, .inr (.inr v1)⟩))
      obtain rfl := fmt_prints h1
      obtain ⟨out, h3, h4⟩ := C145_builtin_round_trip_partial B64.arith B64.negate (builtinOps wrapv) (.num (.fin false m q)) 0 0x20 (.inl rfl)
        (fun path z hz => by obtain rfl := walk_num hz; exact ⟨d, h2⟩) (harmless_num _)
      have hc : cText ((builtinOps wrapv).fmt (.fin false m q)) = builtinFmt wrapv (.fin false m q) :=
        Write.cText_nul_free (rfcNum_nul_free h2)
      have h5 : Emits (builtinOps wrapv) 0 0x20 (.num (.fin false m q)) (builtinFmt wrapv (.fin false m q)) := by
        have := emits_num (N := builtinOps wrapv) (x := .fin false m q)
        rwa [hc] at this
      obtain rfl := emits_det h3 h5
      refine ⟨⟨fun path z hz => by obtain rfl := walk_num hz; exact h1, h5⟩, ?_⟩
      obtain ⟨d', h6, h7⟩ := h4 b4
      have ha := relDoc_alike h7
      cases d' <;> simp only [ParserB.Alike] at ha
      obtain ⟨s, s1, v, s2, s3⟩ := ha
      have hs : s = ⟨false, builtinFmt wrapv (.fin false m q)⟩ := by
        change SignedNum (builtinFmt wrapv (.fin false m q)) s at s1
        clear h h1 h3 h4 h5 h6 h7 hc s2 s3
        generalize builtinFmt wrapv (.fin false m q) = T at *
        cases h2 with
        | pos hi hf he => exact signed_pos hi s1
        | neg hi hf he => simp at b3
      subst hs
      dsimp only at s2 s3
      rw [s2] at h
      simp only [Option.some.injEq] at h
      subst h
      rw [if_neg (by simp)] at s3
      subst s3
      exact h6
    · cases h
  · cases h

theorem trips_sound {wrapv : Bool} : ∀ (n : Nat) {x y : Dbl}, tripsFn wrapv n x = some y → SavedLoaded wrapv n (.num x) (.num y) := by
  intro n
  induction n with
  | zero => intro x y h; cases h; rfl
  | succ n ih =>
    intro x y h
    rw [tripsFn, Option.bind_eq_some_iff] at h
    obtain ⟨z, h1, h2⟩ := h
    obtain ⟨h3, h4⟩ := trip_sound h1
    exact ⟨_, _, h3, h4, ih h2⟩

/-- 104299.3359375, a float. -/
def drifter : Dbl := .fin false (13350315 * 2 ^ 29) 1038

theorem value_1038 (m : Nat) : value (.fin false m 1038) = some (m / 2 ^ 36 : Rat) := by
  rw [value_fin, if_neg (by simp), one_mul]
  have : (2 : Rat) ^ 1074 = 2 ^ 36 * 2 ^ 1038 := by rw [← pow_add]
  rw [this, mul_div_mul_right _ _ (by positivity)]

theorem trips_append {wrapv : Bool} : ∀ (a b : Nat) {x y z : Dbl}, tripsFn wrapv a x = some y → tripsFn wrapv b y = some z →
    tripsFn wrapv (a + b) x = some z := by
  intro a
  induction a with
  | zero => intro b x y z h1 h2; cases h1; rw [Nat.zero_add]; exact h2
  | succ a ih =>
    intro b x y z h1 h2
    rw [tripsFn, Option.bind_eq_some_iff] at h1
    obtain ⟨u, h3, h4⟩ := h1
    rw [Nat.add_right_comm, tripsFn, h3]
    exact ih b h4 h2

theorem drift_ten : ∀ wrapv, tripsFn wrapv 10 drifter = some (.fin false 7167348652271207 1038)
  | false => by decide +kernel
  | true => by decide +kernel

theorem drift_twenty : ∀ wrapv, tripsFn wrapv 10 (.fin false 7167348652271207 1038) = some (.fin false 7167299174247955 1038)
  | false => by decide +kernel
  | true => by decide +kernel

/-- **C149 fails, and the errors add up**: 104299.3359375 is smaller by 1.4 after it has been saved and loaded twenty times. -/
theorem C149_drift_violated (wrapv : Bool) : ∃ y v w, SavedLoaded wrapv 20 (.num drifter) (.num y) ∧ value drifter = some v ∧
    value y = some w ∧ v = 13350315 / 2 ^ 7 ∧ w < v - 14 / 10 := by
  refine ⟨_, _, _, trips_sound 20 (trips_append 10 10 (drift_ten wrapv) (drift_twenty wrapv)), value_1038 _, value_1038 _, ?_, ?_⟩
  · norm_num
  · norm_num

/-- **C149 fails**: the texts differ already when the number is saved for the second time. -/
theorem C149_violated (wrapv : Bool) : ¬ C149_statement wrapv := by
  intro H
  have h : tripFn wrapv drifter = some (.fin false 7167391258346782 1038) := by cases wrapv <;> decide +kernel
  obtain ⟨h1, h2⟩ := trip_sound h
  obtain ⟨d', h3, -, h4⟩ := H (.num drifter) 0 0x20 _ (.inl rfl) (harmless_num _) (by
    intro path x hx
    obtain rfl := walk_num hx
    refine ⟨_, value_1038 _, .inr ⟨?_, ?_, .inr (.inr ?_)⟩⟩ <;> norm_num) h1 (by cases wrapv <;> decide +kernel)
  have e := (h2 _ (Nat.le_refl _)).symm.trans (h3 _ (Nat.le_refl _))
  injection e with e
  obtain rfl : Value.num (Dbl.fin false 7167391258346782 1038) = d' := by simpa using e
  have := emits_det h4 emits_num
  revert this
  cases wrapv <;> decide +kernel

/-- A million. -/
def million : Dbl := .fin false (1000000 * 2 ^ 33) 1041

theorem value_1041 (m : Nat) : value (.fin false m 1041) = some (m / 2 ^ 33 : Rat) := by
  rw [value_fin, if_neg (by simp), one_mul]
  have : (2 : Rat) ^ 1074 = 2 ^ 33 * 2 ^ 1041 := by rw [← pow_add]
  rw [this, mul_div_mul_right _ _ (by positivity)]

/-- **C150 fails**: a million is written as `0.99999e6` and comes back as 999990 (up to a rounding error). -/
theorem C150_violated (wrapv : Bool) : ¬ C150_statement wrapv := by
  intro H
  have hm : value million = some 1000000 := by rw [million, value_1041]; congr 1; norm_num
  have h : tripFn wrapv million = some (.fin false 8589848692654080 1041) := by cases wrapv <;> decide +kernel
  obtain ⟨h1, h2⟩ := trip_sound h
  obtain ⟨-, H⟩ := H (.num million) (harmless_num _) (by
    intro path x hx
    obtain rfl := walk_num hx
    exact ⟨_, hm, 1000000, by norm_num, by decide⟩)
  obtain ⟨out, h3, h4⟩ := H (builtinOps wrapv) 0 0x20 (.inl rfl) h1.1
  obtain rfl := emits_det h1.2 h3
  obtain ⟨d', h5, h6⟩ := h4 (by cases wrapv <;> decide +kernel)
  have e := (h2 _ (Nat.le_refl _)).symm.trans (h5 _ (Nat.le_refl _))
  injection e with e
  obtain rfl : Value.num (Dbl.fin false 8589848692654080 1041) = d' := by simpa using e
  obtain ⟨v, w, a1, a2, a3⟩ : Within 0 million _ := relDoc_alike h6
  rw [hm] at a1
  rw [value_1041] at a2
  obtain rfl := Option.some.inj a1
  obtain rfl := Option.some.inj a2
  norm_num at a3

/-- The texts of a million and of 100000. -/
example : builtinFmt false million = "0.99999e6".toUTF8.data.toList ∧
    builtinFmt false (.fin false (100000 * 2 ^ 36) 1038) = "0.99999e5".toUTF8.data.toList := by decide +kernel

/-- The first texts of the drifting number, and the one after twenty times (see `drift_twenty`). -/
example : builtinFmt false drifter = "1.0429927e5".toUTF8.data.toList ∧
    (tripsFn false 1 drifter).map (builtinFmt false) = some "1.0429921e5".toUTF8.data.toList ∧
    (tripsFn false 2 drifter).map (builtinFmt false) = some "1.0429913e5".toUTF8.data.toList := by decide +kernel

example : builtinFmt false (.fin false 7167299174247955 1038) = "1.0429786e5".toUTF8.data.toList := by decide +kernel

/-- `tripExample` (`[1.5, -250, "a"]`) is saved, loaded, and saved again as the same text. -/
example (wrapv : Bool) : ∃ out, Saves wrapv 0 0x20 tripExample out ∧ (2 ≤ out.length → ∃ d', Loads out d' ∧ Saves wrapv 0 0x20 d' out) := by
  obtain ⟨h1, h2, h3⟩ := tripExample_facts
  refine C149_steady_partial wrapv tripExample 0 0x20 (.inl rfl) h1 fun path x hx => ?_
  rcases h2 path x hx with rfl | rfl
  · exact ⟨_, h3.1, .inr ⟨24, by norm_num, .inl (by decide)⟩⟩
  · exact ⟨_, h3.2, .inr ⟨-4000, by norm_num, .inl (by decide)⟩⟩

/-- -250 comes back exactly. -/
example (wrapv : Bool) : NumbersComeBack wrapv (Within 0) (.num (.fin true (125 * 2 ^ 46) 1029)) :=
  C150_whole_partial wrapv _ (harmless_num _) fun path x hx => by
    obtain rfl := walk_num hx
    exact ⟨_, tripExample_facts.2.2.2, -250, by norm_num, .inl (by decide)⟩

end Verif.Props
