import Verif.Spec.Size
import Verif.Lemmas.ParserCost
import Verif.Props.Write
import Verif.Props.Faults

/-!
# Properties of the cost of parsing and writing: C138, C139
-/

namespace Verif.Props

open Verif Verif.Text Verif.Number Verif.Map Verif.Spec Verif.Parser Verif.Doc Verif.Write Verif.File

variable {D : Type}

/-! ## C138 -/

/-- **C138.** For every buffer `Parse` does what it does (C01 to C05, C137) in a number of steps that is at most the length of the buffer times
its logarithm, up to constants: whatever the nesting, the names and the mistakes. -/
theorem C138_parse_steps (N : NumOps D) (hN : NegLaw N) (root : Option (Value D)) (buf : Bytes) :
    ∃ r n, (ParserCost.parseBuffer N root buf).run = .ok (r, n) ∧ parseBuffer N root buf = .ok r ∧
      n ≤ (4 * Nat.log2 (buf.length + 1) + 66) * buf.length + 5 := by
  obtain ⟨res, root', h⟩ := C02_parse_returns N hN root buf
  have := ParserCost.parseBuffer_steps N root buf
  rw [h] at this
  obtain ⟨n, h1, h2⟩ := this
  exact ⟨_, n, h1, h, h2⟩

/-- The functions with steps have the results of the functions without. -/
theorem C138_same (N : NumOps D) (root : Option (Value D)) (buf : Bytes) :
    (ParserCost.parseBuffer N root buf).erase = parseBuffer N root buf :=
  (ParserCost.parseBuffer_steps N root buf).erase

/-- After an insertion the tree is climbed past every balanced node and to the first one that was not balanced. -/
theorem C138_climb {α : Type} (p : Path Bytes α) (hb : ∀ f ∈ p, f.balance = -1 ∨ f.balance = 0 ∨ f.balance = 1) (d : Dir)
    (t : Tree Bytes α) :
    ParserCost.climbSteps d p t = min p.length ((p.takeWhile fun f => f.balance = 0).length + 1) := by
  induction p generalizing d t with
  | nil => simp [ParserCost.climbSteps]
  | cons f p ih =>
    obtain ⟨fd, fb, fk, fv, fs⟩ := f
    have h1 := hb _ (List.mem_cons_self ..)
    have ih' := fun d t => ih (fun f hf => hb f (List.mem_cons_of_mem _ hf)) d t
    simp only at h1
    rcases h1 with rfl | rfl | rfl <;> cases fd <;> simp [ParserCost.climbSteps, ih']

/-- Two balanced ancestors, one that leans to the right, one that is not reached. -/
example : ParserCost.climbSteps .L [⟨.L, 0, [0x64], (), .nil⟩, ⟨.R, 0, [0x62], (), .nil⟩, ⟨.L, 1, [0x66], (), .nil⟩, ⟨.R, 0, [0x61], (), .nil⟩]
    (.node (-1) (.node 0 .nil [0x63] () .nil) [0x64] () .nil) = 3 := by decide

/-- `{"b":1,"a":[2]}`: 126 steps. -/
example : ((ParserCost.parseBuffer decOps none
      [0x7B, 0x22, 0x62, 0x22, 0x3A, 0x31, 0x2C, 0x22, 0x61, 0x22, 0x3A, 0x5B, 0x32, 0x5D, 0x7D, 0]).run >>= fun r => .ok (r.1.1.status, r.2)) =
    .ok (.kOk, 126) := rfl

/-- A megabyte takes less than 160 steps for each byte. -/
example (N : NumOps D) (hN : NegLaw N) (buf : Bytes) (h : buf.length = 2 ^ 20) :
    ∃ r n, (ParserCost.parseBuffer N none buf).run = .ok (r, n) ∧ n ≤ 160 * buf.length := by
  obtain ⟨r, n, h1, -, h2⟩ := C138_parse_steps N hN none buf
  rw [h] at h2 ⊢
  have : Nat.log2 (2 ^ 20 + 1) = 20 := by decide
  rw [this] at h2
  exact ⟨r, n, h1, by omega⟩

/-! ## C139 -/

/-- What is written after parsing is bounded by a polynomial in the length of the text (without indentation, with numbers printed in one byte). -/
def C139_statement : Prop :=
  ∃ K k, ∀ (D : Type) (N : NumOps D) (buf : Bytes) (v : Value D) (out : Bytes), NegLaw N → (∀ x, (N.fmt x).length ≤ 1 ∧ (0 : Byte) ∉ N.fmt x) →
    Accepts N buf v → Emits N 0 0x20 v out → out.length ≤ K * buf.length ^ k

/-- `{"a":{"a":...null...,"a":null},"a":null}` -/
def bombText : Nat → Bytes
  | 0 => [0x6E, 0x75, 0x6C, 0x6C]
  | n + 1 => 0x7B :: 0x22 :: 0x61 :: 0x22 :: 0x3A :: (bombText n ++
      [0x2C, 0x22, 0x61, 0x22, 0x3A, 0x6E, 0x75, 0x6C, 0x6C, 0x7D])

/-- Its value. -/
def bombValue : Nat → J
  | 0 => .null
  | n + 1 => .obj (.cons [0x61] (bombValue n) (.cons [0x61] .null .nil))

theorem bomb_length (n : Nat) : (bombText n).length = 15 * n + 4 := by
  induction n with
  | zero => rfl
  | succ n ih => simp only [bombText, List.length_cons, List.length_append, ih, List.length_nil]; omega

theorem bomb_val (n : Nat) : DVal (bombText n) (bombValue n) := by
  have ha : DialStr [0x22, 0x61, 0x22] [0x61] :=
    ⟨[.lit 0x61], by intro i hi; simp only [List.mem_singleton] at hi; subst hi; exact ⟨by decide, by decide, by decide, by decide, by decide⟩,
      rfl, rfl⟩
  induction n with
  | zero => exact .null
  | succ n ih =>
    have h1 : DMembers [0x22, 0x61, 0x22, 0x3A, 0x6E, 0x75, 0x6C, 0x6C] (.cons [0x61] .null .nil) :=
      .one (w1 := []) (w2 := []) (w3 := []) (w4 := []) Ws.nil ha Ws.nil Ws.nil .null Ws.nil
    have h2 := Members.cons (w1 := []) (w2 := []) (w3 := []) (w4 := []) Ws.nil ha Ws.nil Ws.nil ih Ws.nil h1
    have h3 := Val.obj h2
    have e : bombText (n + 1) = 0x7B :: (([] ++ ([0x22, 0x61, 0x22] ++ ([] ++ 0x3A :: ([] ++ (bombText n ++ ([] ++ 0x2C ::
        [0x22, 0x61, 0x22, 0x3A, 0x6E, 0x75, 0x6C, 0x6C])))))) ++ [0x7D]) := by
      simp [bombText]
    rw [e]
    exact h3

theorem bomb_large (num : Dec → Bytes) (n : Nat) : 2 ^ n ≤ ((bombValue n).layout num [] []).length := by
  induction n with
  | zero => simp [bombValue, J.layout]
  | succ n ih =>
    simp only [bombValue, J.layout, JM.layouts, List.map, firstRow, if_true, rows, List.length_cons, List.length_append, List.nil_append,
      List.append_assoc, List.length_nil, List.cons_append]
    rw [Nat.pow_succ]
    omega

/-- Writing the value of a text emits its layout. -/
theorem emits_layout (N : NumOps D) (hfmt : ∀ x, (0 : Byte) ∉ N.fmt x) {t : Bytes} {j : J} (hv : DVal t j) (il : Nat) (ic : Byte) :
    Emits N il ic (interp N j) (j.layout (fun d => N.fmt (N.conv d.neg d.mantissa d.exponent)) (List.replicate il ic) []) := by
  have hs : ∀ s ∈ j.strs, (0 : Byte) ∉ s := by
    intro s hs
    obtain ⟨tok, items, hi, -, rfl⟩ := val_strs hv s hs
    simp only [utf8s, plainCodes, List.map_map, List.mem_flatten, List.mem_map, not_exists, not_and]
    rintro l ⟨i, hx, rfl⟩
    obtain ⟨c, e, h1, h2⟩ := (hi i hx).code
    simp only [Function.comp_apply, e, Option.getD_some]
    exact utf8_nul_free _ h1 h2
  obtain ⟨chunks, h1, h2⟩ := writeValue_lays N il ic _ j (Nat.le_refl _) hs []
  have hr : reprint N = fun d => N.fmt (N.conv d.neg d.mantissa d.exponent) := by
    funext d; exact cText_nul_free (hfmt _)
  rw [hr] at h2
  exact ⟨_, _, h1, rfl, h2.symm⟩

/-- Repeated names make the written document exponentially large: every level of 15 bytes doubles it. -/
theorem C139_explosion (N : NumOps D) (hN : NegLaw N) (hfmt : ∀ x, (0 : Byte) ∉ N.fmt x) (n : Nat) :
    ∃ buf v out, buf.length = 15 * n + 5 ∧ Accepts N buf v ∧ Emits N 0 0x20 v out ∧ 2 ^ n ≤ out.length := by
  have hd : DialText (bombText n) (bombValue n) := ⟨[], bombText n, [], Ws.nil, bomb_val n, Ws.nil, by simp⟩
  have hacc := accepts_of_dial N hN hd (by rw [bomb_length]; omega)
  refine ⟨_, _, _, ?_, hacc, emits_layout N hfmt (bomb_val n) 0 0x20, bomb_large _ n⟩
  rw [List.length_append, bomb_length]; rfl

theorem exp_beats (K k : Nat) : ∃ n, K * (15 * n + 5) ^ k < 2 ^ n := by
  let j := K + 7 * k
  have hj : j + 1 ≤ 2 ^ j := Nat.lt_two_pow_self
  have h1 : (j + 1) * (j + 1) ≤ 2 ^ (2 * j) := by
    rw [Nat.two_mul, Nat.pow_add]; exact Nat.mul_le_mul hj hj
  have h2 : K + (2 * j + 5) * k ≤ (j + 1) * (j + 1) := by
    have e : (j + 1) * (j + 1) = (j + 1) * (K + 7 * k + 1) := rfl
    have e2 : (j + 1) * (K + 7 * k + 1) = (j + 1) * K + 7 * (j * k) + 7 * k + (j + 1) := by
      rw [Nat.mul_add, Nat.mul_add, Nat.mul_one, Nat.add_mul j 1 (7 * k), Nat.one_mul, Nat.mul_left_comm]; omega
    have e3 : (2 * j + 5) * k = 2 * (j * k) + 5 * k := by rw [Nat.add_mul, Nat.mul_assoc]
    have e4 : K ≤ (j + 1) * K := Nat.le_mul_of_pos_left K (by omega)
    omega
  refine ⟨2 ^ (2 * j), ?_⟩
  have hp : 1 ≤ 2 ^ (2 * j) := Nat.pos_of_ne_zero (by simp)
  have h3 : 15 * 2 ^ (2 * j) + 5 ≤ 2 ^ (2 * j + 5) := by
    rw [Nat.pow_add]; omega
  calc K * (15 * 2 ^ (2 * j) + 5) ^ k ≤ K * (2 ^ (2 * j + 5)) ^ k := Nat.mul_le_mul_left _ (Nat.pow_le_pow_left h3 k)
    _ < 2 ^ K * (2 ^ (2 * j + 5)) ^ k := Nat.mul_lt_mul_of_pos_right Nat.lt_two_pow_self (Nat.pos_of_ne_zero (by simp))
    _ = 2 ^ (K + (2 * j + 5) * k) := by rw [← Nat.pow_mul, ← Nat.pow_add]
    _ ≤ 2 ^ (2 ^ (2 * j)) := Nat.pow_le_pow_right (by decide) (Nat.le_trans h2 h1)

theorem C139_violated : ¬ C139_statement := by
  rintro ⟨K, k, h⟩
  obtain ⟨n, hn⟩ := exp_beats K k
  obtain ⟨buf, v, out, hl, hacc, hem, hout⟩ := C139_explosion decOps decOps_neg (fun _ => by simp [decOps]) n
  have := h _ decOps buf v out decOps_neg (fun _ => ⟨by simp [decOps], by simp [decOps]⟩) hacc hem
  rw [hl] at this
  omega

/-- The bytes of rows. -/
def rowsBound (I : Nat) (l : List Bytes) : Nat := (l.map fun r => r.length + I + 2).sum

theorem rows_length {ind : Bytes} {I : Nat} (h : ind.length ≤ I) (l : List Bytes) : (rows ind l).length ≤ rowsBound I l := by
  unfold rowsBound
  induction l with
  | nil => simp [rows]
  | cons r l ih =>
    cases l with
    | nil => simp [rows]; omega
    | cons r' l =>
      rw [rows]
      · simp only [List.length_append, List.length_cons, List.map_cons, List.sum_cons] at *
        omega
      · simp

theorem firstRow_own {es : List (Bytes × Bytes)} (h : (es.map Prod.fst).Nodup) {e : Bytes × Bytes} (he : e ∈ es) : firstRow e.1 es = e.2 := by
  induction es with
  | nil => cases he
  | cons a es ih =>
    obtain ⟨k, r⟩ := a
    rw [List.map_cons, List.nodup_cons] at h
    rw [firstRow]
    rcases List.mem_cons.1 he with rfl | he
    · rw [if_pos rfl]
    · have : k ≠ e.1 := fun hk => h.1 (List.mem_map.2 ⟨e, he, hk.symm⟩)
      rw [if_neg this]
      exact ih h.2 he

theorem layouts_names (num : Dec → Bytes) (unit ind : Bytes) (m : JM) : (m.layouts num unit ind).map Prod.fst = m.names := by
  match m with
  | .nil => rfl
  | .cons k j m => simp only [JM.layouts, JM.names, List.map_cons, layouts_names num unit ind m]

theorem str_shorter {tok s : Bytes} (h : DialStr tok s) : s.length + 2 ≤ tok.length := by
  have := ParserCost.parseString_meets (tok ++ [0])
  rw [parseString_complete tok s [0] h (by simp [Term])] at this
  obtain ⟨n, -, h1, -⟩ := this
  simp only [List.length_append, List.length_singleton] at h1
  omega

theorem sum_more (I : Nat) (es : List (Bytes × Bytes)) :
    (es.map fun e => e.1.length + e.2.length + I + 7).sum ≤ (es.map fun e => e.1.length + e.2.length + I + 8).sum := by
  induction es with
  | nil => simp
  | cons e es ih => simp only [List.map_cons, List.sum_cons]; omega

theorem val_small {B I F il : Nat} (num : Dec → Bytes) (unit : Bytes) (hu : unit.length = il) (hF : ∀ d, (num d).length ≤ F) (hB : F + 2 * I + 20 ≤ B)
    {t : Bytes} {j : J} (h : DVal t j) (hd : j.Distinct) (ind : Bytes) (hI : ind.length + il * t.length ≤ I) :
    (j.layout num unit ind).length ≤ B * t.length := by
  revert hd ind
  have mono : ∀ {a b c : Nat}, c + il * b ≤ I → a ≤ b → c + il * a ≤ I := fun h1 h2 => by
    have := Nat.mul_le_mul_left il h2
    omega
  have up : ∀ a b : Nat, a ≤ b → B * a + B * (b - a) = B * b := fun a b h => by rw [← Nat.mul_add]; congr 1; omega
  refine Val.rec (motive_1 := fun t j _ => j.Distinct → ∀ ind : Bytes, ind.length + il * t.length ≤ I → (j.layout num unit ind).length ≤ B * t.length)
    (motive_2 := fun t l _ => l.Distinct → ∀ ind : Bytes, ind.length + il * t.length ≤ I → rowsBound I (l.layouts num unit ind) ≤ B * t.length + I + 2)
    (motive_3 := fun t m _ => m.Distinct → ∀ ind : Bytes, ind.length + il * t.length ≤ I →
      ((m.layouts num unit ind).map fun e => e.1.length + e.2.length + I + 8).sum ≤ B * t.length + I + 8)
    ?_ ?_ ?_ ?_ ?_ ?_ ?_ ?_ ?_ ?_ ?_ ?_ ?_ h
  · intro _ ind hI
    simp only [J.layout, List.length_cons, List.length_nil]; omega
  · intro _ ind hI
    simp only [J.layout, List.length_cons, List.length_nil]; omega
  · intro _ ind hI
    simp only [J.layout, List.length_cons, List.length_nil]; omega
  · intro t d hn _ ind hI
    have h1 := hF d
    have ht : 1 ≤ t.length := by
      obtain ⟨c, s, rfl, -⟩ := dialNum_head hn
      simp
    have := up 1 t.length ht
    simp only [J.layout]; omega
  · intro t s hs _ ind hI
    have h1 := str_shorter hs
    have h2 : 1 * t.length ≤ B * t.length := Nat.mul_le_mul_right _ (by omega)
    simp only [J.layout, List.length_cons, List.length_append, List.length_nil]; omega
  · intro w hw _ ind hI
    have := up 1 (0x5B :: (w ++ [0x5D])).length (by simp)
    simp only [J.layout, JL.layouts, rows, List.length_cons, List.length_append, List.length_nil] at *
    omega
  · intro t l _ ih hd ind hI
    simp only [List.length_cons, List.length_append, List.length_nil] at hI
    have hI' : (ind ++ unit).length + il * t.length ≤ I := by
      rw [List.length_append, hu]
      have : il * (t.length + (0 + 1) + 1) = il * t.length + il + il := by rw [Nat.mul_add, Nat.mul_add]; simp
      omega
    have h1 := ih hd (ind ++ unit) hI'
    have h2 := rows_length (I := I) (by omega : (ind ++ unit).length ≤ I) (l.layouts num unit (ind ++ unit))
    have := up t.length (t.length + 2) (by omega)
    simp only [J.layout, List.length_cons, List.length_append, List.length_nil] at *
    rw [show t.length + 2 - t.length = 2 by omega] at this
    rw [show t.length + (0 + 1) + 1 = t.length + 2 by omega]
    omega
  · intro w hw _ ind hI
    have := up 1 (0x7B :: (w ++ [0x7D])).length (by simp)
    simp only [J.layout, JM.layouts, List.map_nil, rows, List.length_cons, List.length_append, List.length_nil] at *
    omega
  · intro t m _ ih hd ind hI
    simp only [List.length_cons, List.length_append, List.length_nil] at hI
    have hI' : (ind ++ unit).length + il * t.length ≤ I := by
      rw [List.length_append, hu]
      have : il * (t.length + (0 + 1) + 1) = il * t.length + il + il := by rw [Nat.mul_add, Nat.mul_add]; simp
      omega
    have h1 := ih hd.2 (ind ++ unit) hI'
    have hn : ((m.layouts num unit (ind ++ unit)).map Prod.fst).Nodup := by rw [layouts_names]; exact hd.1
    have h2 := rows_length (I := I) (by omega : (ind ++ unit).length ≤ I) ((m.layouts num unit (ind ++ unit)).map fun e =>
      0x22 :: (e.1 ++ 0x22 :: 0x20 :: 0x3A :: 0x20 :: firstRow e.1 (m.layouts num unit (ind ++ unit))))
    have h3 : rowsBound I ((m.layouts num unit (ind ++ unit)).map fun e =>
        0x22 :: (e.1 ++ 0x22 :: 0x20 :: 0x3A :: 0x20 :: firstRow e.1 (m.layouts num unit (ind ++ unit)))) =
        ((m.layouts num unit (ind ++ unit)).map fun e => e.1.length + e.2.length + I + 7).sum := by
      unfold rowsBound
      rw [List.map_map]
      congr 1
      refine List.map_congr_left fun e he => ?_
      simp only [Function.comp_apply, List.length_cons, List.length_append, firstRow_own hn he]
      omega
    have h4 : ((m.layouts num unit (ind ++ unit)).map fun e => e.1.length + e.2.length + I + 7).sum ≤
        ((m.layouts num unit (ind ++ unit)).map fun e => e.1.length + e.2.length + I + 8).sum := by
      exact sum_more _ _
    have := up t.length (t.length + 2) (by omega)
    simp only [J.layout, List.length_cons, List.length_append, List.length_nil] at *
    rw [show t.length + 2 - t.length = 2 by omega] at this
    rw [show t.length + (0 + 1) + 1 = t.length + 2 by omega]
    omega
  · intro w1 t w2 j _ _ _ ih hd ind hI
    have hI' : ind.length + il * t.length ≤ I := mono hI (by simp only [List.length_append]; omega)
    have h1 := ih hd.1 ind hI'
    have := up t.length (w1 ++ (t ++ w2)).length (by simp only [List.length_append]; omega)
    simp only [JL.layouts, rowsBound, List.map_cons, List.map_nil, List.sum_cons, List.sum_nil]
    omega
  · intro w1 t w2 j ts l _ _ _ _ ih1 ih2 hd ind hI
    have hI' : ind.length + il * t.length ≤ I := mono hI (by simp only [List.length_append]; omega)
    have hI2 : ind.length + il * ts.length ≤ I := mono hI (by simp only [List.length_append, List.length_cons]; omega)
    have h1 := ih1 hd.1 ind hI'
    have h2 := ih2 hd.2 ind hI2
    have := up (t.length + ts.length + 1) (w1 ++ (t ++ (w2 ++ 0x2C :: ts))).length (by simp only [List.length_append, List.length_cons]; omega)
    rw [Nat.mul_add B (t.length + ts.length), Nat.mul_add] at this
    simp only [JL.layouts, rowsBound, List.map_cons, List.sum_cons] at *
    omega
  · intro w1 n w2 w3 t w4 s j _ hs _ _ _ _ ih hd ind hI
    have hI' : ind.length + il * t.length ≤ I := mono hI (by simp only [List.length_append, List.length_cons]; omega)
    have h1 := ih hd.1 ind hI'
    have h2 := str_shorter hs
    have := up (t.length + n.length) (w1 ++ (n ++ (w2 ++ 0x3A :: (w3 ++ (t ++ w4))))).length
      (by simp only [List.length_append, List.length_cons]; omega)
    rw [Nat.mul_add B t.length] at this
    have h3 : 1 * n.length ≤ B * n.length := Nat.mul_le_mul_right _ (by omega)
    simp only [JM.layouts, List.map_cons, List.map_nil, List.sum_cons, List.sum_nil]
    omega
  · intro w1 n w2 w3 t w4 s j ts m _ hs _ _ _ _ _ ih1 ih2 hd ind hI
    have hI' : ind.length + il * t.length ≤ I := mono hI (by simp only [List.length_append, List.length_cons]; omega)
    have hI2 : ind.length + il * ts.length ≤ I := mono hI (by simp only [List.length_append, List.length_cons]; omega)
    have h1 := ih1 hd.1 ind hI'
    have h2 := ih2 hd.2 ind hI2
    have h4 := str_shorter hs
    have := up (t.length + n.length + ts.length + 1) (w1 ++ (n ++ (w2 ++ 0x3A :: (w3 ++ (t ++ (w4 ++ 0x2C :: ts)))))).length
      (by simp only [List.length_append, List.length_cons]; omega)
    rw [Nat.mul_add B (t.length + n.length + ts.length), Nat.mul_add B (t.length + n.length), Nat.mul_add B t.length] at this
    have h3 : 1 * n.length ≤ B * n.length := Nat.mul_le_mul_right _ (by omega)
    simp only [JM.layouts, List.map_cons, List.sum_cons]
    omega

/-- **C139, the part that holds**: without repeated names the written document is at most quadratic in the text, and linear without indentation. Numbers
are printed in at most `F` bytes. -/
theorem C139_size_partial (N : NumOps D) (hN : NegLaw N) (F il : Nat) (ic : Byte) (hF : ∀ x, (N.fmt x).length ≤ F ∧ (0 : Byte) ∉ N.fmt x) (buf : Bytes)
    (v : Value D) (hacc : Accepts N buf v) (j : J) (hj : DialText (cstr buf) j) (hd : j.Distinct) :
    ∃ out, Emits N il ic v out ∧ out.length ≤ (F + 2 * (il * buf.length) + 20) * buf.length := by
  obtain ⟨h3, hl, -⟩ := (accepts_iff N hN buf v).1 hacc
  have := accepts_det hacc ((accepts_iff N hN buf _).2 ⟨h3, hl, j, hj, rfl⟩)
  subst this
  obtain ⟨w1, t, w2, -, hv, -, e⟩ := hj
  refine ⟨_, emits_layout N (fun x => (hF x).2) hv il ic, ?_⟩
  have hlen : t.length ≤ buf.length := by
    obtain ⟨s, h1, -⟩ := cstr_split (buf := buf) (by unfold Term; exact List.mem_of_getLast? hl)
    have h1 := congrArg List.length h1
    rw [e] at h1
    simp only [List.length_append] at h1
    omega
  have h := val_small (B := F + 2 * (il * buf.length) + 20) (I := il * buf.length) (F := F) (il := il)
    (fun d => N.fmt (N.conv d.neg d.mantissa d.exponent)) (List.replicate il ic) (by simp) (fun d => (hF _).1) (by omega) hv hd []
    (by have := Nat.mul_le_mul_left il hlen; simpa using this)
  exact Nat.le_trans h (Nat.mul_le_mul_left _ hlen)

/-- Two levels of repeated names: 35 bytes of text (with the terminator) become 70 bytes. -/
example : (bombText 2 ++ [0]).length = 35 ∧ ((bombValue 2).layout (fun _ => []) [] []).length = 70 := by decide

/-- `{"a":[1],"b":{"a":null}}` has no repeated names. -/
example : J.Distinct (.obj (.cons [0x61] (.arr (.cons (.num ⟨false, 1, 0⟩) .nil)) (.cons [0x62] (.obj (.cons [0x61] .null .nil)) .nil))) :=
  ⟨by decide, ⟨trivial, trivial⟩, ⟨by decide, trivial, trivial⟩, trivial⟩

end Verif.Props
