import Verif.Model.Parser
import Verif.Spec.Json
import Verif.Lemmas.Text

/-! # Lemmas about whitespace and string tokens -/

namespace Verif.Parser

open Verif Verif.Text Verif.Number Verif.Spec

/-- The text still contains a NUL byte. -/
def Term (t : Bytes) : Prop := (0 : Byte) ∈ t

/-- `p` is reached from `t` without passing a NUL byte. -/
def Adv (t p : Bytes) : Prop := ∃ c, t = c ++ p ∧ (0 : Byte) ∉ c

theorem Adv.refl (t : Bytes) : Adv t t := ⟨[], rfl, by simp⟩

theorem Adv.trans {a b c : Bytes} (h1 : Adv a b) (h2 : Adv b c) : Adv a c := by
  obtain ⟨x, rfl, hx⟩ := h1
  obtain ⟨y, rfl, hy⟩ := h2
  exact ⟨x ++ y, by simp, by simp [hx, hy]⟩

theorem Adv.term {t p : Bytes} (h : Adv t p) (ht : Term t) : Term p := by
  obtain ⟨x, rfl, hx⟩ := h
  rcases List.mem_append.1 ht with h | h
  · exact absurd h hx
  · exact h

theorem Adv.length_le {t p : Bytes} (h : Adv t p) : p.length ≤ t.length := by
  obtain ⟨x, rfl, -⟩ := h
  simp

theorem Adv.cons {c : Byte} (t : Bytes) (h : c ≠ 0) : Adv (c :: t) t :=
  ⟨[c], rfl, by simpa using fun e => h e.symm⟩

theorem Adv.of_append {x p : Bytes} (h : (0 : Byte) ∉ x) : Adv (x ++ p) p := ⟨x, rfl, h⟩

theorem Term.ne_nil {t : Bytes} (h : Term t) : ∃ c s, t = c :: s := by
  cases t with
  | nil => simp [Term] at h
  | cons c s => exact ⟨c, s, rfl⟩

theorem Term.tail {c : Byte} {t : Bytes} (h : Term (c :: t)) (hc : c ≠ 0) : Term t :=
  (Adv.cons t hc).term h

/-! ## Whitespace -/

theorem isWs_iff (c : Byte) :
    isWs c = true ↔ (c = 0x20 ∨ c = 0x09 ∨ c = 0x0A ∨ c = 0x0D) := by
  simp [isWs, or_assoc]

theorem isWs_ne_zero {c : Byte} (h : isWs c = true) : c ≠ 0 := by
  intro e; subst e; revert h; decide

theorem _root_.Verif.Spec.Ws.nil : Ws [] := by simp [Ws]
theorem _root_.Verif.Spec.Ws.append {a b : Bytes} (h1 : Ws a) (h2 : Ws b) : Ws (a ++ b) := by
  intro c hc
  rcases List.mem_append.1 hc with h | h
  · exact h1 c h
  · exact h2 c h

theorem _root_.Verif.Spec.Ws.cons_iff {c : Byte} {w : Bytes} : Ws (c :: w) ↔ isWs c = true ∧ Ws w := by
  simp [Ws, isWs_iff]

theorem _root_.Verif.Spec.Ws.nul_free {w : Bytes} (h : Ws w) : (0 : Byte) ∉ w := by
  intro h0
  rcases h 0 h0 with e | e | e | e <;> revert e <;> decide

theorem skipWs_stop {c : Byte} {s : Bytes} (h : isWs c = false) : skipWs (c :: s) = .ok (c :: s) := by
  simp [skipWs, h]

theorem skipWs_append {w r : Bytes} (h : Ws w) : skipWs (w ++ r) = skipWs r := by
  induction w with
  | nil => rfl
  | cons c w ih =>
    rw [Ws.cons_iff] at h
    rw [List.cons_append, skipWs, if_pos ⟨isWs_ne_zero h.1, h.1⟩, ih h.2]

theorem skipWs_ok {t r : Bytes} (h : skipWs t = .ok r) :
    ∃ w c s, Ws w ∧ t = w ++ r ∧ r = c :: s ∧ isWs c = false := by
  induction t with
  | nil => simp [skipWs] at h
  | cons c t ih =>
    rw [skipWs] at h
    split at h
    · rename_i hc
      obtain ⟨w, c', s, hw, e1, e2, h3⟩ := ih h
      exact ⟨c :: w, c', s, Ws.cons_iff.2 ⟨hc.2, hw⟩, by rw [e1]; rfl, e2, h3⟩
    · rename_i hc
      cases h
      refine ⟨[], c, t, Ws.nil, rfl, rfl, ?_⟩
      by_cases h0 : c = 0
      · subst h0; decide
      · simpa [h0] using hc

theorem skipWs_total {t : Bytes} (h : Term t) :
    ∃ w c s, Ws w ∧ t = w ++ (c :: s) ∧ isWs c = false ∧ skipWs t = .ok (c :: s) := by
  induction t with
  | nil => simp [Term] at h
  | cons c t ih =>
    by_cases hc : isWs c = true
    · have h0 := isWs_ne_zero hc
      obtain ⟨w, c', s, hw, e1, h3, h4⟩ := ih (h.tail h0)
      refine ⟨c :: w, c', s, Ws.cons_iff.2 ⟨hc, hw⟩, by rw [e1]; rfl, h3, ?_⟩
      rw [skipWs, if_pos ⟨h0, hc⟩, h4]
    · have hc : isWs c = false := by simpa using hc
      exact ⟨[], c, t, Ws.nil, rfl, hc, skipWs_stop hc⟩

theorem skipWs_idem {t r : Bytes} (h : skipWs t = .ok r) : skipWs r = .ok r := by
  obtain ⟨w, c, s, -, -, rfl, hc⟩ := skipWs_ok h
  exact skipWs_stop hc

theorem skipWs_adv {t r : Bytes} (h : skipWs t = .ok r) : Adv t r := by
  obtain ⟨w, c, s, hw, rfl, rfl, hc⟩ := skipWs_ok h
  exact Adv.of_append hw.nul_free

/-! ## Escapes -/

theorem hexTable (b : Byte) :
    (if 48 ≤ b.toNat ∧ b.toNat - 48 < 55 then hexadecimalCharValue[b.toNat - 48]? else some (-1)) =
      some (match hexVal b with | some v => (v : Int) | none => -1) := by
  have : ∀ n : Fin 256,
      (if 48 ≤ n.val ∧ n.val - 48 < 55 then hexadecimalCharValue[n.val - 48]? else some (-1)) =
        some (match hexVal (UInt8.ofNat n.val) with | some v => (v : Int) | none => -1) := by
    decide +kernel
  have h := this ⟨b.toNat, b.toNat_lt⟩
  simpa using h

theorem hexVal_lt {b : Byte} {v : Nat} (h : hexVal b = some v) : v < 16 := by
  unfold hexVal at h
  split at h
  · cases h; omega
  · split at h
    · cases h; omega
    · split at h
      · cases h; omega
      · cases h

theorem hexVal_ne_zero {b : Byte} {v : Nat} (h : hexVal b = some v) : b ≠ 0 := by
  intro e; subst e; revert h; simp [hexVal]

theorem hexLoop_unfold (t : Bytes) (n a code : Nat) :
    hexLoop t (n + 1) a code = (rd t a >>= fun b =>
      if 48 ≤ b.toNat ∧ b.toNat - 48 < 55 then
        match hexadecimalCharValue[b.toNat - 48]? with
        | none => .ub
        | some x => if x < 0 then .ok none else hexLoop t n (a + 1) (code <<< 4 ||| x.toNat)
      else .ok none) := by
  rfl

theorem hexLoop_step (t : Bytes) (n a code : Nat) :
    hexLoop t (n + 1) a code = (rd t a >>= fun b =>
      match hexVal b with
      | none => .ok none
      | some x => hexLoop t n (a + 1) (code * 16 + x)) := by
  rw [hexLoop_unfold]
  refine congrArg (fun f => rd t a >>= f) (funext fun b => ?_)
  have h := hexTable b
  by_cases hr : 48 ≤ b.toNat ∧ b.toNat - 48 < 55
  · rw [if_pos hr] at h ⊢
    rw [h]
    cases hv : hexVal b with
    | none => rfl
    | some v =>
      have hlt := hexVal_lt hv
      simp only
      rw [if_neg (by omega), Int.toNat_natCast,
        ← Nat.shiftLeft_add_eq_or_of_lt (i := 4) (by omega), Nat.shiftLeft_eq]
  · rw [if_neg hr] at h ⊢
    cases hv : hexVal b with
    | none => rfl
    | some v =>
      rw [hv] at h
      have h' : (-1 : Int) = (v : Int) := Option.some.inj h
      omega

/-- The hexadecimal loop on a terminated text: it fails, or the four bytes are hexadecimal digits. -/
theorem hexLoop_total (t : Bytes) (x : Byte) (ht : Term t) :
    (∃ a b c d r w, t = a :: b :: c :: d :: r ∧ (SItem.uni a b c d).code = some w ∧
      a ≠ 0 ∧ b ≠ 0 ∧ c ≠ 0 ∧ d ≠ 0 ∧ hexLoop (x :: t) 4 1 0 = .ok (some w)) ∨
    (hexLoop (x :: t) 4 1 0 = .ok none ∧
      ∀ a b c d r, t = a :: b :: c :: d :: r → (SItem.uni a b c d).code = none) := by
  obtain ⟨a, t1, rfl⟩ := ht.ne_nil
  simp only [hexLoop_step, rd_cons_succ, rd_cons_zero, Out.ok_bind, Nat.zero_mul, Nat.zero_add]
  cases ha : hexVal a with
  | none => right; refine ⟨rfl, ?_⟩; rintro a b c d r ⟨⟩; simp [SItem.code, ha]
  | some va =>
    have ha0 := hexVal_ne_zero ha
    obtain ⟨b, t2, rfl⟩ := (ht.tail ha0).ne_nil
    have ht2 := ht.tail ha0
    simp only [rd_cons_succ, rd_cons_zero, Out.ok_bind]
    cases hb : hexVal b with
    | none => right; refine ⟨rfl, ?_⟩; rintro a b c d r ⟨⟩; simp [SItem.code, hb]
    | some vb =>
      have hb0 := hexVal_ne_zero hb
      obtain ⟨c, t3, rfl⟩ := (ht2.tail hb0).ne_nil
      have ht3 := ht2.tail hb0
      simp only [rd_cons_succ, rd_cons_zero, Out.ok_bind]
      cases hc : hexVal c with
      | none => right; refine ⟨rfl, ?_⟩; rintro a b c d r ⟨⟩; simp [SItem.code, hc]
      | some vc =>
        have hc0 := hexVal_ne_zero hc
        obtain ⟨d, t4, rfl⟩ := (ht3.tail hc0).ne_nil
        simp only [rd_cons_succ, rd_cons_zero, Out.ok_bind]
        cases hd : hexVal d with
        | none => right; refine ⟨rfl, ?_⟩; rintro a b c d r ⟨⟩; simp [SItem.code, hd]
        | some vd =>
          left
          refine ⟨a, b, c, d, t4, _, rfl, ?_, ha0, hb0, hc0, hexVal_ne_zero hd, rfl⟩
          simp only [SItem.code, ha, hb, hc, hd, Option.bind_eq_bind, Option.bind_some,
            Option.some.injEq]
          omega

theorem uni_lt {a b c d : Byte} {w : Nat} (h : (SItem.uni a b c d).code = some w) : w < 65536 := by
  simp only [SItem.code, Option.bind_eq_bind, Option.bind_eq_some_iff, Option.some.injEq] at h
  obtain ⟨va, ha, vb, hb, vc, hc, vd, hd, rfl⟩ := h
  have := hexVal_lt ha; have := hexVal_lt hb; have := hexVal_lt hc; have := hexVal_lt hd
  omega

/-- The length computed by the measuring pass for `\u` escapes (line 709). -/
theorem measure_len (w : Nat) (h : w < 65536) :
    1 + (if w ≥ 0x000080 then 1 else 0) + (if w ≥ 0x000800 then 1 else 0) = (utf8 w).length := by
  rw [utf8_length]; unfold utf8Nat
  (repeat' split) <;> first | rfl | omega

theorem escVal_table (c : Byte) : readEscapeChar c = (escVal c).map UInt8.ofNat := by
  have : ∀ n : Fin 256, readEscapeChar (UInt8.ofNat n.val) =
      (escVal (UInt8.ofNat n.val)).map UInt8.ofNat := by decide +kernel
  have h := this ⟨c.toNat, c.toNat_lt⟩
  simpa using h

theorem escVal_facts {c : Byte} {v : Nat} (h : escVal c = some v) :
    v < 128 ∧ v ≠ 0 ∧ c ≠ 0 ∧ c ≠ 0x75 := by
  have : ∀ n : Fin 256, ∀ v, escVal (UInt8.ofNat n.val) = some v →
      v < 128 ∧ v ≠ 0 ∧ n.val ≠ 0 ∧ n.val ≠ 0x75 := by
    intro n v hv
    have h2 : ∀ n : Fin 256, ∀ v ∈ (escVal (UInt8.ofNat n.val)),
        v < 128 ∧ v ≠ 0 ∧ n.val ≠ 0 ∧ n.val ≠ 0x75 := by decide +kernel
    exact h2 n v hv
  have h := this ⟨c.toNat, c.toNat_lt⟩ v (by simpa using h)
  refine ⟨h.1, h.2.1, ?_, ?_⟩
  · intro e; subst e; exact h.2.2.1 rfl
  · intro e; subst e; exact h.2.2.2 rfl

theorem utf8_ascii {v : Nat} (h : v < 128) : utf8 v = [UInt8.ofNat v] := by
  simp [utf8, utf8Nat, h]

/-- An escape sequence after the backslash: both passes fail, or both succeed on the same item. -/
theorem escape_total (t : Bytes) (ht : Term t) :
    (∃ i r w, (92 :: t = i.raw ++ r) ∧ DialItem i ∧ i.code = some w ∧
      (0 : Byte) ∉ i.raw ∧ w < 0x110000 ∧ w ≠ 0 ∧ (∀ cp, i ≠ .lit cp) ∧
      escapeMeasure t = .ok (i.raw.length - 1, (utf8 w).length) ∧
      escapeWrite t = .ok (i.raw.length - 1, utf8 w)) ∨
    (escapeMeasure t = .ok (0, 0) ∧ escapeWrite t = .ok (0, []) ∧
      ∀ i r, DialItem i → (∀ cp, i ≠ .lit cp) → 92 :: t ≠ i.raw ++ r) := by
  obtain ⟨c, s, rfl⟩ := ht.ne_nil
  unfold escapeMeasure escapeWrite
  simp only [rd_cons_zero, Out.ok_bind]
  by_cases hu : c = 117
  · subst hu
    simp only [if_true]
    rcases hexLoop_total s 117 (ht.tail (by decide)) with
      ⟨a, b, c, d, r, w, rfl, hw, ha, hb, hc, hd, e⟩ | ⟨e, hn⟩
    · rw [e]
      simp only [Out.ok_bind]
      have hlt := uni_lt hw
      by_cases h0 : w = 0
      · right
        subst h0
        refine ⟨by simp, by simp, ?_⟩
        intro i r hi hl he
        cases i with
        | lit cp => exact hl cp rfl
        | esc x =>
          obtain ⟨v, hv⟩ := hi
          simp only [SItem.raw, List.cons_append, List.nil_append, List.cons.injEq] at he
          exact (escVal_facts hv).2.2.2 he.2.1.symm
        | uni a' b' c' d' =>
          simp only [SItem.raw, List.cons_append, List.nil_append, List.cons.injEq, true_and] at he
          obtain ⟨rfl, rfl, rfl, rfl, -⟩ := he
          obtain ⟨x, hx, hx0⟩ := hi
          rw [hw] at hx; cases hx; exact hx0 rfl
      · left
        refine ⟨.uni a b c d, r, w, rfl, ⟨w, hw, h0⟩, hw, ?_, by omega, h0, by simp, ?_, ?_⟩
        · simp only [SItem.raw, List.mem_cons, List.not_mem_nil, or_false, not_or]
          exact ⟨by decide, by decide, ha.symm, hb.symm, hc.symm, hd.symm⟩
        · rw [if_pos h0, measure_len w hlt]; rfl
        · rw [if_pos h0, write_eq_utf8 w (by omega)]; rfl
    · right
      rw [e]
      refine ⟨rfl, rfl, ?_⟩
      intro i r hi hl he
      cases i with
      | lit cp => exact hl cp rfl
      | esc x =>
        obtain ⟨v, hv⟩ := hi
        simp only [SItem.raw, List.cons_append, List.nil_append, List.cons.injEq] at he
        exact (escVal_facts hv).2.2.2 he.2.1.symm
      | uni a' b' c' d' =>
        simp only [SItem.raw, List.cons_append, List.nil_append, List.cons.injEq, true_and] at he
        obtain ⟨x, hx, -⟩ := hi
        rw [hn _ _ _ _ _ he] at hx; cases hx
  · simp only [if_neg hu, escVal_table]
    cases hv : escVal c with
    | none =>
      right
      refine ⟨rfl, rfl, ?_⟩
      intro i r hi hl he
      cases i with
      | lit cp => exact hl cp rfl
      | esc x =>
        obtain ⟨v, hv'⟩ := hi
        simp only [SItem.raw, List.cons_append, List.nil_append, List.cons.injEq, true_and] at he
        obtain ⟨rfl, -⟩ := he
        rw [hv] at hv'; cases hv'
      | uni a' b' c' d' =>
        simp only [SItem.raw, List.cons_append, List.nil_append, List.cons.injEq, true_and] at he
        exact hu he.1
    | some v =>
      left
      obtain ⟨h1, h2, h3, h4⟩ := escVal_facts hv
      refine ⟨.esc c, s, v, rfl, ⟨v, hv⟩, hv, ?_, by omega, h2, by simp, ?_, ?_⟩
      · simp only [SItem.raw, List.mem_cons, List.not_mem_nil, or_false, not_or]
        exact ⟨by decide, h3.symm⟩
      · simp [utf8_ascii h1, SItem.raw]
      · simp [utf8_ascii h1, SItem.raw]

/-! ## String bodies -/

/-- Concatenated items as written. -/
def raws (is : List SItem) : Bytes := (is.map SItem.raw).flatten

theorem raws_cons (i : SItem) (is : List SItem) : raws (i :: is) = i.raw ++ raws is := by
  simp [raws]

theorem plain_cons (i : SItem) (is : List SItem) :
    utf8s (plainCodes (i :: is)) = utf8 (i.code.getD 0) ++ utf8s (plainCodes is) := by
  simp [utf8s, plainCodes]

theorem _root_.Verif.Spec.DialItem.nul_free {i : SItem} (h : DialItem i) : (0 : Byte) ∉ i.raw := by
  cases i with
  | lit cp => exact utf8_nul_free cp h.1 (by have := h.2.1; omega)
  | esc c =>
    obtain ⟨v, hv⟩ := h
    simp only [SItem.raw, List.mem_cons, List.not_mem_nil, or_false, not_or]
    exact ⟨by decide, (escVal_facts hv).2.2.1.symm⟩
  | uni a b c d =>
    obtain ⟨w, hw, -⟩ := h
    simp only [SItem.code, Option.bind_eq_bind, Option.bind_eq_some_iff, Option.some.injEq] at hw
    obtain ⟨va, ha, vb, hb, vc, hc, vd, hd, rfl⟩ := hw
    simp only [SItem.raw, List.mem_cons, List.not_mem_nil, or_false, not_or]
    exact ⟨by decide, by decide, (hexVal_ne_zero ha).symm, (hexVal_ne_zero hb).symm,
      (hexVal_ne_zero hc).symm, (hexVal_ne_zero hd).symm⟩

theorem _root_.Verif.Spec.DialItem.code {i : SItem} (h : DialItem i) :
    ∃ w, i.code = some w ∧ w < 0x110000 ∧ w ≠ 0 := by
  cases i with
  | lit cp => exact ⟨cp, rfl, h.1, by have := h.2.1; omega⟩
  | esc c =>
    obtain ⟨v, hv⟩ := h
    have := escVal_facts hv
    exact ⟨v, hv, by omega, this.2.1⟩
  | uni a b c d =>
    obtain ⟨w, hw, h0⟩ := h
    have := uni_lt hw
    exact ⟨w, hw, by omega, h0⟩

theorem raws_nul_free {is : List SItem} (h : ∀ i ∈ is, DialItem i) : (0 : Byte) ∉ raws is := by
  induction is with
  | nil => simp [raws]
  | cons i is ih =>
    rw [raws_cons]
    simp only [List.mem_append, not_or]
    exact ⟨(h i (by simp)).nul_free, ih fun j hj => h j (by simp [hj])⟩

theorem raw_length_pos {i : SItem} : 0 < i.raw.length := by
  cases i with
  | lit cp => exact utf8_length_pos cp
  | esc c => simp [SItem.raw]
  | uni a b c d => simp [SItem.raw]

/-- First byte of a literal character. -/
theorem lit_head {cp : Nat} (h : DialItem (.lit cp)) : ∃ c s, utf8 cp = c :: s ∧
    c ≠ 0 ∧ c ≠ 34 ∧ ¬ (c.toNat < 32 ∨ c = 127) ∧ c ≠ 92 := by
  obtain ⟨h1, h2, h3, h4, h5⟩ := h
  have ne : ∀ (c : Byte) (n : Byte), c.toNat ≠ n.toNat → c ≠ n := fun c n h e => h (by rw [e])
  have key : ∀ c : Byte, (c.toNat = cp ∨ 128 ≤ c.toNat) →
      c ≠ 0 ∧ c ≠ 34 ∧ ¬ (c.toNat < 32 ∨ c = 127) ∧ c ≠ 92 := by
    intro c hc
    refine ⟨ne _ _ ?_, ne _ _ ?_, ?_, ne _ _ ?_⟩
    · simp; omega
    · simp; omega
    · rw [not_or]; exact ⟨by omega, ne _ _ (by simp; omega)⟩
    · simp; omega
  rcases utf8_cases cp h1 with ⟨_, a, e, ha⟩ | ⟨_, _, a, b, e, ha, hb⟩ |
    ⟨_, _, a, b, c, e, ha, hb, hc⟩ | ⟨_, a, b, c, d, e, ha, hb, hc, hd⟩
  · exact ⟨a, _, e, key a (.inl ha)⟩
  · exact ⟨a, _, e, key a (.inr (by omega))⟩
  · exact ⟨a, _, e, key a (.inr (by omega))⟩
  · exact ⟨a, _, e, key a (.inr (by omega))⟩

theorem lit_of_utf8 {cp : Nat} {c : Byte} {s : Bytes} (hcp : cp < 0x110000) (e : utf8 cp = c :: s)
    (h1 : ¬ (c.toNat < 32 ∨ c = 127)) (h2 : c ≠ 34) (h3 : c ≠ 92) : DialItem (.lit cp) := by
  have ne : ∀ (c : Byte) (n : Byte), c ≠ n → c.toNat ≠ n.toNat := fun c n h e => h (byte_ext e)
  rw [not_or] at h1
  have h4 := ne _ _ h1.2
  have h5 := ne _ _ h2
  have h6 := ne _ _ h3
  simp at h4 h5 h6
  refine ⟨hcp, ?_⟩
  rcases utf8_cases cp hcp with ⟨_, a, e', ha⟩ | ⟨_, _, a, b, e', ha, hb⟩ |
    ⟨_, _, a, b, c, e', ha, hb, hc⟩ | ⟨_, a, b, c, d, e', ha, hb, hc, hd⟩
  · rw [e'] at e; cases e; omega
  · omega
  · omega
  · omega

/-- One step of both passes over an item. -/
theorem passes_item (n : Nat) (i : SItem) (hi : DialItem i) (r : Bytes) (hr : Term r)
    (tl cnt : Nat) (out : Bytes) :
    measureString (n + 1) (i.raw ++ r) tl cnt =
      measureString n r (tl + i.raw.length) (cnt + (utf8 (i.code.getD 0)).length) ∧
    writeString (n + 1) (i.raw ++ r) tl out =
      writeString n r (tl + i.raw.length) (out ++ utf8 (i.code.getD 0)) := by
  have hnul := hi.nul_free
  by_cases hl : ∃ cp, i = .lit cp
  · obtain ⟨cp, rfl⟩ := hl
    obtain ⟨c, s, e, h0, h34, h32, h92⟩ := lit_head hi
    have hv := validate_utf8 cp hi.1 r
    have hpos := utf8_length_pos cp
    have hrd : rd (utf8 cp ++ r) 0 = .ok c := by rw [e]; rfl
    constructor
    · show measureString (n + 1) (utf8 cp ++ r) tl cnt = _
      rw [measureString]
      simp only [hrd, Out.ok_bind, hv]
      rw [if_neg h0, if_neg h34, if_neg h32, if_pos h92, if_neg (by omega), List.drop_left]
      rfl
    · show writeString (n + 1) (utf8 cp ++ r) tl out = _
      rw [writeString]
      simp only [hrd, Out.ok_bind, hv]
      rw [if_neg h0, if_neg h34, if_neg h32, if_pos h92, if_neg (by omega),
        if_neg (by simp), List.drop_left, List.take_left]
      rfl
  · have hl : ∀ cp, i ≠ .lit cp := fun cp e => hl ⟨cp, e⟩
    -- the raw item begins with a backslash
    obtain ⟨s, hs⟩ : ∃ s, i.raw = 92 :: s := by
      cases i with
      | lit cp => exact absurd rfl (hl cp)
      | esc c => exact ⟨_, rfl⟩
      | uni a b c d => exact ⟨_, rfl⟩
    have ht : Term (s ++ r) := by simp only [Term, List.mem_append]; exact .inr hr
    rcases escape_total (s ++ r) ht with ⟨j, r', w, e, hj, hw, -, -, -, hjl, hm, hwr⟩ | ⟨-, -, hn⟩
    · -- the item read is the item written
      have hij : i = j ∧ r' = r := by
        have e' : i.raw ++ r = j.raw ++ r' := by rw [hs]; exact e
        cases i with
        | lit cp => exact absurd rfl (hl cp)
        | esc x =>
          obtain ⟨v, hv⟩ := hi
          cases j with
          | lit cp => exact absurd rfl (hjl cp)
          | esc y =>
            simp only [SItem.raw, List.cons_append, List.nil_append, List.cons.injEq, true_and] at e'
            exact ⟨by rw [e'.1], e'.2.symm⟩
          | uni a b c d =>
            simp only [SItem.raw, List.cons_append, List.nil_append, List.cons.injEq, true_and] at e'
            exact absurd e'.1 (escVal_facts hv).2.2.2
        | uni a b c d =>
          cases j with
          | lit cp => exact absurd rfl (hjl cp)
          | esc y =>
            obtain ⟨v, hv⟩ := hj
            simp only [SItem.raw, List.cons_append, List.nil_append, List.cons.injEq, true_and] at e'
            exact absurd e'.1.symm (escVal_facts hv).2.2.2
          | uni a' b' c' d' =>
            simp only [SItem.raw, List.cons_append, List.nil_append, List.cons.injEq, true_and] at e'
            obtain ⟨rfl, rfl, rfl, rfl, rfl⟩ := e'
            exact ⟨rfl, rfl⟩
      obtain ⟨rfl, rfl⟩ := hij
      have hpos : 1 < i.raw.length := by
        cases i with
        | lit cp => exact absurd rfl (hl cp)
        | esc c => simp [SItem.raw]
        | uni a b c d => simp [SItem.raw]
      have hrd : rd (i.raw ++ r') 0 = .ok 92 := by rw [hs]; rfl
      have hd1 : (i.raw ++ r').drop 1 = s ++ r' := by rw [hs]; rfl
      have hd2 : (i.raw ++ r').drop (1 + (i.raw.length - 1)) = r' := by
        rw [show 1 + (i.raw.length - 1) = i.raw.length by omega, List.drop_left]
      constructor
      · rw [measureString]
        simp only [hrd, Out.ok_bind, hd1, hm]
        rw [if_neg (by decide), if_neg (by decide), if_neg (by decide), if_neg (by decide),
          if_neg (by omega), hd2, hw]
        simp only [Option.getD_some]
        rw [show tl + 1 + (i.raw.length - 1) = tl + i.raw.length by omega]
      · rw [writeString]
        simp only [hrd, Out.ok_bind, hd1, hwr]
        rw [if_neg (by decide), if_neg (by decide), if_neg (by decide), if_neg (by decide),
          if_neg (by omega), hd2, hw]
        simp only [Option.getD_some]
        rw [show tl + 1 + (i.raw.length - 1) = tl + i.raw.length by omega]
    · exact absurd (by rw [hs]; rfl) (hn i r hi hl)

/-- How a string body can end. -/
def StrEnd (st : Status) (r : Bytes) : Prop :=
  (st = .kOk ∧ ∃ s, r = 34 :: s) ∨
  ((st = .kPrematureNullTerminator ∨ st = .kStringIllegalChar ∨ st = .kStringIllegalEscape) ∧
    ∀ s, r ≠ 34 :: s)

/-- **Both passes over a string body.** Every terminated text is a sequence of items followed by an
end; both passes read the items and return the same status, length and amount of data. -/
theorem passes_total (n : Nat) (t : Bytes) (ht : Term t) (hn : t.length < n) :
    ∃ is r st, (∀ i ∈ is, DialItem i) ∧ t = raws is ++ r ∧ Term r ∧ StrEnd st r ∧
      (∀ tl cnt, measureString n t tl cnt =
        .ok (st, tl + (raws is).length, cnt + (utf8s (plainCodes is)).length)) ∧
      (∀ tl out, writeString n t tl out =
        .ok (st, tl + (raws is).length, out ++ utf8s (plainCodes is))) := by
  induction n generalizing t with
  | zero => omega
  | succ n ih =>
    obtain ⟨c, s, rfl⟩ := ht.ne_nil
    have stop : ∀ st, StrEnd st (c :: s) →
        (∀ tl cnt, measureString (n + 1) (c :: s) tl cnt = .ok (st, tl, cnt)) →
        (∀ tl out, writeString (n + 1) (c :: s) tl out = .ok (st, tl, out)) →
        ∃ is r st, (∀ i ∈ is, DialItem i) ∧ c :: s = raws is ++ r ∧ Term r ∧ StrEnd st r ∧
          (∀ tl cnt, measureString (n + 1) (c :: s) tl cnt =
            .ok (st, tl + (raws is).length, cnt + (utf8s (plainCodes is)).length)) ∧
          (∀ tl out, writeString (n + 1) (c :: s) tl out =
            .ok (st, tl + (raws is).length, out ++ utf8s (plainCodes is))) := by
      intro st hst hm hw
      refine ⟨[], c :: s, st, by simp, rfl, ht, hst, ?_, ?_⟩
      · intro tl cnt; rw [hm]; rfl
      · intro tl out; rw [hw]; simp [raws, utf8s, plainCodes]
    have step : ∀ i r, DialItem i → c :: s = i.raw ++ r →
        ∃ is r st, (∀ i ∈ is, DialItem i) ∧ c :: s = raws is ++ r ∧ Term r ∧ StrEnd st r ∧
          (∀ tl cnt, measureString (n + 1) (c :: s) tl cnt =
            .ok (st, tl + (raws is).length, cnt + (utf8s (plainCodes is)).length)) ∧
          (∀ tl out, writeString (n + 1) (c :: s) tl out =
            .ok (st, tl + (raws is).length, out ++ utf8s (plainCodes is))) := by
      intro i r hi e
      have hadv : Adv (c :: s) r := ⟨i.raw, e, hi.nul_free⟩
      have hr := hadv.term ht
      have hlen : r.length < n := by
        have := congrArg List.length e
        have := raw_length_pos (i := i)
        simp only [List.length_cons, List.length_append] at *
        omega
      obtain ⟨is, r', st, his, rfl, hr', hst, hm, hw⟩ := ih r hr hlen
      refine ⟨i :: is, r', st, ?_, ?_, hr', hst, ?_, ?_⟩
      · intro j hj
        rcases List.mem_cons.1 hj with rfl | hj
        · exact hi
        · exact his j hj
      · rw [e, raws_cons, List.append_assoc]
      · intro tl cnt
        rw [e, (passes_item n i hi _ hr tl cnt []).1, hm, raws_cons, plain_cons]
        simp only [List.length_append, Nat.add_assoc]
      · intro tl out
        rw [e, (passes_item n i hi _ hr tl 0 out).2, hw, raws_cons, plain_cons]
        simp only [List.length_append, Nat.add_assoc, List.append_assoc]
    by_cases h0 : c = 0
    · refine stop .kPrematureNullTerminator (.inr ⟨.inl rfl, ?_⟩) ?_ ?_
      · intro s' e; cases e; revert h0; decide
      · intro tl cnt; rw [measureString]; simp [rd_cons_zero, h0]
      · intro tl out; rw [writeString]; simp [rd_cons_zero, h0]
    by_cases h34 : c = 34
    · refine stop .kOk (.inl ⟨rfl, s, by rw [h34]⟩) ?_ ?_
      · intro tl cnt; rw [measureString]; simp [rd_cons_zero, h34]
      · intro tl out; rw [writeString]; simp [rd_cons_zero, h34]
    have hne : ∀ s', c :: s ≠ 34 :: s' := by
      intro s' e; cases e; exact h34 rfl
    by_cases h32 : c.toNat < 32 ∨ c = 127
    · refine stop .kStringIllegalChar (.inr ⟨.inr (.inl rfl), hne⟩) ?_ ?_
      · intro tl cnt; rw [measureString]; simp only [rd_cons_zero, Out.ok_bind]
        rw [if_neg h0, if_neg h34, if_pos h32]
      · intro tl out; rw [writeString]; simp only [rd_cons_zero, Out.ok_bind]
        rw [if_neg h0, if_neg h34, if_pos h32]
    by_cases h92 : c = 92
    · subst h92
      rcases escape_total s (ht.tail (by decide)) with ⟨i, r, w, e, hi, -⟩ | ⟨hm, hw, -⟩
      · exact step i r hi e
      · refine stop .kStringIllegalEscape (.inr ⟨.inr (.inr rfl), hne⟩) ?_ ?_
        · intro tl cnt; rw [measureString]; simp [rd_cons_zero, hm]
        · intro tl out; rw [writeString]; simp [rd_cons_zero, hw]
    · obtain ⟨m, hm, h | ⟨cp, r, hcp, e, hlen⟩⟩ := validate_sound (c :: s) ht
      · subst h
        refine stop .kStringIllegalChar (.inr ⟨.inr (.inl rfl), hne⟩) ?_ ?_
        · intro tl cnt; rw [measureString]; simp only [rd_cons_zero, Out.ok_bind, hm]
          rw [if_neg h0, if_neg h34, if_neg h32, if_pos h92, if_pos (by trivial)]
        · intro tl out; rw [writeString]; simp only [rd_cons_zero, Out.ok_bind, hm]
          rw [if_neg h0, if_neg h34, if_neg h32, if_pos h92, if_pos (by trivial)]
      · obtain ⟨c', s', ec⟩ : ∃ c' s', utf8 cp = c' :: s' := by
          have := utf8_length_pos cp
          cases h : utf8 cp with
          | nil => rw [h] at this; simp at this
          | cons a b => exact ⟨a, b, rfl⟩
        have : c' = c := by rw [ec] at e; cases e; rfl
        subst this
        exact step (.lit cp) r (lit_of_utf8 hcp ec h32 h34 h92) e

/-- Both passes on a complete string body. -/
theorem passes_complete (is : List SItem) (his : ∀ i ∈ is, DialItem i) (rest : Bytes)
    (hr : Term rest) (n : Nat) (hn : is.length < n) (tl cnt : Nat) (out : Bytes) :
    measureString n (raws is ++ 34 :: rest) tl cnt =
        .ok (.kOk, tl + (raws is).length, cnt + (utf8s (plainCodes is)).length) ∧
    writeString n (raws is ++ 34 :: rest) tl out =
        .ok (.kOk, tl + (raws is).length, out ++ utf8s (plainCodes is)) := by
  induction is generalizing n tl cnt out with
  | nil =>
    obtain ⟨n, rfl⟩ := Nat.exists_eq_succ_of_ne_zero (Nat.ne_of_gt (Nat.lt_of_le_of_lt (Nat.zero_le _) hn))
    constructor
    · simp [measureString, raws, utf8s, plainCodes, rd_cons_zero]
    · simp [writeString, raws, utf8s, plainCodes, rd_cons_zero]
  | cons i is ih =>
    obtain ⟨n, rfl⟩ := Nat.exists_eq_succ_of_ne_zero (Nat.ne_of_gt (Nat.lt_of_le_of_lt (Nat.zero_le _) hn))
    have ht : Term (raws is ++ 34 :: rest) := by
      simp only [Term, List.mem_append, List.mem_cons]; exact .inr (.inr hr)
    obtain ⟨h1, h2⟩ := passes_item n i (his i (by simp)) _ ht tl cnt out
    have ih := ih (fun j hj => his j (by simp [hj])) n (by simp at hn; omega)
      (tl + i.raw.length) (cnt + (utf8 (i.code.getD 0)).length) (out ++ utf8 (i.code.getD 0))
    rw [raws_cons, List.append_assoc, h1, h2, ih.1, ih.2, plain_cons]
    simp only [List.length_append, Nat.add_assoc, List.append_assoc, and_self]

theorem raws_length (is : List SItem) : is.length ≤ (raws is).length := by
  induction is with
  | nil => simp
  | cons i is ih =>
    have := raw_length_pos (i := i)
    rw [raws_cons, List.length_append, List.length_cons]; omega

/-- `StringValue::Parse` on a terminated text: success on a string token, or a status. -/
theorem parseString_total (t : Bytes) (ht : Term t) :
    (∃ tok s rest, DialStr tok s ∧ t = tok ++ rest ∧ Term rest ∧
      parseString t = .ok (.ok rest s)) ∨
    (∃ st p, parseString t = .ok (.err st p) ∧ Adv t p ∧
      ((st = .kExpectedBeginingDoubleQuotes ∧ p = t ∧ ∀ s, t ≠ 34 :: s) ∨
       (st = .kPrematureNullTerminator ∨ st = .kStringIllegalChar ∨ st = .kStringIllegalEscape) ∧
        t = 34 :: p)) := by
  obtain ⟨c, s, rfl⟩ := ht.ne_nil
  by_cases hc : c = 34
  · subst hc
    have hs : Term s := ht.tail (by decide)
    obtain ⟨is, r, st, his, e, hr, hst, hm, hw⟩ := passes_total (s.length + 1) s hs (by omega)
    unfold parseString
    simp only [rd_cons_zero, Out.ok_bind, List.drop_one, List.tail_cons, hm, hw]
    rcases hst with ⟨rfl, r', rfl⟩ | ⟨hst, hr34⟩
    · left
      refine ⟨34 :: (raws is ++ [34]), utf8s (plainCodes is), r', ⟨is, his, rfl, rfl⟩, ?_, ?_, ?_⟩
      · rw [e]; simp
      · exact hr.tail (by decide)
      · rw [if_neg (by simp), if_neg (by simp), if_neg (by simp), if_pos (by trivial)]
        rw [e]
        simp [List.drop_left, rd_cons_zero]
    · right
      refine ⟨st, s, ?_, Adv.cons s (by decide), .inr ⟨hst, rfl⟩⟩
      rw [if_neg (by simp), if_pos]
      rcases hst with rfl | rfl | rfl <;> decide
  · right
    refine ⟨_, _, ?_, Adv.refl _, .inl ⟨rfl, rfl, ?_⟩⟩
    · unfold parseString
      simp only [rd_cons_zero, Out.ok_bind]
      rw [if_pos hc]
    · intro s' e; cases e; exact hc rfl

/-- `StringValue::Parse` on a string token. -/
theorem parseString_complete (tok s rest : Bytes) (h : DialStr tok s) (hr : Term rest) :
    parseString (tok ++ rest) = .ok (.ok rest s) := by
  obtain ⟨is, his, rfl, rfl⟩ := h
  have e : (0x22 :: ((is.map SItem.raw).flatten ++ [0x22])) ++ rest =
      34 :: (raws is ++ 34 :: rest) := by simp [raws]
  rw [e]
  have hlen := raws_length is
  have hp := fun tl cnt out => passes_complete is his rest hr ((raws is ++ 34 :: rest).length + 1)
    (by simp only [List.length_append, List.length_cons]; omega) tl cnt out
  unfold parseString
  simp only [rd_cons_zero, Out.ok_bind, List.drop_one, List.tail_cons, (hp _ _ []).1, (hp _ 0 _).2]
  rw [if_neg (by simp), if_neg (by simp), if_neg (by simp), if_pos (by trivial)]
  simp [List.drop_left, rd_cons_zero]

theorem _root_.Verif.Spec.DialStr.nul_free {tok s : Bytes} (h : DialStr tok s) : (0 : Byte) ∉ tok := by
  obtain ⟨is, his, rfl, -⟩ := h
  have := raws_nul_free his
  simp only [List.mem_cons, List.mem_append, not_or]
  exact ⟨by decide, this, by simp⟩

theorem _root_.Verif.Spec.DialStr.head {tok s : Bytes} (h : DialStr tok s) : ∃ r, tok = 34 :: r := by
  obtain ⟨is, his, rfl, -⟩ := h
  exact ⟨_, rfl⟩

end Verif.Parser
