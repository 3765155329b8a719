import Verif.Model.Parser32
import Verif.Lemmas.Stack

/-!
# The parser with 32-bit integers

`all_same`: on texts that are not too long, the parser with 32-bit integers is the one with unbounded numbers.
-/

namespace Verif.Parser32

open Verif Verif.Text Verif.Map Verif.Number Verif.Parser Verif.Spec

variable {D : Type}

theorem i32_ok {n : Nat} (h : n < 2 ^ 31) : i32 n = .ok n := if_pos h

theorem bind_congr {α β : Type} {a : Out α} {f g : α → Out β} (h : ∀ x, a = .ok x → f x = g x) : (a >>= f) = (a >>= g) := by
  cases a with
  | ok x => exact h x rfl
  | ub => rfl
  | fuel => rfl

theorem ite_congr' {α : Type} {c : Prop} [Decidable c] {a b a' b' : α} (h1 : c → a = a') (h2 : ¬ c → b = b') :
    (if c then a else b) = (if c then a' else b') := by
  by_cases h : c
  · rw [if_pos h, if_pos h]; exact h1 h
  · rw [if_neg h, if_neg h]; exact h2 h

theorem skipWs_same {t : Bytes} (h : t.length < 2 ^ 31) : skipWs t = Parser.skipWs t := by
  unfold skipWs
  cases hr : Parser.skipWs t with
  | ok r =>
    simp only [Out.ok_bind]
    rw [i32_ok (by omega)]
    rfl
  | ub => rfl
  | fuel => rfl

theorem spanFloat_length {t run rest : Bytes} (h : spanFloat t = .ok (run, rest)) : run.length + rest.length = t.length := by
  induction t generalizing run with
  | nil => cases h
  | cons c t ih =>
    rw [spanFloat] at h
    split at h
    · rw [Out.bind_eq_ok] at h
      obtain ⟨⟨run', rest'⟩, h1, h⟩ := h
      cases h
      have := ih h1
      simp only [List.length_cons]
      omega
    · cases h
      simp

theorem validate_le {t : Bytes} {len : Nat} (h : validateUnicodeChar t = .ok len) : len ≤ 4 := by
  unfold validateUnicodeChar at h
  simp only [Out.bind_eq_ok] at h
  obtain ⟨c, -, h⟩ := h
  split at h
  · cases h; omega
  split at h
  · simp only [Out.bind_eq_ok] at h
    obtain ⟨b2, -, h⟩ := h
    split at h
    · split at h
      · cases h; omega
      · simp only [Out.bind_eq_ok] at h
        obtain ⟨b3, -, h⟩ := h
        split at h
        · split at h
          · split at h <;> (cases h; omega)
          · simp only [Out.bind_eq_ok] at h
            obtain ⟨b4, -, h⟩ := h
            split at h
            · split at h <;> (cases h; omega)
            · cases h; omega
        · cases h; omega
    · cases h; omega
  · cases h; omega

theorem escapeMeasure_le {t : Bytes} {a b : Nat} (h : escapeMeasure t = .ok (a, b)) : a ≤ 5 ∧ b ≤ a := by
  unfold escapeMeasure at h
  rw [Out.bind_eq_ok] at h
  obtain ⟨c, -, h⟩ := h
  split at h
  · rw [Out.bind_eq_ok] at h
    obtain ⟨code, -, h⟩ := h
    cases code with
    | none => cases h; omega
    | some code =>
      simp only at h
      split at h
      · injection h with h
        injection h with h1 h2
        subst h1 h2
        refine ⟨Nat.le_refl _, ?_⟩
        split <;> split <;> omega
      · cases h; omega
  · split at h
    · cases h; omega
    · cases h; omega

theorem escapeWrite_le {t : Bytes} {a : Nat} {b : Bytes} (h : escapeWrite t = .ok (a, b)) : a ≤ 5 ∧ b.length ≤ 1 + a := by
  unfold escapeWrite at h
  rw [Out.bind_eq_ok] at h
  obtain ⟨c, -, h⟩ := h
  split at h
  · rw [Out.bind_eq_ok] at h
    obtain ⟨code, -, h⟩ := h
    cases code with
    | none => cases h; exact ⟨by omega, by simp⟩
    | some code =>
      simp only at h
      split at h
      · injection h with h
        injection h with h1 h2
        subst h1 h2
        refine ⟨Nat.le_refl _, ?_⟩
        unfold writeUnicodeChar
        split
        · simp
        · split
          · simp
          · split
            · simp
            · split <;> simp
      · cases h; exact ⟨by omega, by simp⟩
  · split at h
    · cases h; exact ⟨by omega, by simp⟩
    · cases h; exact ⟨by omega, by simp⟩

theorem rd_ne_nil {t : Bytes} {c : Byte} (h : rd t 0 = .ok c) : 0 < t.length := by
  cases t with
  | nil => cases h
  | cons => simp

theorem measure_nil (n tl c : Nat) : Parser.measureString n [] tl c = .ub ∨ Parser.measureString n [] tl c = .fuel := by
  cases n with
  | zero => exact .inr rfl
  | succ n => exact .inl rfl

theorem measure_same (n : Nat) : ∀ (t : Bytes) (tl c : Nat), c ≤ tl → (t = [] ∨ tl + t.length + 8 < 2 ^ 31) →
    measureString n t tl c = Parser.measureString n t tl c := by
  induction n with
  | zero => intros; rfl
  | succ n ih =>
    intro t tl c hc h
    simp only [measureString, Parser.measureString]
    refine bind_congr fun b hb => ?_
    have ht := rd_ne_nil hb
    have h : tl + t.length + 8 < 2 ^ 31 := h.resolve_left fun e => by rw [e] at ht; simp at ht
    refine ite_congr' (fun _ => rfl) fun _ => ite_congr' (fun _ => ?_) fun _ => ite_congr' (fun _ => rfl) fun _ =>
      ite_congr' (fun _ => ?_) fun _ => ?_
    · rw [i32_ok (by omega)]; rfl
    · refine bind_congr fun len hl => ite_congr' (fun _ => rfl) fun _ => ?_
      have := validate_le hl
      rw [i32_ok (by omega)]
      refine ih _ _ _ (by omega) ?_
      by_cases hd : len < t.length
      · right; rw [List.length_drop]; omega
      · left; exact List.drop_eq_nil_of_le (by omega)
    · refine bind_congr fun ⟨a, b⟩ hl => ite_congr' (fun _ => rfl) fun _ => ?_
      obtain ⟨h1, h2⟩ := escapeMeasure_le hl
      rw [i32_ok (by omega)]
      refine ih _ _ _ (by omega) ?_
      by_cases hd : 1 + a < t.length
      · right; rw [List.length_drop]; omega
      · left; exact List.drop_eq_nil_of_le (by omega)

theorem write_same (n : Nat) : ∀ (t : Bytes) (tl : Nat) (out : Bytes), out.length ≤ tl → (t = [] ∨ tl + t.length + 8 < 2 ^ 31) →
    writeString n t tl out = Parser.writeString n t tl out := by
  induction n with
  | zero => intros; rfl
  | succ n ih =>
    intro t tl c hc h
    simp only [writeString, Parser.writeString]
    refine bind_congr fun b hb => ?_
    have ht := rd_ne_nil hb
    have h : tl + t.length + 8 < 2 ^ 31 := h.resolve_left fun e => by rw [e] at ht; simp at ht
    refine ite_congr' (fun _ => rfl) fun _ => ite_congr' (fun _ => ?_) fun _ => ite_congr' (fun _ => rfl) fun _ =>
      ite_congr' (fun _ => ?_) fun _ => ?_
    · rw [i32_ok (by omega)]; rfl
    · refine bind_congr fun len hl => ite_congr' (fun _ => rfl) fun _ => ite_congr' (fun _ => rfl) fun hlen => ?_
      have := validate_le hl
      rw [i32_ok (by omega)]
      refine ih _ _ _ (by rw [List.length_append, List.length_take]; omega) ?_
      by_cases hd : len < t.length
      · right; rw [List.length_drop]; omega
      · left; exact List.drop_eq_nil_of_le (by omega)
    · refine bind_congr fun ⟨a, b⟩ hl => ite_congr' (fun _ => rfl) fun _ => ?_
      obtain ⟨h1, h2⟩ := escapeWrite_le hl
      dsimp only
      rw [i32_ok (by omega)]
      refine ih _ _ _ (by rw [List.length_append]; omega) ?_
      by_cases hd : 1 + a < t.length
      · right; rw [List.length_drop]; omega
      · left; exact List.drop_eq_nil_of_le (by omega)

/-- The length of a string is at most that of its text, which ends before the quote. -/
theorem measure_bound (n : Nat) : ∀ (t : Bytes) (tl c tl' c' : Nat), c ≤ tl →
    Parser.measureString n t tl c = .ok (.kOk, tl', c') → c' ≤ tl' ∧ tl' + 1 ≤ tl + t.length := by
  induction n with
  | zero => intro t tl c tl' c' _ h; cases h
  | succ n ih =>
    intro t tl c tl' c' hc h
    simp only [Parser.measureString, Out.bind_eq_ok] at h
    obtain ⟨b, hb, h⟩ := h
    have ht := rd_ne_nil hb
    have step : ∀ k m, m ≤ k → Parser.measureString n (t.drop k) (tl + k) (c + m) = .ok (.kOk, tl', c') →
        c' ≤ tl' ∧ tl' + 1 ≤ tl + t.length := by
      intro k m hm h
      have := ih _ _ _ _ _ (by omega) h
      by_cases hd : k < t.length
      · rw [List.length_drop] at this; omega
      · rw [List.drop_eq_nil_of_le (by omega)] at h
        rcases measure_nil n (tl + k) (c + m) with e | e <;> (rw [e] at h; cases h)
    split at h
    · cases h
    split at h
    · cases h; omega
    split at h
    · cases h
    split at h
    · rw [Out.bind_eq_ok] at h
      obtain ⟨len, hl, h⟩ := h
      split at h
      · cases h
      · exact step len len (Nat.le_refl _) h
    · rw [Out.bind_eq_ok] at h
      obtain ⟨⟨a, b⟩, hl, h⟩ := h
      have := escapeMeasure_le hl
      simp only at h
      split at h
      · cases h
      · rw [Nat.add_assoc] at h
        exact step (1 + a) b (by omega) h

theorem room_ok {size : Nat} (h : size + 67 < 2 ^ 31) : room size = true := by
  unfold room getPhysicalSize
  rw [Nat.mod_eq_of_lt (by omega)]
  exact decide_eq_true (.inr (by omega))

theorem parseString_len {t rest s : Bytes} (h : Parser.parseString t = .ok (.ok rest s)) :
    s.length + 2 ≤ t.length ∧ rest.length < t.length := by
  unfold Parser.parseString at h
  simp only [Out.bind_eq_ok] at h
  obtain ⟨b, hb, h⟩ := h
  have ht := rd_ne_nil hb
  split at h
  · cases h
  simp only [Out.bind_eq_ok] at h
  obtain ⟨⟨st, tl, c⟩, hm, h⟩ := h
  simp only at h
  split at h
  · cases h
  rename_i hst
  rw [Out.bind_eq_ok] at h
  obtain ⟨⟨st', tl', out⟩, hw, h⟩ := h
  simp only at h
  split at h
  · cases h
  rename_i hout
  rw [Out.bind_eq_ok] at h
  obtain ⟨b, hb, h⟩ := h
  split at h
  · cases h
  cases h
  have hst : st = .kOk := Classical.not_not.1 hst
  have hout : s.length = c := Classical.not_not.1 hout
  subst hst
  obtain ⟨h1, h2⟩ := measure_bound _ _ _ _ _ _ (Nat.le_refl _) hm
  rw [List.length_drop] at h2
  refine ⟨by omega, ?_⟩
  simp only [List.length_drop]
  omega

theorem parseString_same {t : Bytes} (h : t.length + 66 < 2 ^ 31) : parseString t = Parser.parseString t := by
  unfold parseString Parser.parseString
  refine bind_congr fun b hb => ite_congr' (fun _ => rfl) fun _ => ?_
  have ht := rd_ne_nil hb
  simp only
  rw [measure_same _ _ _ _ (Nat.le_refl _) (.inr (by rw [List.length_drop]; omega))]
  refine bind_congr fun ⟨st, tl, c⟩ hm => ?_
  refine ite_congr' (fun _ => rfl) fun hst => ?_
  have hst : st = .kOk := Classical.not_not.1 hst
  subst hst
  obtain ⟨h1, h2⟩ := measure_bound _ _ _ _ _ _ (Nat.le_refl _) hm
  rw [List.length_drop] at h2
  have hs : setStringLength c = .ok true := by
    unfold setStringLength
    split
    · rw [i32_ok (by omega), Out.ok_bind, room_ok (by omega)]
    · rfl
  rw [hs, Out.ok_bind, if_pos rfl]
  rw [write_same _ _ 0 [] (Nat.le_refl _) (.inr (by rw [List.length_drop]; omega))]

theorem parseNumber_same (N : NumOps D) {t : Bytes} (h : t.length < 2 ^ 31) : parseNumber N t = Parser.parseNumber N t := by
  have hs : parseSign t = Parser.parseSign t := by
    unfold parseSign Parser.parseSign
    have hd : (t.drop 1).length < 2 ^ 31 := by rw [List.length_drop]; omega
    rw [skipWs_same hd]
  unfold parseNumber Parser.parseNumber
  rw [hs]
  refine bind_congr fun ⟨neg, t1⟩ h1 => ?_
  have l1 : t1.length ≤ t.length := by
    unfold Parser.parseSign at h1
    rw [Out.bind_eq_ok] at h1
    obtain ⟨c, -, h1⟩ := h1
    split at h1
    · rw [Out.bind_eq_ok] at h1
      obtain ⟨t2, h2, h1⟩ := h1
      cases h1
      have := (Stack.skipWs_suffix h2).length_le
      rw [List.length_drop] at this
      omega
    · split at h1
      · rw [Out.bind_eq_ok] at h1
        obtain ⟨t2, h2, h1⟩ := h1
        cases h1
        have := (Stack.skipWs_suffix h2).length_le
        rw [List.length_drop] at this
        omega
      · cases h1; exact Nat.le_refl _
  have hr : readDoubleLiteral N t1 = Parser.readDoubleLiteral N t1 := by
    unfold readDoubleLiteral Parser.readDoubleLiteral
    refine bind_congr fun ⟨run, rest⟩ h2 => ?_
    have := spanFloat_length h2
    simp only
    rw [i32_ok (by omega)]
    rfl
  dsimp only
  rw [hr]
  refine bind_congr fun r h2 => ?_
  cases r with
  | inl st => rfl
  | inr p =>
    obtain ⟨v, rest⟩ := p
    simp only
    have : rest.length ≤ t1.length := by
      unfold Parser.readDoubleLiteral at h2
      rw [Out.bind_eq_ok] at h2
      obtain ⟨⟨run, rest'⟩, h3, h2⟩ := h2
      simp only at h2
      have := spanFloat_length h3
      split at h2
      · cases h2
      · rw [Out.bind_eq_ok] at h2
        obtain ⟨lz, -, h2⟩ := h2
        split at h2
        · cases h2
        · split at h2
          · cases h2
          · cases h2; omega
    rw [skipWs_same (by omega)]

/-- If the computation succeeds, the parser has gone forward. -/
def Ahead {α : Type} (t : Bytes) (x : Out (PRes α)) : Prop := ∀ rest a, x = .ok (.ok rest a) → rest.length < t.length

theorem parseNumber_ahead (N : NumOps D) (t : Bytes) : Ahead t (Parser.parseNumber N t) := by
  intro rest a h
  unfold Parser.parseNumber at h
  rw [Out.bind_eq_ok] at h
  obtain ⟨⟨neg, t1⟩, h1, h⟩ := h
  dsimp only at h
  have l1 : t1.length ≤ t.length := by
    unfold Parser.parseSign at h1
    rw [Out.bind_eq_ok] at h1
    obtain ⟨c, -, h1⟩ := h1
    split at h1
    · rw [Out.bind_eq_ok] at h1
      obtain ⟨t2, h2, h1⟩ := h1
      cases h1
      have := (Stack.skipWs_suffix h2).length_le
      rw [List.length_drop] at this
      omega
    · split at h1
      · rw [Out.bind_eq_ok] at h1
        obtain ⟨t2, h2, h1⟩ := h1
        cases h1
        have := (Stack.skipWs_suffix h2).length_le
        rw [List.length_drop] at this
        omega
      · cases h1; exact Nat.le_refl _
  rw [Out.bind_eq_ok] at h
  obtain ⟨r, h2, h⟩ := h
  cases r with
  | inl st => cases h
  | inr p =>
    obtain ⟨v, rest1⟩ := p
    dsimp only at h
    rw [Out.bind_eq_ok] at h
    obtain ⟨rest2, h4, h⟩ := h
    cases h
    have := (Stack.skipWs_suffix h4).length_le
    unfold Parser.readDoubleLiteral at h2
    rw [Out.bind_eq_ok] at h2
    obtain ⟨⟨run, rest'⟩, h3, h2⟩ := h2
    dsimp only at h2
    have := spanFloat_length h3
    split at h2
    · cases h2
    · rw [Out.bind_eq_ok] at h2
      obtain ⟨lz, -, h2⟩ := h2
      split at h2
      · cases h2
      · split at h2
        · cases h2
        · cases h2; omega

theorem matchWord_ne {w : Byte} {ws t : Bytes} {b : Bool} (h : matchWord (w :: ws) t = .ok b) : 0 < t.length := by
  cases t with
  | nil => cases h
  | cons => simp

theorem parseBool_ahead (t : Bytes) : Ahead t (parseBool t) := by
  intro rest a h
  unfold parseBool at h
  rw [Out.bind_eq_ok] at h
  obtain ⟨m, hm, h⟩ := h
  have := matchWord_ne hm
  split at h
  · cases h; rw [List.length_drop]; omega
  · rw [Out.bind_eq_ok] at h
    obtain ⟨m, hm, h⟩ := h
    split at h
    · cases h; rw [List.length_drop]; omega
    · cases h

theorem parseNull_ahead (t : Bytes) : Ahead t (parseNull t) := by
  intro rest a h
  unfold parseNull at h
  rw [Out.bind_eq_ok] at h
  obtain ⟨m, hm, h⟩ := h
  have := matchWord_ne hm
  split at h
  · cases h; rw [List.length_drop]; omega
  · cases h

theorem skip_drop {t r : Bytes} (h : Parser.skipWs (t.drop 1) = .ok r) : r.length < t.length := by
  have h1 := (Stack.skipWs_suffix h).length_le
  rw [List.length_drop] at h1
  cases t with
  | nil => cases h
  | cons c t => simp only [List.length_cons] at h1 ⊢; omega

theorem append_ok {count reserved : Nat} (h : 2 * count + 66 < 2 ^ 31) : ∃ r, append count reserved = .ok r := by
  unfold append setReservedCount
  rw [i32_ok (n := count + 1) (by omega)]
  by_cases hc : count ≥ reserved
  · rw [if_pos hc]
    simp only [Out.ok_bind]
    rw [i32_ok (n := reserved / 2 + 3) (by omega)]
    simp only [Out.ok_bind]
    rw [i32_ok (by omega)]
    exact ⟨_, rfl⟩
  · rw [if_neg hc]
    exact ⟨_, rfl⟩

theorem arrayLoop_ahead (N : NumOps D) (n : Nat) (t : Bytes) (acc : List (Value D)) :
    Ahead t (Parser.arrayLoop N n t acc) := by
  intro rest a h
  cases n with
  | zero => cases h
  | succ n =>
    rw [arrayLoop_succ] at h
    rw [Out.bind_eq_ok] at h
    obtain ⟨t1, h1, h⟩ := h
    have l1 := skip_drop h1
    have hw : Stack.Within t1 (.ok (.ok rest a)) := by
      rw [← h]
      refine Stack.Within.bind fun c _ => Stack.Within.ite (fun _ => Stack.Within.ite (fun _ => Stack.Within.ok (List.suffix_refl _))
        fun _ => Stack.Within.ok (List.drop_suffix _ _)) fun _ => Stack.Within.bind fun r h => ?_
      have hr := (Stack.all_suffix N n).1 t1 r h
      rcases r with ⟨rest, v⟩ | ⟨status, pos⟩
      · refine Stack.Within.bind fun t2 h2 => Stack.Within.bind fun c _ => ?_
        have s2 := (Stack.skipWs_suffix h2).trans hr
        refine Stack.Within.ite (fun _ => Stack.Within.ite (fun _ => Stack.Within.ok s2) fun _ =>
          Stack.Within.ok ((List.drop_suffix _ _).trans s2)) fun _ => ?_
        exact fun r hr => ((Stack.all_suffix N n).2.2.1 _ _ r hr).trans s2
      · exact Stack.Within.ok hr
    have := (hw _ rfl).length_le
    simp only [Stack.textOf] at this
    omega

theorem objectLoop_ahead (N : NumOps D) (n : Nat) (t : Bytes) (m : Tree Bytes (Value D)) (order : List Bytes) :
    Ahead t (Parser.objectLoop N n t m order) := by
  intro rest a h
  cases n with
  | zero => cases h
  | succ n =>
    rw [objectLoop_succ] at h
    rw [Out.bind_eq_ok] at h
    obtain ⟨t1, h1, h⟩ := h
    have l1 := skip_drop h1
    have hw : Stack.Within t1 (.ok (.ok rest a)) := by
      rw [← h]
      refine Stack.Within.bind fun c _ => Stack.Within.ite (fun _ => Stack.Within.ite (fun _ => Stack.Within.ok (List.suffix_refl _))
        fun _ => Stack.Within.ok (List.drop_suffix _ _)) fun _ => Stack.Within.bind fun r h => ?_
      have hr := Stack.parseString_within t1 r h
      rcases r with ⟨rest, name⟩ | ⟨status, pos⟩
      · refine Stack.Within.bind fun t2 h2 => Stack.Within.bind fun c _ => ?_
        have s2 := (Stack.skipWs_suffix h2).trans hr
        refine Stack.Within.ite (fun _ => Stack.Within.ok s2) fun _ => Stack.Within.bind fun t3 h3 => Stack.Within.bind fun r h => ?_
        have s3 := (Stack.skipWs_suffix h3).trans ((List.drop_suffix _ _).trans s2)
        have hr := ((Stack.all_suffix N n).1 t3 r h).trans s3
        rcases r with ⟨rest, v⟩ | ⟨status, pos⟩
        · refine Stack.Within.bind fun ⟨m', order'⟩ _ => Stack.Within.bind fun t4 h4 => Stack.Within.bind fun c _ => ?_
          have s4 := (Stack.skipWs_suffix h4).trans hr
          refine Stack.Within.ite (fun _ => Stack.Within.ite (fun _ => Stack.Within.ok s4) fun _ =>
            Stack.Within.ok ((List.drop_suffix _ _).trans s4)) fun _ => ?_
          exact fun r hr => ((Stack.all_suffix N n).2.2.2.2 _ _ _ r hr).trans s4
        · exact Stack.Within.ok hr
      · exact Stack.Within.ok hr
    have := (hw _ rfl).length_le
    simp only [Stack.textOf] at this
    omega

theorem parseArray_ahead (N : NumOps D) (n : Nat) (t : Bytes) : Ahead t (Parser.parseArray N n t) := by
  intro rest a h
  cases n with
  | zero => cases h
  | succ n =>
    rw [parseArray_succ, Out.bind_eq_ok] at h
    obtain ⟨c, -, h⟩ := h
    split at h
    · cases h
    · exact arrayLoop_ahead N n t [] rest a h

theorem parseObject_ahead (N : NumOps D) (n : Nat) (t : Bytes) : Ahead t (Parser.parseObject N n t) := by
  intro rest a h
  cases n with
  | zero => cases h
  | succ n =>
    rw [parseObject_succ, Out.bind_eq_ok] at h
    obtain ⟨c, -, h⟩ := h
    split at h
    · cases h
    · exact objectLoop_ahead N n t .nil [] rest a h

theorem parseAny_ahead (N : NumOps D) (n : Nat) (t : Bytes) : Ahead t (Parser.parseAny N n t) := by
  intro rest a h
  cases n with
  | zero => cases h
  | succ n =>
    rw [parseAny_succ, Out.bind_eq_ok] at h
    obtain ⟨r, h1, h⟩ := h
    rcases r with ⟨rest, s⟩ | ⟨status, pos⟩
    · cases h; exact (parseString_len h1).2
    dsimp only at h
    split at h
    · cases h
    rw [Out.bind_eq_ok] at h
    obtain ⟨r, h1, h⟩ := h
    rcases r with ⟨rest, s⟩ | ⟨status, pos⟩
    · cases h; exact parseNumber_ahead N t _ _ h1
    dsimp only at h
    split at h
    · cases h
    rw [Out.bind_eq_ok] at h
    obtain ⟨r, h1, h⟩ := h
    rcases r with ⟨rest, s⟩ | ⟨status, pos⟩
    · cases h; exact parseBool_ahead t _ _ h1
    dsimp only at h
    rw [Out.bind_eq_ok] at h
    obtain ⟨r, h1, h⟩ := h
    rcases r with ⟨rest, s⟩ | ⟨status, pos⟩
    · cases h; exact parseNull_ahead t _ _ h1
    dsimp only at h
    rw [Out.bind_eq_ok] at h
    obtain ⟨r, h1, h⟩ := h
    rcases r with ⟨rest, s⟩ | ⟨status, pos⟩
    · cases h; exact parseArray_ahead N n t _ _ h1
    have hp := ((Stack.all_suffix N n).2.1 t _ h1).length_le
    simp only [Stack.textOf] at hp
    dsimp only at h
    split at h
    · cases h
    rw [Out.bind_eq_ok] at h
    obtain ⟨r, h1, h⟩ := h
    rcases r with ⟨rest, s⟩ | ⟨status, pos⟩
    · cases h
      have := parseObject_ahead N n pos _ _ h1
      omega
    dsimp only at h
    split at h <;> cases h

/-- On texts that are not too long, the parser with 32-bit integers is the one with unbounded numbers. -/
theorem all_same (N : NumOps D) (n : Nat) :
    (∀ t, t.length + 66 < 2 ^ 31 → parseAny N n t = Parser.parseAny N n t) ∧
    (∀ t, t.length + 66 < 2 ^ 31 → parseArray N n t = Parser.parseArray N n t) ∧
    (∀ t acc r, 2 * acc.length + t.length + 66 < 2 ^ 31 → arrayLoop N n t acc r = Parser.arrayLoop N n t acc) ∧
    (∀ t, t.length + 66 < 2 ^ 31 → parseObject N n t = Parser.parseObject N n t) ∧
    (∀ t m order r, 2 * order.length + t.length + 66 < 2 ^ 31 →
      objectLoop N n t m order r = Parser.objectLoop N n t m order) := by
  induction n with
  | zero => refine ⟨?_, ?_, ?_, ?_, ?_⟩ <;> intros <;> rfl
  | succ n ih =>
    obtain ⟨ih1, ih2, ih3, ih4, ih5⟩ := ih
    refine ⟨?_, ?_, ?_, ?_, ?_⟩
    · intro t ht
      simp only [parseAny, Parser.parseAny]
      rw [parseString_same ht]
      refine bind_congr fun r _ => ?_
      rcases r with ⟨rest, s⟩ | ⟨status, pos⟩
      · rfl
      refine ite_congr' (fun _ => rfl) fun _ => ?_
      rw [parseNumber_same N (by omega)]
      refine bind_congr fun r _ => ?_
      rcases r with ⟨rest, s⟩ | ⟨status, pos⟩
      · rfl
      refine ite_congr' (fun _ => rfl) fun _ => bind_congr fun r _ => ?_
      rcases r with ⟨rest, s⟩ | ⟨status, pos⟩
      · rfl
      refine bind_congr fun r _ => ?_
      rcases r with ⟨rest, s⟩ | ⟨status, pos⟩
      · rfl
      dsimp only
      rw [ih2 t ht]
      refine bind_congr fun r hr => ?_
      rcases r with ⟨rest, s⟩ | ⟨status, pos⟩
      · rfl
      have hp := ((Stack.all_suffix N n).2.1 t _ hr).length_le
      simp only [Stack.textOf] at hp
      refine ite_congr' (fun _ => rfl) fun _ => ?_
      rw [ih4 pos (by omega)]
      refine bind_congr fun r hr => ?_
      rcases r with ⟨rest, s⟩ | ⟨status, pos⟩ <;> rfl
    · intro t ht
      simp only [parseArray, Parser.parseArray]
      exact bind_congr fun c _ => ite_congr' (fun _ => rfl) fun _ => ih3 t [] 0 (by simpa using ht)
    · intro t acc r ht
      simp only [arrayLoop, Parser.arrayLoop]
      rw [skipWs_same (by rw [List.length_drop]; omega)]
      refine bind_congr fun t1 h1 => bind_congr fun c _ => ite_congr' (fun _ => rfl) fun _ => ?_
      have l1 := skip_drop h1
      rw [ih1 t1 (by omega)]
      refine bind_congr fun res hr => ?_
      rcases res with ⟨rest, v⟩ | ⟨status, pos⟩
      · have l2 := parseAny_ahead N n t1 _ _ hr
        obtain ⟨r', hr'⟩ := append_ok (count := acc.length) (reserved := r) (by omega)
        dsimp only
        rw [hr', Out.ok_bind, skipWs_same (by omega)]
        refine bind_congr fun t2 h2 => bind_congr fun c _ => ite_congr' (fun _ => ite_congr' (fun _ => rfl) fun _ => rfl) fun _ => ?_
        have l3 := (Stack.skipWs_suffix h2).length_le
        exact ih3 t2 _ _ (by rw [List.length_append, List.length_singleton]; omega)
      · rfl
    · intro t ht
      simp only [parseObject, Parser.parseObject]
      exact bind_congr fun c _ => ite_congr' (fun _ => rfl) fun _ => ih5 t .nil [] 0 (by simpa using ht)
    · intro t m order r ht
      simp only [objectLoop, Parser.objectLoop]
      rw [skipWs_same (by rw [List.length_drop]; omega)]
      refine bind_congr fun t1 h1 => bind_congr fun c _ => ite_congr' (fun _ => rfl) fun _ => ?_
      have l1 := skip_drop h1
      rw [parseString_same (by omega)]
      refine bind_congr fun res hr => ?_
      rcases res with ⟨rest, name⟩ | ⟨status, pos⟩
      · obtain ⟨ln, l2⟩ := parseString_len hr
        dsimp only
        rw [skipWs_same (by omega)]
        refine bind_congr fun t2 h2 => bind_congr fun c _ => ite_congr' (fun _ => rfl) fun _ => ?_
        have l3 := (Stack.skipWs_suffix h2).length_le
        rw [skipWs_same (by rw [List.length_drop]; omega)]
        refine bind_congr fun t3 h3 => ?_
        have l4 := skip_drop h3
        rw [ih1 t3 (by omega)]
        refine bind_congr fun res hr => ?_
        rcases res with ⟨rest, v⟩ | ⟨status, pos⟩
        · have l5 := parseAny_ahead N n t3 _ _ hr
          obtain ⟨r', hr'⟩ := append_ok (count := order.length) (reserved := r) (by omega)
          dsimp only
          rw [room_ok (by omega), if_pos rfl, hr', Out.ok_bind]
          refine bind_congr fun ⟨m', order'⟩ hi => ?_
          dsimp only
          rw [skipWs_same (by omega)]
          refine bind_congr fun t4 h4 => bind_congr fun c _ => ite_congr' (fun _ => ite_congr' (fun _ => rfl) fun _ => rfl) fun _ => ?_
          have l6 := (Stack.skipWs_suffix h4).length_le
          have : order'.length = order.length + 1 := by
            unfold insertAccounted at hi
            split at hi
            · cases hi
            · cases hi; simp
          exact ih5 t4 _ _ _ (by omega)
        · rfl
      · rfl

theorem scanBack_same : ∀ (back : Bytes) (line column : Nat), line + back.length < 2 ^ 31 → column + back.length < 2 ^ 31 →
    scanBack back line column = .ok (Parser.scanBack back line column)
  | [], _, _, _, _ => rfl
  | c :: back, line, column, h1, h2 => by
    simp only [List.length_cons] at h1 h2
    simp only [scanBack, Parser.scanBack]
    have e : (if c = 10 then i32 (line + 1) else .ok line) = .ok (if c = 10 then line + 1 else line) := by
      split
      · exact i32_ok (by omega)
      · rfl
    have hx : (if (if c = 10 then line + 1 else line) = 1 then 1 else 0) ≤ 1 := by
      by_cases h : (if c = 10 then line + 1 else line) = 1
      · rw [if_pos h]; exact Nat.le_refl 1
      · rw [if_neg h]; exact Nat.zero_le 1
    rw [e, Out.ok_bind, i32_ok (by omega), Out.ok_bind]
    exact scanBack_same back _ _ (by split <;> omega) (by omega)

theorem parseRoot_same (N : NumOps D) (fuel : Nat) (buf : Bytes) (h : buf.length + 66 < 2 ^ 31) :
    parseRoot N fuel buf = Parser.parseRoot N fuel buf := by
  unfold parseRoot Parser.parseRoot
  refine ite_congr' (fun _ => rfl) fun _ => bind_congr fun last _ => ite_congr' (fun _ => rfl) fun _ => ?_
  rw [skipWs_same (by omega)]
  refine bind_congr fun start hs => ?_
  have l1 := (Stack.skipWs_suffix hs).length_le
  rw [(all_same N fuel).1 start (by omega)]
  refine bind_congr fun r hr => ?_
  have l2 := ((Stack.all_suffix N fuel).1 start r hr).length_le
  have key : ∀ (status : Status) (root : Option (Value D)) (text : Bytes), text.length ≤ start.length →
      (skipWs text >>= fun text => rd text 0 >>= fun c =>
        if (if status = .kOk ∧ c ≠ 0 then .kExpectedEndOfFile else status) ≠ .kOk then
          scanBack (start.take (start.length - text.length)).reverse 1 1 >>= fun (line, column) =>
          .ok ⟨if status = .kOk ∧ c ≠ 0 then .kExpectedEndOfFile else status, root, line, column⟩
        else .ok ⟨if status = .kOk ∧ c ≠ 0 then .kExpectedEndOfFile else status, root, 0, 0⟩ : Out (RootResult D)) =
      (Parser.skipWs text >>= fun text => rd text 0 >>= fun c =>
        if (if status = .kOk ∧ c ≠ 0 then .kExpectedEndOfFile else status) ≠ .kOk then
          let (line, column) := Parser.scanBack (start.take (start.length - text.length)).reverse 1 1
          .ok ⟨if status = .kOk ∧ c ≠ 0 then .kExpectedEndOfFile else status, root, line, column⟩
        else .ok ⟨if status = .kOk ∧ c ≠ 0 then .kExpectedEndOfFile else status, root, 0, 0⟩) := by
    intro status root text ht
    rw [skipWs_same (by omega)]
    refine bind_congr fun text' _ => bind_congr fun c _ => ite_congr' (fun _ => ?_) fun _ => rfl
    rw [scanBack_same _ _ _ (by rw [List.length_reverse, List.length_take]; omega)
      (by rw [List.length_reverse, List.length_take]; omega)]
    rfl
  rcases r with ⟨rest, v⟩ | ⟨status, pos⟩
  · exact key _ _ _ l2
  · exact key _ _ _ l2

end Verif.Parser32
