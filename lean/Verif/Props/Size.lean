import Verif.Lemmas.Parser32
import Verif.Model.Write32
import Verif.Props.WriteMem

/-!
# Properties of sizes that need more than 31 bits: C135, C136
-/

namespace Verif.Props

open Verif Verif.Map Verif.Text Verif.Number Verif.Parser Verif.Spec Verif.Doc

variable {D : Type}

/-! ## C135: large buffers -/

/-- **C135**, full statement: for every buffer, which is an `Array<char>` and therefore has less than 2^31 bytes, `Parse` with its
32-bit integers gives the result that it would give with unbounded integers. -/
def C135_statement : Prop :=
  ∀ (D : Type) (N : NumOps D) (root : Option (Value D)) (buf : Bytes), buf.length < 2 ^ 31 →
    Parser32.parseBuffer N root buf = Doc.parseBuffer N root buf

/-- A buffer with the string of `k` letters "a". -/
def letters (k : Nat) : Bytes := 34 :: (List.replicate k 97 ++ [34, 0])

theorem measure_letters (r : Bytes) (k : Nat) : ∀ (n tl c : Nat), k < n → tl + k < 2 ^ 31 → c + k < 2 ^ 31 →
    Parser32.measureString n (List.replicate k 97 ++ 34 :: r) tl c = .ok (.kOk, tl + k, c + k) := by
  induction k with
  | zero =>
    intro n tl c h1 h2 h3
    obtain ⟨m, rfl⟩ : ∃ m, n = m + 1 := ⟨n - 1, by omega⟩
    simp only [List.replicate_zero, List.nil_append, Parser32.measureString]
    rw [show rd (34 :: r) 0 = .ok 34 from rfl]
    simp only [Out.ok_bind]
    rw [if_neg (by decide), if_pos (by decide), Parser32.i32_ok (by omega)]
    rfl
  | succ k ih =>
    intro n tl c h1 h2 h3
    obtain ⟨m, rfl⟩ : ∃ m, n = m + 1 := ⟨n - 1, by omega⟩
    rw [List.replicate_succ, List.cons_append]
    simp only [Parser32.measureString]
    rw [show rd (97 :: (List.replicate k 97 ++ 34 :: r)) 0 = .ok 97 from rfl]
    simp only [Out.ok_bind]
    rw [if_neg (by decide), if_neg (by decide), if_neg (by decide), if_pos (by decide),
      show validateUnicodeChar (97 :: (List.replicate k 97 ++ 34 :: r)) = .ok 1 from rfl]
    simp only [Out.ok_bind]
    rw [if_neg (by decide), Parser32.i32_ok (by omega)]
    simp only [Out.ok_bind, List.drop_one, List.tail_cons]
    rw [ih m (tl + 1) (c + 1) (by omega) (by omega) (by omega)]
    congr 3 <;> omega

theorem letters_last (k : Nat) : rd (letters k) ((letters k).length - 1) = .ok 0 := by
  rw [show (letters k).length = k + 3 by simp [letters]]
  unfold rd letters
  have : (34 :: (List.replicate k 97 ++ [34, 0]) : Bytes)[k + 3 - 1]? = some 0 := by
    rw [show k + 3 - 1 = (k + 1) + 1 by omega, List.getElem?_cons_succ, List.getElem?_append_right (by simp)]
    simp
  rw [this]

theorem letters_refused (N : NumOps D) (k n : Nat) (h : k = 2 ^ 31 - 68) :
    Parser32.parseRoot N (n + 1) (letters k) = .ok ⟨.kException, none, 1, 2⟩ := by
  have hlen : (letters k).length = k + 3 := by simp [letters]
  obtain ⟨m, hm⟩ : ∃ m, k = m + 1 := ⟨k - 1, by omega⟩
  have hs : Parser32.parseString (letters k) = .ok (.err .kException (List.replicate k 97 ++ [34, 0])) := by
    unfold Parser32.parseString letters
    simp only [rd_cons_zero, Out.ok_bind]
    rw [if_neg (by decide)]
    simp only [List.drop_one, List.tail_cons]
    rw [measure_letters [0] k _ 0 0 (by simp; omega) (by omega) (by omega)]
    simp only [Out.ok_bind, Nat.zero_add]
    rw [if_neg (by decide)]
    have : Parser32.setStringLength k = .ok false := by
      unfold Parser32.setStringLength Parser32.room Parser32.getPhysicalSize
      rw [if_pos (by omega), Parser32.i32_ok (by omega), Out.ok_bind, Nat.mod_eq_of_lt (by omega)]
      congr 1
      refine decide_eq_false ?_
      omega
    rw [this]
    rfl
  have hskip : Parser32.skipWs (letters k) = .ok (letters k) := by
    rw [Parser32.skipWs_same (by omega)]
    exact skipWs_stop (by decide)
  have hskip' : Parser32.skipWs (List.replicate k 97 ++ [34, 0]) = .ok (List.replicate k 97 ++ [34, 0]) := by
    rw [Parser32.skipWs_same (by simp; omega), hm, List.replicate_succ]
    exact skipWs_stop (by decide)
  unfold Parser32.parseRoot
  rw [if_neg (by omega), letters_last]
  simp only [Out.ok_bind]
  rw [if_neg (by decide), hskip]
  simp only [Out.ok_bind, Parser32.parseAny, hs]
  rw [if_pos (by decide)]
  simp only [Out.ok_bind, hskip']
  have hrd : rd (List.replicate k 97 ++ [34, 0]) 0 = .ok 97 := by rw [hm, List.replicate_succ]; rfl
  rw [hrd]
  simp only [Out.ok_bind]
  rw [if_pos (by decide)]
  have ht : (letters k).take ((letters k).length - (List.replicate k (97 : Byte) ++ [34, 0]).length) = [34] := by
    have : (letters k).length - (List.replicate k (97 : Byte) ++ [34, 0]).length = 1 := by
      rw [hlen, List.length_append, List.length_replicate]
      show k + 3 - (k + 2) = 1
      omega
    rw [this]
    rfl
  rw [ht]
  rfl

/-- A string of 2^31 - 68 letters is refused with `kException`, however much memory there is. -/
theorem C135_refused (N : NumOps D) (k : Nat) (h : k = 2 ^ 31 - 68) (root : Option (Value D)) :
    Parser32.parseBuffer N root (letters k) = .ok (⟨.kException, 1, 2⟩, none) := by
  have hlen : (letters k).length = k + 3 := by simp [letters]
  unfold Parser32.parseBuffer
  rw [if_neg (by omega), letters_last]
  simp only [Out.ok_bind]
  rw [if_neg (by decide), show parseFuel (letters k) = (3 * (letters k).length + 2) + 1 from rfl, letters_refused N k _ h]
  rfl

theorem C135_violated : ¬ C135_statement := by
  intro h
  obtain ⟨k, hk⟩ : ∃ k, k = 2 ^ 31 - 68 := ⟨_, rfl⟩
  have e := h _ decOps none (letters k) (by rw [show (letters k).length = k + 3 by simp [letters]]; omega)
  rw [C135_refused decOps k hk] at e
  have := status_set decOps decOps_neg none (letters k) _ _ e.symm
  revert this
  decide

/-- **C135**, partial: buffers of up to 2^31 - 67 bytes; none of them makes an integer overflow. Missing: the last 66 sizes, where
strings are refused for which there is memory. -/
theorem C135_large_partial (N : NumOps D) (root : Option (Value D)) (buf : Bytes) (h : buf.length + 66 < 2 ^ 31) :
    Parser32.parseBuffer N root buf = Doc.parseBuffer N root buf ∧
      (NegLaw N → ∃ res root', Parser32.parseBuffer N root buf = .ok (res, root')) := by
  have e : Parser32.parseBuffer N root buf = Doc.parseBuffer N root buf := by
    unfold Parser32.parseBuffer Doc.parseBuffer
    rw [Parser32.parseRoot_same N _ buf h]
  exact ⟨e, fun hN => by rw [e]; exact C02_parse_returns N hN root buf⟩

example : Parser32.parseBuffer decOps none [0x5B, 0x22, 0x61, 0x22, 0x2C, 0x31, 0x5D, 0] =
    .ok (⟨.kOk, 0, 0⟩, some (.arr [.str [0x61], .num ⟨false, 1, 0⟩])) := by rfl

/-! ## C136: large indentations -/

/-- **C136**, full statement: for every indentation length (`uint32`), `Write` with its 32-bit integers gives the file what it would
give with unbounded integers. -/
def C136_statement : Prop :=
  ∀ (D : Type) (N : NumOps D) (il : Nat) (ic : Byte) (n : Nat) (v : Value D) (r : Write.WRes), il < 2 ^ 32 →
    Write.writeValue N il ic n [] v = .ok r →
    ∃ s, Write32.writeValue N il ic n .new v = .ok ⟨r.status, r.chunks, s⟩

theorem append32_cases (count reserved : Nat) :
    (∃ r, Parser32.append count reserved = .ok r ∧ count + 1 < 2 ^ 31) ∨ Parser32.append count reserved = .ub := by
  unfold Parser32.append
  have hx : ∀ n, Parser32.i32 n = .ok n ∧ n < 2 ^ 31 ∨ Parser32.i32 n = .ub := by
    intro n
    unfold Parser32.i32
    split
    · exact .inl ⟨rfl, by assumption⟩
    · exact .inr rfl
  rcases hx (count + 1) with ⟨e, h⟩ | e
  · rw [e]
    split
    · unfold Parser32.setReservedCount
      simp only [Out.ok_bind]
      rcases hx (reserved / 2 + 3) with ⟨e1, -⟩ | e1
      · rw [e1]
        simp only [Out.ok_bind]
        rcases hx (reserved + max ((reserved / 2 + 3) / 4 * 4) 4) with ⟨e2, -⟩ | e2
        · rw [e2]; exact .inl ⟨_, rfl, h⟩
        · rw [e2]; exact .inr rfl
      · rw [e1]; exact .inr rfl
    · exact .inl ⟨_, rfl, h⟩
  · rw [e]
    right
    split <;> rfl

theorem expand32_cases (c : Byte) (n : Nat) (s : Write32.Ind) :
    (∃ s', Write32.expand c n s = .ok s' ∧ (0 < n → s.text.length + n < 2 ^ 31)) ∨ Write32.expand c n s = .ub := by
  induction n generalizing s with
  | zero => exact .inl ⟨s, rfl, fun h => absurd h (by omega)⟩
  | succ n ih =>
    rw [Write32.expand]
    rcases append32_cases s.text.length s.reserved with ⟨r, e, h⟩ | e
    · rw [e, Out.ok_bind]
      rcases ih ⟨s.text ++ [c], r⟩ with ⟨s', e, h'⟩ | e
      · refine .inl ⟨s', e, fun _ => ?_⟩
        simp only [List.length_append, List.length_singleton] at h'
        by_cases hn : 0 < n
        · have := h' hn; omega
        · omega
      · exact .inr e
    · rw [e]; exact .inr rfl

/-- An indentation of 2^31 or more makes the number of elements overflow, even if the array to be written is empty. -/
theorem C136_overflow (N : NumOps D) (il : Nat) (ic : Byte) (h : 2 ^ 31 ≤ il) (n : Nat) :
    Write32.writeValue N il ic (n + 1) .new (.arr []) = .ub := by
  rw [Write32.writeValue]
  rcases expand32_cases ic il .new with ⟨s, e, hs⟩ | e
  · have := hs (by omega)
    omega
  · rw [e]; rfl

theorem C136_violated : ¬ C136_statement := by
  intro h
  obtain ⟨il, hil⟩ : ∃ il, il = 2 ^ 31 := ⟨_, rfl⟩
  obtain ⟨s, e⟩ := h _ decOps il 32 1 (.arr []) _ (by omega) rfl
  rw [C136_overflow decOps il 32 (by omega) 0] at e
  cases e

/-- Appending up to this number of elements does not overflow. -/
def safeCount : Nat := 1431655000

theorem expand32_ok (c : Byte) (n : Nat) (s : Write32.Ind) (h : s.text.length + n ≤ safeCount) :
    ∃ s', Write32.expand c n s = .ok s' ∧ s'.text = s.text ++ List.replicate n c := by
  induction n generalizing s with
  | zero => exact ⟨s, rfl, by simp⟩
  | succ n ih =>
    have ha : ∃ r, Parser32.append s.text.length s.reserved = .ok r := by
      unfold safeCount at h
      unfold Parser32.append Parser32.setReservedCount
      rw [Parser32.i32_ok (n := s.text.length + 1) (by omega)]
      by_cases hc : s.text.length ≥ s.reserved
      · rw [if_pos hc]
        simp only [Out.ok_bind]
        rw [Parser32.i32_ok (n := s.reserved / 2 + 3) (by omega)]
        simp only [Out.ok_bind]
        rw [Parser32.i32_ok (by omega)]
        exact ⟨_, rfl⟩
      · rw [if_neg hc]
        exact ⟨_, rfl⟩
    obtain ⟨r, hr⟩ := ha
    rw [Write32.expand, hr, Out.ok_bind]
    obtain ⟨s', h1, h2⟩ := ih ⟨s.text ++ [c], r⟩ (by simp only [List.length_append, List.length_singleton]; omega)
    exact ⟨s', h1, by rw [h2]; simp [List.replicate_succ]⟩

/-- The two models agree, and after success the indentation is no longer than before. -/
def Follows32 (s : Write32.Ind) (m : Out Write32.Res) (w : Out Write.WRes) : Prop :=
  ∀ r, w = .ok r → (∃ s', m = .ok ⟨r.status, r.chunks, s'⟩ ∧ s'.text = r.indent) ∧
    (r.status = .kOk → r.indent.length ≤ s.text.length)

theorem follows32_elems {L : Nat} {m : Write32.Ind → Value D → Out Write32.Res} {w : Bytes → Value D → Out Write.WRes}
    (h : ∀ s v, s.text.length ≤ L → Follows32 s (m s v) (w s.text v)) (l : List (Value D)) (s : Write32.Ind)
    (hs : s.text.length ≤ L) : Follows32 s (Write32.writeElems m l s) (Write.writeElems w l s.text) := by
  induction l generalizing s with
  | nil => intro r e; cases e; exact ⟨⟨s, rfl, rfl⟩, fun _ => Nat.le_refl _⟩
  | cons v l ih =>
    intro r e
    rw [Write.writeElems, Out.bind_eq_ok] at e
    obtain ⟨r1, h1, e⟩ := e
    obtain ⟨⟨s1, hm, es⟩, hlen⟩ := h s v hs r1 h1
    rw [Write32.writeElems, hm]
    simp only [Out.ok_bind]
    split at e
    · rename_i hst
      cases e
      rw [if_pos hst]
      exact ⟨⟨s1, rfl, es⟩, fun e => absurd e hst⟩
    · rename_i hst
      have hst' : r1.status = .kOk := Classical.not_not.1 hst
      rw [if_neg hst]
      rw [Out.bind_eq_ok] at e
      obtain ⟨r2, h2, e⟩ := e
      cases e
      have l1 := hlen hst'
      rw [← es] at h2 l1
      obtain ⟨⟨s2, hm2, es2⟩, hlen2⟩ := ih s1 (by omega) r2 h2
      rw [hm2]
      exact ⟨⟨s2, rfl, es2⟩, fun e => Nat.le_trans (hlen2 e) l1⟩

theorem follows32_members {L : Nat} {m : Write32.Ind → Value D → Out Write32.Res} {w : Bytes → Value D → Out Write.WRes}
    (h : ∀ s v, s.text.length ≤ L → Follows32 s (m s v) (w s.text v)) (map : Tree Bytes (Value D)) (l : List Bytes)
    (s : Write32.Ind) (hs : s.text.length ≤ L) :
    Follows32 s (Write32.writeMembers m map l s) (Write.writeMembers w map l s.text) := by
  induction l generalizing s with
  | nil => intro r e; cases e; exact ⟨⟨s, rfl, rfl⟩, fun _ => Nat.le_refl _⟩
  | cons name l ih =>
    intro r e
    rw [Write.writeMembers] at e
    rw [Write32.writeMembers]
    cases hf : findMapElement nameLt name map with
    | none =>
      rw [hf] at e
      cases e
      exact ⟨⟨s, rfl, rfl⟩, fun _ => Nat.le_refl _⟩
    | some x =>
    obtain ⟨key, v⟩ := x
    rw [hf] at e
    simp only at e ⊢
    rw [Out.bind_eq_ok] at e
    obtain ⟨r1, h1, e⟩ := e
    obtain ⟨⟨s1, hm, es⟩, hlen⟩ := h s v hs r1 h1
    rw [hm]
    simp only [Out.ok_bind]
    split at e
    · rename_i hst
      cases e
      rw [if_pos hst]
      exact ⟨⟨s1, rfl, es⟩, fun e => absurd e hst⟩
    · rename_i hst
      have hst' : r1.status = .kOk := Classical.not_not.1 hst
      rw [if_neg hst]
      rw [Out.bind_eq_ok] at e
      obtain ⟨r2, h2, e⟩ := e
      cases e
      have l1 := hlen hst'
      rw [← es] at h2 l1
      obtain ⟨⟨s2, hm2, es2⟩, hlen2⟩ := ih s1 (by omega) r2 h2
      rw [hm2]
      exact ⟨⟨s2, rfl, es2⟩, fun e => Nat.le_trans (hlen2 e) l1⟩

theorem follows32_finish {s s0 : Write32.Ind} {m : Out Write32.Res} {w : Out Write.WRes} (h : Follows32 s m w) (il : Nat) (a b : Byte)
    (hs : s.text.length ≤ s0.text.length + il) :
    Follows32 s0 (m >>= fun r => .ok (Write32.finish il a b r)) (w >>= fun r =>
      if r.status ≠ .kOk then .ok ⟨r.status, [a, 0x0A] :: r.chunks, r.indent⟩
      else .ok ⟨.kOk, [a, 0x0A] :: (r.chunks ++ [r.indent.take (r.indent.length - il), [b]]),
        r.indent.take (r.indent.length - il)⟩) := by
  intro r e
  rw [Out.bind_eq_ok] at e
  obtain ⟨r1, h1, e⟩ := e
  obtain ⟨⟨s1, hm, es⟩, hlen⟩ := h r1 h1
  rw [hm]
  simp only [Out.ok_bind, Write32.finish]
  split at e <;> rename_i hst
  · cases e
    rw [if_pos hst]
    exact ⟨⟨s1, rfl, es⟩, fun e => absurd e hst⟩
  · cases e
    rw [if_neg hst, es]
    refine ⟨⟨_, rfl, rfl⟩, fun _ => ?_⟩
    have := hlen (Classical.not_not.1 hst)
    rw [List.length_take]
    omega

theorem follows32_value (N : NumOps D) (il : Nat) (ic : Byte) (n : Nat) (s : Write32.Ind) (v : Value D)
    (h : s.text.length + n * il ≤ safeCount) :
    Follows32 s (Write32.writeValue N il ic n s v) (Write.writeValue N il ic n s.text v) := by
  induction n generalizing s v with
  | zero => intro r e; cases e
  | succ n ih =>
    have hs : s.text.length + il ≤ safeCount := by
      have : il ≤ (n + 1) * il := Nat.le_mul_of_pos_left il (by omega)
      omega
    have step : ∀ s' : Write32.Ind, s'.text.length ≤ s.text.length + il → s'.text.length + n * il ≤ safeCount := by
      intro s' hs'
      rw [Nat.add_mul, Nat.one_mul] at h
      omega
    cases v with
    | str x => intro r e; cases e; exact ⟨⟨s, rfl, rfl⟩, fun _ => Nat.le_refl _⟩
    | num x => intro r e; cases e; exact ⟨⟨s, rfl, rfl⟩, fun _ => Nat.le_refl _⟩
    | null => intro r e; cases e; exact ⟨⟨s, rfl, rfl⟩, fun _ => Nat.le_refl _⟩
    | bool b => cases b <;> (intro r e; cases e; exact ⟨⟨s, rfl, rfl⟩, fun _ => Nat.le_refl _⟩)
    | arr l =>
      obtain ⟨s', h1, h2⟩ := expand32_ok ic il s hs
      rw [Write32.writeValue, Write.writeValue, h1, ← h2]
      have hl : s'.text.length = s.text.length + il := by rw [h2]; simp
      exact follows32_finish (follows32_elems (L := s.text.length + il) (fun s v hs => ih s v (step s hs)) l s' (by omega))
        il 0x5B 0x5D (by omega)
    | obj t o =>
      obtain ⟨s', h1, h2⟩ := expand32_ok ic il s hs
      rw [Write32.writeValue, Write.writeValue, h1, ← h2]
      have hl : s'.text.length = s.text.length + il := by rw [h2]; simp
      exact follows32_finish (follows32_members (L := s.text.length + il) (fun s v hs => ih s v (step s hs)) t o s' (by omega))
        il 0x7B 0x7D (by omega)

/-- **C136**, partial: if the indentation length times the depth of the document (the number `n`, for which `Write` returns) is at
most 1431655000. Missing: larger ones, for which the capacity or the number of elements of the array of indentation characters
may overflow. -/
theorem C136_indentation_partial (N : NumOps D) (il : Nat) (ic : Byte) (n : Nat) (v : Value D) (r : Write.WRes)
    (h : n * il ≤ 1431655000) (hr : Write.writeValue N il ic n [] v = .ok r) :
    ∃ s, Write32.writeValue N il ic n .new v = .ok ⟨r.status, r.chunks, s⟩ := by
  obtain ⟨⟨s, e, _⟩, _⟩ := follows32_value N il ic n .new v (by simpa [Write32.Ind.new, safeCount] using h) r hr
  exact ⟨s, e⟩

example : (Write32.writeValue decOps 2 32 3 .new (.arr [.arr [.null]]) >>= fun r => .ok (r.status, r.ind, r.chunks.flatten)) =
    .ok (.kOk, ⟨[], 4⟩, [0x5B, 10, 32, 32, 0x5B, 10, 32, 32, 32, 32, 0x6E, 0x75, 0x6C, 0x6C, 10, 32, 32, 0x5D, 10, 0x5D]) := by rfl

end Verif.Props
