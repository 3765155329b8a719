import Verif.Lemmas.Parse
import Verif.Spec.Position

/-! # `ParseJsonRoot` against the dialect -/

namespace Verif.Parser

open Verif Verif.Text Verif.Number Verif.Map Verif.Spec

variable {D : Type}

theorem scanBack_far (l : Bytes) (line col : Nat) (h : line ≠ 1) (h0 : line ≠ 0) :
    scanBack l line col = (line + l.count 10, col) := by
  induction l generalizing line with
  | nil => rfl
  | cons c l ih =>
    unfold scanBack
    by_cases hc : c = 10
    · subst hc
      simp only [if_true]
      rw [if_neg (by omega), Nat.add_zero col, ih _ (by omega) (by omega)]
      simp; omega
    · simp only [if_neg hc]
      rw [if_neg h, Nat.add_zero, ih _ h h0, List.count_cons_of_ne hc]

theorem scanBack_eq (l : Bytes) (col : Nat) :
    scanBack l 1 col = (1 + l.count 10, col + (l.takeWhile fun c => c ≠ 10).length) := by
  induction l generalizing col with
  | nil => rfl
  | cons c l ih =>
    unfold scanBack
    by_cases hc : c = 10
    · subst hc
      simp only [if_true]
      rw [scanBack_far _ _ _ (by omega) (by omega)]
      simp; omega
    · simp only [if_neg hc, if_true]
      rw [ih, List.count_cons_of_ne hc]
      simp [hc]; omega

theorem scanBack_reverse (p : Bytes) : scanBack p.reverse 1 1 = (lineOf p, colOf p) := by
  rw [scanBack_eq]; simp [lineOf, colOf]

theorem cstr_append {a : Bytes} (h : (0 : Byte) ∉ a) (s : Bytes) : cstr (a ++ 0 :: s) = a := by
  unfold cstr
  induction a with
  | nil => simp
  | cons c a ih =>
    simp only [List.mem_cons, not_or] at h
    have hc : c ≠ 0 := fun e => h.1 e.symm
    simp only [List.cons_append, List.takeWhile_cons, ne_eq, hc, not_false_eq_true, decide_true, if_true]
    rw [ih h.2]

theorem cstr_split {buf : Bytes} (h : Term buf) : ∃ s, buf = cstr buf ++ 0 :: s ∧ (0 : Byte) ∉ cstr buf := by
  induction buf with
  | nil => simp [Term] at h
  | cons c buf ih =>
    by_cases hc : c = 0
    · subst hc; exact ⟨buf, by simp [cstr], by simp [cstr]⟩
    · obtain ⟨s, e, h'⟩ := ih (h.tail hc)
      refine ⟨s, ?_, ?_⟩
      · unfold cstr at *
        simp only [List.takeWhile_cons, ne_eq, hc, not_false_eq_true, decide_true, if_true,
          List.cons_append]
        rw [← e]
      · unfold cstr at *
        simp only [List.takeWhile_cons, ne_eq, hc, not_false_eq_true, decide_true, if_true,
          List.mem_cons, not_or]
        exact ⟨fun e => hc e.symm, h'⟩

theorem last_zero {buf : Bytes} (h : buf.getLast? = some 0) :
    Term buf ∧ rd buf (buf.length - 1) = .ok 0 := by
  obtain ⟨l, rfl⟩ := List.getLast?_eq_some_iff.1 h
  refine ⟨by simp [Term], ?_⟩
  simp [rd]

/-- A failed parse: what was read, and the reported position. -/
structure Failure (N : NumOps D) (buf : Bytes) (res : RootResult D) : Prop where
  status : res.status ≠ .kOk
  code : GoodErr res.status ∨ res.status = .kExpectedEndOfFile
  root : res.root = none ∨ res.status = .kExpectedEndOfFile ∧ ∃ j, res.root = some (interp N j)
  position : ∃ w q w' c s, Ws w ∧ Ws w' ∧ buf = w ++ (q ++ (w' ++ c :: s)) ∧ (0 : Byte) ∉ q ∧
    isWs c = false ∧ (∃ a, q ++ (w' ++ c :: s) = a ∧ ∃ x r, a = x :: r ∧ isWs x = false) ∧
    res.errorLine = lineOf (q ++ w') ∧ res.errorColumn = colOf (q ++ w') ∧
    ∃ ext j, DialText (w ++ (q ++ ext)) j

theorem parseRoot_unfold (N : NumOps D) (fuel : Nat) (buf : Bytes) (h3 : 3 ≤ buf.length)
    (hlast : buf.getLast? = some 0) : parseRoot N fuel buf =
      (skipWs buf >>= fun start =>
      parseAny N fuel start >>= fun r =>
      let (status, root, text) : Status × Option (Value D) × Bytes :=
        match r with
        | .ok rest v => (.kOk, some v, rest)
        | .err status pos => (status, none, pos)
      skipWs text >>= fun text =>
      rd text 0 >>= fun c =>
      let status := if status = .kOk ∧ c ≠ 0 then .kExpectedEndOfFile else status
      if status ≠ .kOk then
        let (line, column) := scanBack (start.take (start.length - text.length)).reverse 1 1
        .ok ⟨status, root, line, column⟩
      else .ok ⟨status, root, 0, 0⟩) := by
  unfold parseRoot
  rw [if_neg (by omega), (last_zero hlast).2]
  rfl

theorem root_total (N : NumOps D) (hN : NegLaw N) (fuel : Nat) (buf : Bytes) (h3 : 3 ≤ buf.length)
    (hlast : buf.getLast? = some 0) (hf : parseFuel buf ≤ fuel) :
    (∃ j, DialText (cstr buf) j ∧ parseRoot N fuel buf = .ok ⟨.kOk, some (interp N j), 0, 0⟩) ∨
    (∃ res, parseRoot N fuel buf = .ok res ∧ Failure N buf res) := by
  have ht := (last_zero hlast).1
  rw [parseRoot_unfold N fuel buf h3 hlast]
  obtain ⟨w1, a, s, hw1, e1, ha, hs1⟩ := skipWs_total ht
  rw [hs1]
  simp only [Out.ok_bind]
  have hadv1 : Adv buf (a :: s) := ⟨w1, e1, hw1.nul_free⟩
  have hts := hadv1.term ht
  have hlen := hadv1.length_le
  have htake : ∀ p q : Bytes, a :: s = p ++ q → (a :: s).take ((a :: s).length - q.length) = p := by
    intro p q e
    rw [e]
    simp
  rcases any_total N hN fuel (a :: s) hts (by unfold parseFuel at hf; omega) with
    ⟨tok, j, w2, rest, hv, hw2, e2, hr, hp⟩ | ⟨st, p, hp, hst, hadv, cv, ext, jv, ec, hvia⟩
  · rw [hp]
    obtain ⟨w3, c, u, hw3, e3, hc, hs3⟩ := skipWs_total hr
    simp only [Out.ok_bind, hs3, rd_cons_zero, true_and]
    have eall : a :: s = (tok ++ (w2 ++ w3)) ++ c :: u := by rw [e2, e3]; simp
    by_cases h0 : c = 0
    · subst h0
      left
      refine ⟨j, ?_, by simp⟩
      have hcs : cstr buf = w1 ++ (tok ++ (w2 ++ w3)) := by
        rw [e1, eall, ← List.append_assoc]
        apply cstr_append
        have h1 := val_nul_free hv
        have h2 := hw1.nul_free
        have h3 := hw2.nul_free
        have h4 := hw3.nul_free
        simp [h1, h2, h3, h4]
      rw [hcs]
      exact ⟨w1, tok, w2 ++ w3, hw1, hv, hw2.append hw3, rfl⟩
    · right
      rw [if_pos h0, if_pos (by decide), htake _ _ eall, scanBack_reverse]
      refine ⟨_, rfl, ⟨by simp, .inr rfl, .inr ⟨rfl, j, rfl⟩, w1, tok, w2 ++ w3, c, u, hw1, hw2.append hw3, ?_,
        val_nul_free hv, hc, ⟨_, rfl, a, s, ?_, ha⟩, by simp, by simp, [], j, ?_⟩⟩
      · rw [e1, eall]; simp
      · rw [eall]; simp
      · exact ⟨w1, tok, [], hw1, hv, Ws.nil, by simp⟩
  · rw [hp]
    obtain ⟨w3, c, u, hw3, e3, hc, hs3⟩ := skipWs_total (hadv.term hts)
    simp only [Out.ok_bind, hs3, rd_cons_zero]
    have eall : a :: s = (cv ++ w3) ++ c :: u := by rw [ec, e3]; simp
    right
    rw [if_neg (c := st = .kOk ∧ c ≠ 0) (fun h => hst.ne.1 h.1), if_pos hst.ne.1, htake _ _ eall, scanBack_reverse]
    refine ⟨_, rfl, ⟨hst.ne.1, .inl hst, .inl rfl, w1, cv, w3, c, u, hw1, hw3, ?_, ?_, hc, ⟨_, rfl, a, s, ?_, ha⟩,
      rfl, rfl, ext, jv, w1, cv ++ ext, [], hw1, hvia, Ws.nil, by simp⟩⟩
    · rw [e1, eall]; simp
    · obtain ⟨c', ec', h'⟩ := hadv
      have : cv = c' := List.append_cancel_right (ec.symm.trans ec')
      rw [this]; exact h'
    · rw [eall]; simp

theorem root_complete (N : NumOps D) (hN : NegLaw N) (fuel : Nat) (buf : Bytes) (h3 : 3 ≤ buf.length)
    (hlast : buf.getLast? = some 0) (hf : parseFuel buf ≤ fuel) {j : J} (h : DialText (cstr buf) j) :
    parseRoot N fuel buf = .ok ⟨.kOk, some (interp N j), 0, 0⟩ := by
  have ht := (last_zero hlast).1
  rw [parseRoot_unfold N fuel buf h3 hlast]
  obtain ⟨s, hb, h0⟩ := cstr_split ht
  obtain ⟨w1, tok, w2, hw1, hv, hw2, e⟩ := h
  have hlen := congrArg List.length hb
  rw [e] at hb hlen
  have hb' : buf = w1 ++ (tok ++ (w2 ++ 0 :: s)) := by rw [hb]; simp
  obtain ⟨c, u, hcu, hcn, hct, hcs⟩ :=
    after_token (c := 0) (s := s) hw2 (by simp [NumChar, Digit]) (by decide) (by simp [Term])
  obtain ⟨rest, hp, hr⟩ := any_complete N hN hv fuel c u _ (by
    unfold parseFuel at hf
    simp only [List.length_append] at hlen
    omega) (.inl hcn) hct hcs
  obtain ⟨a, x, hax, haw, -⟩ := val_head hv
  rw [hb', skipWs_append hw1, hcu]
  have : skipWs (tok ++ c :: u) = .ok (tok ++ c :: u) := by
    rw [hax, List.cons_append, skipWs_stop haw]
  rw [this]
  simp only [Out.ok_bind, hp, hr, rd_cons_zero]
  simp

end Verif.Parser
