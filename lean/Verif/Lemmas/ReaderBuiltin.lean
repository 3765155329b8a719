import Verif.Lemmas.ParserBuiltin
import Verif.Lemmas.Builtin

/-! # The built-in number reader as the number reader of the parser -/

namespace Verif.ParserB

open Verif Verif.Text Verif.Number Verif.Map Verif.Parser Verif.Spec Verif.Builtin

variable {D : Type}

/-- The number a literal denotes: what the reader gives for the literal alone. -/
def litVal (A : Arith D) (neg : D → D) (x : SignedLit) : D :=
  match readDouble A (x.lit ++ [0]) with
  | .ok (.inr (v, _)) => if x.neg then neg v else v
  | _ => A.ofNat 0

/-- A byte that can begin a literal. -/
def LitHead (c : Byte) : Prop := Digit c ∨ c = 46

theorem underNum_head {p ip fp : Bytes} {e : Option Int} (h : UnderNum p ip fp e) : ∃ c s, p = c :: s ∧ LitHead c := by
  obtain ⟨hi, hf, hne, he⟩ := h
  rcases hi with ⟨rfl, rfl⟩ | hi
  · cases hf with
    | none => simp at hne
    | point => simp at hne
    | some h => exact ⟨0x2E, _, rfl, .inr rfl⟩
  · obtain ⟨c, s, rfl, hc⟩ := grouped_head hi
    exact ⟨c, _, rfl, .inl hc⟩

theorem LitHead.facts {c : Byte} (h : LitHead c) :
    isWs c = false ∧ c ≠ 93 ∧ c ≠ 125 ∧ c ≠ 34 ∧ c ≠ 0x2D ∧ c ≠ 0x2B ∧ c ≠ 0 := by
  rcases h with h | rfl
  · refine ⟨?_, ?_, ?_, ?_, ?_, ?_, ?_⟩
    · cases hw : isWs c with
      | false => rfl
      | true => exact absurd (show NumChar c by simp [NumChar, h]) (ws_not_num hw)
    all_goals (rintro rfl; revert h; unfold Digit; decide)
  · decide

theorem grouped_nul_free {lz : Bool} {s ds : Bytes} (h : Grouped lz s ds) : (0 : Byte) ∉ s := by
  obtain ⟨g, gs, hg, rfl, -⟩ := h
  have hd : ∀ g' ∈ g :: gs, (0 : Byte) ∉ g' := by
    intro g' hm h0
    have := (hg g' hm).2.1 0 h0
    revert this; unfold Digit; decide
  simp only [List.mem_append, not_or, List.mem_flatten, List.mem_map, not_exists, not_and]
  refine ⟨hd g (by simp), ?_⟩
  rintro x ⟨g', hm, rfl⟩ h0
  rcases List.mem_cons.1 h0 with h0 | h0
  · exact absurd h0 (by decide)
  · exact hd g' (List.mem_cons_of_mem _ hm) h0

theorem underNum_nul_free {p ip fp : Bytes} {e : Option Int} (h : UnderNum p ip fp e) : (0 : Byte) ∉ p := by
  obtain ⟨hi, hf, hne, he⟩ := h
  simp only [List.mem_append, not_or]
  refine ⟨?_, ?_, ?_⟩
  · rcases hi with ⟨rfl, rfl⟩ | hi
    · simp
    · exact grouped_nul_free hi
  · cases hf with
    | none => simp
    | point => decide
    | some h => have := grouped_nul_free h; simp [this]
  · cases he with
    | none => simp
    | unsigned hc h => have := grouped_nul_free h; rcases hc with rfl | rfl <;> simp [this]
    | plus hc h => have := grouped_nul_free h; rcases hc with rfl | rfl <;> simp [this]
    | minus hc h => have := grouped_nul_free h; rcases hc with rfl | rfl <;> simp [this]

theorem Follows.final {c : Byte} (h : Follows c) : Final c := by
  rcases h with h | rfl | rfl | rfl | rfl
  · have := ws_not_num h
    refine ⟨fun hd => this (by simp [NumChar, hd]), ?_, ?_, ?_, ?_⟩
    · rintro rfl; revert h; decide
    · rintro rfl; revert h; decide
    · rintro rfl; revert h; decide
    · rintro rfl; revert h; decide
  all_goals (unfold Final Digit; decide)

theorem litVal_eq (A : Arith D) (neg : D → D) {p ip fp : Bytes} {e : Option Int} (h : UnderNum p ip fp e) (b : Bool) :
    litVal A neg ⟨b, p⟩ = if b then neg (valueOf A ip fp e) else valueOf A ip fp e := by
  unfold litVal
  rw [readDouble_ok A h (c := 0) (Follows.final (.inr (.inr (.inr (.inr rfl))))) []]

theorem underNum_one : UnderNum [0x31] [0x31] [] none := by
  have : UnderNum ([0x31] ++ ([] ++ [])) [0x31] [] none :=
    .mk (.inr ⟨[0x31], [], by simp [Digit], by simp, by simp⟩) .none (by simp) .none
  exact this

theorem readDouble_other (A : Arith D) {c : Byte} (s : Bytes) (h : c ∈ [0x6E, 0x74, 0x66, 0x5B, (0x7B : Byte)]) :
    readDouble A (c :: s) = .ok (.inl .kFloatInvalid) := by
  simp only [List.mem_cons, List.not_mem_nil, or_false] at h
  rcases h with rfl | rfl | rfl | rfl | rfl <;> rfl

theorem readerOk (A : Arith D) (neg : D → D) : ReaderOk (parseNumberB A neg) SignedNum (litVal A neg) where
  total := by
    intro t ht
    have core : ∀ (pre t1 : Bytes) (b : Bool), t = pre ++ t1 → (0 : Byte) ∉ pre → Term t1 → parseSign t = .ok (b, t1) →
        (∀ p ip fp e, UnderNum p ip fp e → SignedNum (pre ++ p) ⟨b, p⟩) →
        (∃ tok w d rest, SignedNum tok d ∧ Ws w ∧ t = tok ++ (w ++ rest) ∧ Term rest ∧
          parseNumberB A neg t = .ok (.ok rest (litVal A neg d))) ∨
        (∃ st p, parseNumberB A neg t = .ok (.err st p) ∧ Adv t p ∧ ∃ c ext d, t = c ++ p ∧ SignedNum (c ++ ext) d) := by
      intro pre t1 b e h0 ht1 hs htok
      obtain ⟨r, hr⟩ := readDouble_safe A t1 ht1
      unfold parseNumberB
      rw [hs]
      simp only [Out.ok_bind, hr]
      cases r with
      | inl st => exact .inr ⟨st, t1, rfl, ⟨pre, e, h0⟩, pre, [0x31], _, e, htok _ _ _ _ underNum_one⟩
      | inr x =>
        obtain ⟨v, rest⟩ := x
        obtain ⟨p, ip, fp, ex, e2, hp, hv⟩ := readDouble_sound A hr
        have hrest : Term rest := by
          have : Adv t1 rest := ⟨p, e2, underNum_nul_free hp⟩
          exact this.term ht1
        obtain ⟨w, c, s, hw, e3, hc, hsk⟩ := skipWs_total hrest
        left
        refine ⟨pre ++ p, w, ⟨b, p⟩, c :: s, htok _ _ _ _ hp, hw, ?_, ?_, ?_⟩
        · rw [e, e2, e3]; simp
        · have : Adv rest (c :: s) := ⟨w, e3, hw.nul_free⟩
          exact this.term hrest
        · simp only [hsk, Out.ok_bind, litVal_eq A neg hp, hv]
    rcases parseSign_total t ht with ⟨w, c, s, hw, hc, e, hp⟩ | ⟨w, c, s, hw, hc, e, hp⟩ | ⟨-, -, hp⟩
    · have h0 : (0 : Byte) ∉ 0x2D :: w := by have := hw.nul_free; simp [this]
      have hadv : Adv t (c :: s) := ⟨0x2D :: w, by rw [e]; simp, h0⟩
      exact core (0x2D :: w) (c :: s) true (by rw [e]; simp) h0 (hadv.term ht) hp
        fun p ip fp e h => by simpa using SignedNum.minus hw h
    · have h0 : (0 : Byte) ∉ 0x2B :: w := by have := hw.nul_free; simp [this]
      have hadv : Adv t (c :: s) := ⟨0x2B :: w, by rw [e]; simp, h0⟩
      exact core (0x2B :: w) (c :: s) false (by rw [e]; simp) h0 (hadv.term ht) hp
        fun p ip fp e h => by simpa using SignedNum.plus hw h
    · exact core [] t false rfl (by simp) ht hp fun p ip fp e h => by simpa using SignedNum.plain h
  complete := by
    intro tok d h c s r hc ht hsk
    have core : ∀ (t : Bytes) (b : Bool) (p ip fp : Bytes) (e : Option Int), UnderNum p ip fp e →
        parseSign t = .ok (b, p ++ c :: s) → parseNumberB A neg t = .ok (.ok r (litVal A neg ⟨b, p⟩)) := by
      intro t b p ip fp e hp hs
      unfold parseNumberB
      rw [hs]
      simp only [Out.ok_bind, readDouble_ok A hp hc.final, hsk, litVal_eq A neg hp]
    cases h with
    | plain hp =>
      refine core _ _ _ _ _ _ hp ?_
      obtain ⟨a, u, rfl, ha⟩ := underNum_head hp
      exact parseSign_none ha.facts.2.2.2.2.1 ha.facts.2.2.2.2.2.1
    | plus hw hp =>
      refine core _ _ _ _ _ _ hp ?_
      obtain ⟨a, u, rfl, ha⟩ := underNum_head hp
      have := parseSign_plus (s := u ++ c :: s) hw ha.facts.1
      simpa using this
    | minus hw hp =>
      refine core _ _ _ _ _ _ hp ?_
      obtain ⟨a, u, rfl, ha⟩ := underNum_head hp
      have := parseSign_minus (s := u ++ c :: s) hw ha.facts.1
      simpa using this
  other := by
    intro c s h
    have h1 : c ≠ 0x2D := by rintro rfl; revert h; decide
    have h2 : c ≠ 0x2B := by rintro rfl; revert h; decide
    unfold parseNumberB
    rw [parseSign_none h1 h2]
    simp only [Out.ok_bind, readDouble_other A s h]
  nul_free := by
    intro tok d h
    cases h with
    | plain hp => exact underNum_nul_free hp
    | plus hw hp => have := underNum_nul_free hp; have := hw.nul_free; simp [*]
    | minus hw hp => have := underNum_nul_free hp; have := hw.nul_free; simp [*]
  head := by
    intro tok d h
    cases h with
    | plain hp =>
      obtain ⟨c, s, rfl, hc⟩ := underNum_head hp
      exact ⟨c, s, rfl, hc.facts.1, hc.facts.2.1, hc.facts.2.2.1, hc.facts.2.2.2.1⟩
    | plus => exact ⟨_, _, rfl, by decide, by decide, by decide, by decide⟩
    | minus => exact ⟨_, _, rfl, by decide, by decide, by decide, by decide⟩

end Verif.ParserB
