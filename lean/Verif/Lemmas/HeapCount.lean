import Verif.Lemmas.Heap
import Verif.Lemmas.ParserCost

/-!
# The number of requests for memory made for a text
-/

namespace Verif.Own

open Verif Verif.Text Verif.Number Verif.Parser Verif.Spec

variable {D : Type}

theorem free_tick {a : Nat} {h h' : Heap} (e : free a h = .ok h') : h'.tick = h.tick := by
  unfold free at e
  split at e
  · cases e; rfl
  · cases e

theorem freeAll_tick : ∀ (l : List Nat) (h h' : Heap), freeAll l h = .ok h' → h'.tick = h.tick := by
  intro l
  induction l with
  | nil => intro h h' e; cases e; rfl
  | cons a l ih =>
    intro h h' e
    rw [freeAll, Out.bind_eq_ok] at e
    obtain ⟨h1, e1, e2⟩ := e
    rw [ih h1 h' e2, free_tick e1]

theorem newValue_tick (M : Mem) (r : Req) (h : Heap) : (newValue M r h).2.tick = h.tick + 1 := by
  unfold newValue; split <;> rfl

theorem skipWs_length {t r : Bytes} (h : Parser.skipWs t = .ok r) : 0 < r.length ∧ r.length ≤ t.length := by
  have := ParserCost.skipWs_meets t
  rw [h] at this
  obtain ⟨n, -, -, h1, h2⟩ := this
  exact ⟨h1, h2⟩

theorem string_length {t rest s : Bytes} (h : parseString t = .ok (.ok rest s)) : rest.length + 2 ≤ t.length := by
  have := ParserCost.parseString_meets t
  rw [h] at this
  obtain ⟨n, -, h1, -⟩ := this
  omega

theorem string_pos {t pos : Bytes} {st : Status} (h : parseString t = .ok (.err st pos)) : pos.length ≤ t.length := by
  have := ParserCost.parseString_meets t
  rw [h] at this
  obtain ⟨n, -, -, -, h1, -⟩ := this
  exact h1

theorem number_length (N : NumOps D) {t rest : Bytes} {d : D} (h : parseNumber N t = .ok (.ok rest d)) : rest.length < t.length := by
  have := ParserCost.parseNumber_meets N t
  rw [h] at this
  obtain ⟨n, -, h1, -⟩ := this
  exact h1.1

theorem number_pos (N : NumOps D) {t pos : Bytes} {st : Status} (h : parseNumber N t = .ok (.err st pos)) : pos.length ≤ t.length := by
  have := ParserCost.parseNumber_meets N t
  rw [h] at this
  obtain ⟨n, -, h1, -⟩ := this
  exact h1.2.2

/-- Requests of a leaf. -/
theorem parseLeaf_count {α : Type} {M : Mem} {needs : Bool} {parse : Bytes → Out (PRes α)} {mk : α → Value D} {t : Bytes}
    {h h' : Heap} {r : PRes (OVal D)} (hok : ∀ rest x, parse t = .ok (.ok rest x) → rest.length < t.length)
    (e : parseLeaf M needs parse mk t h = .ok (r, h')) :
    (∃ rest v x, r = .ok rest v ∧ parse t = .ok (.ok rest x) ∧ h'.tick ≤ h.tick + (if needs then 2 else 1)) ∨
    (∃ st pos, r = .err st pos ∧ (parse t = .ok (.err st pos) ∨ st = .kException) ∧ h'.tick = h.tick + 1 ∧
      (pos = t ∨ parse t = .ok (.err st pos))) ∨
    (needs = true ∧ r = .err .kException (t.drop 1) ∧ 0 < t.length ∧ h'.tick = h.tick + 2) := by
  unfold parseLeaf at e
  have ht := newValue_tick M .value h
  cases hn : newValue M .value h with
  | mk o h1 =>
    rw [hn] at e ht
    simp only at e ht
    cases o with
    | none =>
      cases e
      exact .inr (.inl ⟨_, _, rfl, .inr rfl, ht, .inl rfl⟩)
    | some a =>
      simp only [Out.bind_eq_ok] at e
      obtain ⟨y, hy, e⟩ := e
      cases y with
      | err st pos =>
        simp only [Out.bind_eq_ok] at e
        obtain ⟨h2, hf, e⟩ := e
        cases e
        exact .inr (.inl ⟨_, _, rfl, .inl hy, by rw [free_tick hf, ht], .inr hy⟩)
      | ok rest x =>
        cases needs with
        | false =>
          cases e
          exact .inl ⟨_, _, x, rfl, hy, by simp [ht]⟩
        | true =>
          simp only [if_true, request] at e
          cases hm : M .text h1.tick with
          | false =>
            rw [hm] at e
            simp only [Out.bind_eq_ok] at e
            obtain ⟨h2, hf, e⟩ := e
            cases e
            have := hok rest x hy
            exact .inr (.inr ⟨rfl, rfl, by omega, by rw [free_tick hf]; simp [ht]⟩)
          | true =>
            rw [hm] at e
            cases e
            exact .inl ⟨_, _, x, rfl, hy, by simp [ht]⟩

/-- Requests of a value: six for each byte read, and six more if it fails. -/
def Used (t : Bytes) (h : Heap) (r : PRes (OVal D)) (h' : Heap) : Prop :=
  match r with
  | .ok rest _ => rest.length < t.length ∧ h'.tick + 6 * rest.length ≤ h.tick + 6 * t.length
  | .err _ pos => pos.length ≤ t.length ∧ h'.tick + 6 * pos.length ≤ h.tick + 6 * t.length + 6

/-- Requests of the two alternatives with elements. -/
def UsedHead (t : Bytes) (h : Heap) (r : PRes (OVal D)) (h' : Heap) : Prop :=
  match r with
  | .ok rest _ => rest.length < t.length ∧ h'.tick + 6 * rest.length + 10 ≤ h.tick + 6 * t.length
  | .err _ pos => pos.length ≤ t.length ∧ h'.tick + 6 * pos.length ≤ h.tick + 6 * t.length + 1

/-- Requests of the loops. -/
def UsedLoop {α : Type} (t : Bytes) (h : Heap) (r : LRes α) (h' : Heap) : Prop :=
  match r with
  | .ok rest _ => rest.length < t.length ∧ h'.tick + 6 * rest.length + 11 ≤ h.tick + 6 * t.length
  | .err _ pos _ => pos.length ≤ t.length ∧ h'.tick + 6 * pos.length ≤ h.tick + 6 * t.length

theorem drop_length {t r : Bytes} (h : Parser.skipWs (t.drop 1) = .ok r) : 0 < r.length ∧ r.length + 1 ≤ t.length := by
  have := skipWs_length h
  rw [List.length_drop] at this
  omega

theorem head_count {α : Type} {t : Bytes} {h h1 h2 : Heap} (ht : h1.tick = h.tick + 1) {r : LRes α} (hl : UsedLoop t h1 r h2) :
    match (motive := LRes α → Prop) r with
    | .ok rest _ => rest.length < t.length ∧ h2.tick + 6 * rest.length + 10 ≤ h.tick + 6 * t.length
    | .err _ pos _ => pos.length ≤ t.length ∧ h2.tick + 6 * pos.length ≤ h.tick + 6 * t.length + 1 := by
  cases r <;> simp only [UsedLoop] at hl ⊢ <;> omega

theorem allH_count (M : Mem) (N : NumOps D) (n : Nat) :
    (∀ t h r h', parseAnyH M N n t h = .ok (r, h') → Used t h r h') ∧
    (∀ t h r h', parseArrayH M N n t h = .ok (r, h') → UsedHead t h r h') ∧
    (∀ t acc h r h', arrayLoopH M N n t acc h = .ok (r, h') → UsedLoop t h r h') ∧
    (∀ t h r h', parseObjectH M N n t h = .ok (r, h') → UsedHead t h r h') ∧
    (∀ t acc h r h', objectLoopH M N n t acc h = .ok (r, h') → UsedLoop t h r h') := by
  induction n with
  | zero =>
    refine ⟨?_, ?_, ?_, ?_, ?_⟩ <;> intros <;> rename_i e <;> cases e
  | succ n ih =>
    obtain ⟨ihA, ihR, ihRL, ihO, ihOL⟩ := ih
    refine ⟨?_, ?_, ?_, ?_, ?_⟩
    · intro t h r h' e
      have hobj : ∀ p h r h', tryObject M N n p h = .ok (r, h') →
          match r with
          | .ok rest _ => rest.length < p.length ∧ h'.tick + 6 * rest.length + 10 ≤ h.tick + 6 * p.length
          | .err _ pos => pos.length ≤ p.length ∧ h'.tick + 6 * pos.length ≤ h.tick + 6 * p.length + 1 := by
        intro p h r h' e
        unfold tryObject at e
        rw [Out.bind_eq_ok] at e
        obtain ⟨⟨r1, h1⟩, e1, e⟩ := e
        have := ihO _ _ _ _ e1
        cases r1 with
        | ok rest v => cases e; exact this
        | err st pos =>
          simp only at e
          split at e <;> cases e <;> exact this
      have harr : ∀ h r h', tryArray M N n t h = .ok (r, h') →
          match r with
          | .ok rest _ => rest.length < t.length ∧ h'.tick + 6 * rest.length + 9 ≤ h.tick + 6 * t.length
          | .err _ pos => pos.length ≤ t.length ∧ h'.tick + 6 * pos.length ≤ h.tick + 6 * t.length + 2 := by
        intro h r h' e
        unfold tryArray at e
        rw [Out.bind_eq_ok] at e
        obtain ⟨⟨r1, h1⟩, e1, e⟩ := e
        have h0 := ihR _ _ _ _ e1
        cases r1 with
        | ok rest v => cases e; simp only [UsedHead] at h0 ⊢; omega
        | err st pos =>
          simp only [UsedHead] at e h0
          split at e
          · cases e; simp only; omega
          · have := hobj _ _ _ _ e
            cases r <;> simp only at this ⊢ <;> omega
      have hnull : ∀ h r h', tryNull M N n t h = .ok (r, h') →
          match r with
          | .ok rest _ => rest.length < t.length ∧ h'.tick + 6 * rest.length + 5 ≤ h.tick + 6 * t.length
          | .err _ pos => pos.length ≤ t.length ∧ h'.tick + 6 * pos.length ≤ h.tick + 6 * t.length + 3 := by
        intro h r h' e
        unfold tryNull at e
        rw [Out.bind_eq_ok] at e
        obtain ⟨⟨r1, h1⟩, e1, e⟩ := e
        have hlen : ∀ rest x, parseNull t = .ok (.ok rest x) → rest.length < t.length := by
          intro rest x hx
          obtain ⟨c, s, rfl, -, hs⟩ := ParserCost.parseNull_cost hx
          simp only [List.length_cons]; omega
        rcases parseLeaf_count hlen e1 with ⟨rest, v, x, rfl, hx, ht⟩ | ⟨st, pos, rfl, -, ht, -⟩ | ⟨hf, -⟩
        · cases e
          have := hlen _ _ hx
          simp only [Bool.false_eq_true, if_false] at ht ⊢; omega
        · have := harr _ _ _ e
          cases r <;> simp only at this ⊢ <;> omega
        · cases hf
      have hbool : ∀ h r h', tryBool M N n t h = .ok (r, h') →
          match r with
          | .ok rest _ => rest.length < t.length ∧ h'.tick + 6 * rest.length + 4 ≤ h.tick + 6 * t.length
          | .err _ pos => pos.length ≤ t.length ∧ h'.tick + 6 * pos.length ≤ h.tick + 6 * t.length + 4 := by
        intro h r h' e
        unfold tryBool at e
        rw [Out.bind_eq_ok] at e
        obtain ⟨⟨r1, h1⟩, e1, e⟩ := e
        have hlen : ∀ rest x, parseBool t = .ok (.ok rest x) → rest.length < t.length := by
          intro rest x hx
          obtain ⟨c, s, rfl, -, hs⟩ := ParserCost.parseBool_cost hx
          simp only [List.length_cons]; omega
        rcases parseLeaf_count hlen e1 with ⟨rest, v, x, rfl, hx, ht⟩ | ⟨st, pos, rfl, -, ht, -⟩ | ⟨hf, -⟩
        · cases e
          have := hlen _ _ hx
          simp only [Bool.false_eq_true, if_false] at ht ⊢; omega
        · have := hnull _ _ _ e
          cases r <;> simp only at this ⊢ <;> omega
        · cases hf
      have hnum : ∀ h r h', tryNumber M N n t h = .ok (r, h') →
          match r with
          | .ok rest _ => rest.length < t.length ∧ h'.tick + 6 * rest.length + 3 ≤ h.tick + 6 * t.length
          | .err _ pos => pos.length ≤ t.length ∧ h'.tick + 6 * pos.length ≤ h.tick + 6 * t.length + 5 := by
        intro h r h' e
        unfold tryNumber at e
        rw [Out.bind_eq_ok] at e
        obtain ⟨⟨r1, h1⟩, e1, e⟩ := e
        rcases parseLeaf_count (fun rest x => number_length N) e1 with ⟨rest, v, x, rfl, hx, ht⟩ | ⟨st, pos, rfl, -, ht, hp⟩ | ⟨hf, -⟩
        · cases e
          have := number_length N hx
          simp only [Bool.false_eq_true, if_false] at ht ⊢; omega
        · simp only at e
          split at e
          · cases e
            have : pos.length ≤ t.length := by
              rcases hp with rfl | hp
              · exact Nat.le_refl _
              · exact number_pos N hp
            simp only; omega
          · have := hbool _ _ _ e
            cases r <;> simp only at this ⊢ <;> omega
        · cases hf
      rw [parseAnyH_succ, Out.bind_eq_ok] at e
      obtain ⟨⟨r1, h1⟩, e1, e⟩ := e
      have hlen : ∀ rest x, parseString t = .ok (.ok rest x) → rest.length < t.length := by
        intro rest x hx
        have := string_length hx
        omega
      rcases parseLeaf_count hlen e1 with ⟨rest, v, x, rfl, hx, ht⟩ | ⟨st, pos, rfl, -, ht, hp⟩ | ⟨-, rfl, h0, ht⟩
      · cases e
        have := string_length hx
        simp only [if_true, Used] at ht ⊢; omega
      · have hl : pos.length ≤ t.length := by
          rcases hp with rfl | hp
          · exact Nat.le_refl _
          · exact string_pos hp
        simp only at e
        split at e
        · cases e; simp only [Used]; omega
        · have := hnum _ _ _ e
          cases r <;> simp only [Used] at this ⊢ <;> omega
      · simp only at e
        rw [if_pos (by decide)] at e
        cases e
        simp only [Used, List.length_drop]; omega
    · intro t h r h' e
      rw [parseArrayH_succ] at e
      have ht := newValue_tick M .value h
      cases hn : newValue M .value h with
      | mk o h1 =>
        rw [hn] at e ht
        simp only at e ht
        cases o with
        | none => cases e; simp only [UsedHead]; omega
        | some a =>
          simp only [Out.bind_eq_ok] at e
          obtain ⟨c, -, e⟩ := e
          split at e
          · rw [Out.bind_eq_ok] at e
            obtain ⟨h2, hd, e⟩ := e
            cases e
            have := freeAll_tick _ _ _ hd
            simp only [UsedHead]; omega
          · rw [Out.bind_eq_ok] at e
            obtain ⟨⟨r1, h2⟩, e1, e⟩ := e
            have hl := head_count ht (ihRL _ _ _ _ _ e1)
            cases r1 with
            | ok rest l => cases e; exact hl
            | err st pos l =>
              simp only [Out.bind_eq_ok] at e
              obtain ⟨h3, hd, e⟩ := e
              cases e
              have := freeAll_tick _ _ _ hd
              simp only [UsedHead] at hl ⊢; omega
    · intro t acc h r h' e
      rw [arrayLoopH_succ, Out.bind_eq_ok] at e
      obtain ⟨t1, e1, e⟩ := e
      have l1 := drop_length e1
      rw [Out.bind_eq_ok] at e
      obtain ⟨c, -, e⟩ := e
      split at e
      · split at e <;> cases e <;> simp only [UsedLoop, List.length_drop] <;> omega
      · rw [Out.bind_eq_ok] at e
        obtain ⟨⟨r2, h2⟩, e2, e⟩ := e
        have u2 := ihA _ _ _ _ e2
        cases r2 with
        | err st pos => cases e; simp only [UsedLoop, Used] at u2 ⊢; omega
        | ok t2 v =>
          simp only [request, Used] at e u2
          cases hm : M .slot h2.tick with
          | false =>
            rw [hm] at e
            cases e
            simp only [UsedLoop]; omega
          | true =>
            rw [hm] at e
            simp only [Out.bind_eq_ok] at e
            obtain ⟨t3, e3, c, -, e⟩ := e
            have l3 := skipWs_length e3
            split at e
            · split at e <;> cases e <;> simp only [UsedLoop, List.length_drop] <;> omega
            · have u4 := ihRL _ _ _ _ _ e
              cases r <;> simp only [UsedLoop] at u4 ⊢ <;> omega
    · intro t h r h' e
      rw [parseObjectH_succ] at e
      have ht := newValue_tick M .value h
      cases hn : newValue M .value h with
      | mk o h1 =>
        rw [hn] at e ht
        simp only at e ht
        cases o with
        | none => cases e; simp only [UsedHead]; omega
        | some a =>
          simp only [Out.bind_eq_ok] at e
          obtain ⟨c, -, e⟩ := e
          split at e
          · rw [Out.bind_eq_ok] at e
            obtain ⟨h2, hd, e⟩ := e
            cases e
            have := freeAll_tick _ _ _ hd
            simp only [UsedHead]; omega
          · rw [Out.bind_eq_ok] at e
            obtain ⟨⟨r1, h2⟩, e1, e⟩ := e
            have hl := head_count ht (ihOL _ _ _ _ _ e1)
            cases r1 with
            | ok rest l => cases e; exact hl
            | err st pos l =>
              simp only [Out.bind_eq_ok] at e
              obtain ⟨h3, hd, e⟩ := e
              cases e
              have := freeAll_tick _ _ _ hd
              simp only [UsedHead] at hl ⊢; omega
    · intro t acc h r h' e
      rw [objectLoopH_succ, Out.bind_eq_ok] at e
      obtain ⟨t1, e1, e⟩ := e
      have l1 := drop_length e1
      rw [Out.bind_eq_ok] at e
      obtain ⟨c, -, e⟩ := e
      split at e
      · split at e <;> cases e <;> simp only [UsedLoop, List.length_drop] <;> omega
      · rw [Out.bind_eq_ok] at e
        obtain ⟨r0, e0, e⟩ := e
        cases r0 with
        | err st pos =>
          cases e
          have := string_pos e0
          simp only [UsedLoop]; omega
        | ok t' name =>
          have l0 := string_length e0
          simp only [request] at e
          cases hm0 : M .text h.tick with
          | false =>
            rw [hm0] at e
            cases e
            simp only [UsedLoop, List.length_drop]; omega
          | true =>
            rw [hm0] at e
            simp only [Out.bind_eq_ok] at e
            obtain ⟨t2, e2, c, -, e⟩ := e
            have l2 := skipWs_length e2
            split at e
            · cases e; simp only [UsedLoop]; omega
            · simp only [Out.bind_eq_ok] at e
              obtain ⟨t3, e3, ⟨r4, h4⟩, e4, e⟩ := e
              have l3 := drop_length e3
              have u4 := ihA _ _ _ _ e4
              cases r4 with
              | err st pos => cases e; simp only [UsedLoop, Used] at u4 ⊢; omega
              | ok t5 v =>
                simp only [Used] at e u4
                cases hm : M .slot h4.tick with
                | false =>
                  rw [hm] at e
                  cases e
                  simp only [UsedLoop]; omega
                | true =>
                  rw [hm] at e
                  simp only [Out.bind_eq_ok] at e
                  obtain ⟨t6, e6, c, -, e⟩ := e
                  have l6 := skipWs_length e6
                  split at e
                  · split at e <;> cases e <;> simp only [UsedLoop, List.length_drop] <;> split <;> simp only <;> omega
                  · have u7 := ihOL _ _ _ _ _ e
                    cases r <;> simp only [UsedLoop] at u7 ⊢ <;> (split at u7) <;> simp only at u7 <;> omega

/-- At most six requests for each byte of the buffer. -/
theorem parseBufferH_count (M : Mem) (N : NumOps D) (root : Option (OVal D)) (buf : Bytes) (h : Heap) (st : Status)
    (root' : Option (OVal D)) (h' : Heap) (e : parseBufferH M N root buf h = .ok (st, root', h')) :
    h'.tick ≤ h.tick + 6 * buf.length := by
  unfold parseBufferH at e
  split at e
  · cases e; omega
  · rw [Out.bind_eq_ok] at e
    obtain ⟨last, -, e⟩ := e
    split at e
    · cases e; omega
    · simp only [Out.bind_eq_ok] at e
      obtain ⟨h1, hd, start, hs, ⟨r, h2⟩, ha, text, ht, c, -, e⟩ := e
      have hk : h1.tick = h.tick := by
        cases root with
        | none => cases hd; rfl
        | some v => exact freeAll_tick _ _ _ hd
      have l1 := skipWs_length hs
      have u := (allH_count M N _).1 _ _ _ _ ha
      have l2 := skipWs_length ht
      cases e
      cases r with
      | ok rest v => simp only [Used] at u l2 ⊢; omega
      | err st pos => simp only [Used] at u l2 ⊢; omega

end Verif.Own
