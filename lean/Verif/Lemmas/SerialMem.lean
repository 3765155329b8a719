import Verif.Model.SerialMem
import Verif.Lemmas.Reload
import Verif.Lemmas.Evolve

/-!
# Deserialize when memory runs out
-/

namespace Verif.SerialMem

open Verif Verif.Map Verif.Text Verif.Parser Verif.Write Verif.Serial Verif.Spec

variable {D : Type}

/-- A request between `a` and `b` failed. -/
def Failed (M : Nat → Bool) (a b : Nat) : Prop := ∃ i, a ≤ i ∧ i < b ∧ M i = true

variable {M : Nat → Bool}

theorem failed_none (a : Nat) : ¬ Failed M a a := by
  rintro ⟨i, h1, h2, -⟩; omega

theorem failed_here {a b : Nat} (h : M a = true) (hb : a < b) : Failed M a b := ⟨a, Nat.le_refl _, hb, h⟩

theorem failed_skip {a b : Nat} (h : ¬ M a = true) : Failed M a b ↔ Failed M (a + 1) b := by
  constructor
  · rintro ⟨i, h1, h2, h3⟩
    refine ⟨i, ?_, h2, h3⟩
    rcases Nat.eq_or_lt_of_le h1 with e | e
    · subst e; exact absurd h3 h
    · exact e
  · rintro ⟨i, h1, h2, h3⟩
    exact ⟨i, by omega, h2, h3⟩

theorem failed_trans {a b c : Nat} (h1 : a ≤ b) (h2 : b ≤ c) : Failed M a c ↔ Failed M a b ∨ Failed M b c := by
  constructor
  · rintro ⟨i, h3, h4, h5⟩
    by_cases h : i < b
    · exact .inl ⟨i, h3, h, h5⟩
    · exact .inr ⟨i, by omega, h4, h5⟩
  · rintro (⟨i, h3, h4, h5⟩ | ⟨i, h3, h4, h5⟩)
    · exact ⟨i, h3, by omega, h5⟩
    · exact ⟨i, by omega, h4, h5⟩

/-- What holds of a call on data `old` in state `s` with result `r`; `g` is the result when memory suffices. -/
structure Fine (M : Nat → Bool) {α : Type} (P : α → Prop) (cnt : α → Int) (g : Status × α) (old : α) (s : St) (r : Res α) : Prop where
  next : s.next ≤ r.st.next
  exc : r.status = .kException ↔ Failed M s.next r.st.next
  pure : r.status ≠ .kException → (r.status, r.data) = g
  ordered : P r.data
  ledger : ∃ leak : Int, r.st.live - s.live = cnt r.data - cnt old + leak ∧ (leak = 0 ∨ leak = 1 ∧ r.status = .kException)

section
variable {α : Type} {P : α → Prop} {cnt : α → Int}

theorem fine_none {g : Status × α} {old : α} {s : St} (h : g.1 ≠ .kException) (hp : P g.2) (hc : cnt g.2 = cnt old) :
    Fine M P cnt g old s ⟨g.1, g.2, s⟩ where
  next := Nat.le_refl _
  exc := ⟨fun e => absurd e h, fun e => absurd e (failed_none _)⟩
  pure := fun _ => rfl
  ordered := hp
  ledger := ⟨0, by simp [hc], .inl rfl⟩

theorem fine_assign {old new : α} (s : St) (ho : P old) (hn : P new) (hc : cnt new = cnt old) :
    Fine M P cnt (.kOk, new) old s (assignM M old new s) := by
  unfold assignM
  split
  · rename_i h
    exact ⟨Nat.le_succ _, ⟨fun _ => failed_here h (Nat.lt_succ_self _), fun _ => rfl⟩, fun h => absurd rfl h, ho,
      0, by simp [St.ask], .inl rfl⟩
  · rename_i h
    refine ⟨Nat.le_succ _, ⟨fun h => by simp at h, fun hf => ?_⟩, fun _ => rfl, hn, 0, by simp [St.ask, hc], .inl rfl⟩
    rw [failed_skip h] at hf
    exact absurd hf (failed_none _)

/-- The sum of a weight over the entries of a map. -/
def total (w : α → Int) (l : List (Bytes × α)) : Int := (l.map fun e => w e.2).sum

theorem get_none_above {k : Bytes} {l : List (Bytes × α)} (h : ∀ e ∈ l, nameLt k e.1 = true) : get k l = none := by
  cases hg : get k l with
  | none => rfl
  | some x =>
    have := h _ (get_mem hg)
    simp [nameLt_strict.irrefl] at this

theorem total_put (w : α → Int) (k : Bytes) (x : α) (l : List (Bytes × α)) (hs : Sorted nameLt l) :
    total w (put k x l) = total w l + w x - ((get k l).map w).getD 0 := by
  induction l with
  | nil => simp [put, total, Serial.get]
  | cons e l ih =>
    obtain ⟨a, y⟩ := e
    have hs' := List.pairwise_cons.1 hs
    simp only [put, Serial.get]
    split
    · simp only [total, List.map_cons, List.sum_cons, Option.map_some, Option.getD_some]
      omega
    · rename_i hne
      split
      · rename_i hlt
        rw [get_none_above fun e he => nameLt_strict.trans _ _ _ hlt (hs'.1 e he)]
        simp only [total, List.map_cons, List.sum_cons, Option.map_none, Option.getD_none]
        omega
      · have := ih hs'.2
        simp only [total, List.map_cons, List.sum_cons] at this ⊢
        omega

variable {f : Value D → α → St → Res α} {g : Value D → α → Status × α} {dflt : α}

theorem fine_elems (hf : ∀ v o s, P o → Fine M P cnt (g v o) o s (f v o s)) (hd : P dflt)
    (l : List (Value D)) (data : List α) (s : St) (hp : ∀ x ∈ data, P x) :
    Fine M (fun d => ∀ x ∈ d, P x) (fun d => (d.map cnt).sum) (desElems (fun v => g v dflt) l data) data s
      (desElemsM M f cnt dflt l data s) := by
  induction l generalizing data s with
  | nil => exact fine_none (g := (Status.kOk, data)) (by simp) hp rfl
  | cons v l ih =>
    simp only [desElemsM]
    by_cases h0 : M s.next = true
    · rw [if_pos h0]
      exact ⟨Nat.le_succ _, ⟨fun _ => failed_here h0 (Nat.lt_succ_self _), fun _ => rfl⟩, fun h => absurd rfl h, hp, 0,
        by simp [St.ask], .inl rfl⟩
    · rw [if_neg h0]
      obtain ⟨f1, f2, f3, f4, leak, f5, f6⟩ := hf v dflt (s.ask.add (cnt dflt)) hd
      generalize f v dflt (s.ask.add (cnt dflt)) = r at f1 f2 f3 f4 f5 f6
      simp only [St.ask, St.add] at f1 f2 f5
      by_cases hk : r.status = .kOk
      · have hne : r.status ≠ .kException := by rw [hk]; simp
        have hpu := f3 hne
        have hnf : ¬ Failed M (s.next + 1) r.st.next := fun h => hne (f2.2 h)
        have hl : leak = 0 := f6.resolve_right fun h => hne h.2
        rw [if_pos hk]
        by_cases h1 : M r.st.next = true
        · rw [if_pos h1]
          refine ⟨?_, ⟨fun _ => ?_, fun _ => rfl⟩, fun h => absurd rfl h, hp, 0, ?_, .inl rfl⟩
          · simp only [St.ask, St.add]; omega
          · exact ⟨r.st.next, by omega, by simp [St.ask, St.add], h1⟩
          · simp only [St.ask, St.add]; omega
        · rw [if_neg h1]
          have e : desElems (fun v => g v dflt) (v :: l) data = desElems (fun v => g v dflt) l (data ++ [r.data]) := by
            simp only [desElems, ← hpu]; rw [if_pos hk]
          rw [e]
          obtain ⟨i1, i2, i3, i4, leak', i5, i6⟩ := ih (data ++ [r.data]) ((r.st.ask.add (cnt r.data)).add (-cnt r.data)) (by
            intro x hx
            rcases List.mem_append.1 hx with hx | hx
            · exact hp x hx
            · rw [List.mem_singleton.1 hx]; exact f4)
          generalize desElemsM M f cnt dflt l (data ++ [r.data]) ((r.st.ask.add (cnt r.data)).add (-cnt r.data)) = q at i1 i2 i3 i4 i5 i6 ⊢
          simp only [St.ask, St.add] at i1 i2 i5
          refine ⟨?_, ?_, i3, i4, leak', ?_, i6⟩
          · omega
          · rw [i2, failed_skip h0, failed_trans (a := s.next + 1) (b := r.st.next) (by omega) (by omega)]
            simp only [hnf, false_or]
            rw [failed_skip h1]
          · simp only [List.map_append, List.map_cons, List.map_nil, List.sum_append, List.sum_cons, List.sum_nil] at i5
            omega
      · rw [if_neg hk]
        refine ⟨?_, ?_, fun h => ?_, hp, leak, ?_, f6⟩
        · simp only [St.add]; omega
        · simp only [St.add]
          rw [f2, failed_skip h0]
        · have := f3 h
          simp only [desElems, ← this]
          rw [if_neg hk]
        · simp only [St.add]; omega

theorem fine_vec (hf : ∀ v o s, P o → Fine M P cnt (g v o) o s (f v o s)) (hd : P dflt)
    (l : List (Value D)) (data : List α) (s : St) (hp : ∀ x ∈ data, P x) :
    Fine M (fun d => ∀ x ∈ d, P x) (fun d => (d.map cnt).sum) (desElems (fun v => g v dflt) l data) data s
      (desVecM M f cnt dflt l data s) := by
  have : ∀ l data s, desVecM M f cnt dflt l data s = desElemsM M f cnt dflt l data s := by
    intro l
    induction l with
    | nil => intro data s; rfl
    | cons v l ih =>
      intro data s
      simp only [desVecM, desElemsM, ih]
      have : ∀ (s : St) (n : Int), (s.add n).add (-n) = s := by intro s n; simp [St.add, Int.add_neg_cancel_right]
      rw [this]
  rw [this]
  exact fine_elems hf hd l data s hp

theorem fine_map (hf : ∀ v o s, P o → Fine M P cnt (g v o) o s (f v o s)) (hd : P dflt) (h0 : cnt dflt = 0)
    (l : List (Bytes × Value D)) (data : List (Bytes × α)) (s : St) (hs : Sorted nameLt data) (hp : ∀ e ∈ data, P e.2) :
    Fine M (fun d => Sorted nameLt d ∧ ∀ e ∈ d, P e.2) (total fun x => 1 + cnt x) (desMap g dflt l data) data s
      (desMapM M f cnt dflt l data s) := by
  induction l generalizing data s with
  | nil => exact fine_none (g := (Status.kOk, data)) (by simp) ⟨hs, hp⟩ rfl
  | cons a l ih =>
    obtain ⟨k, v⟩ := a
    have keep : ∀ x, P x → Sorted nameLt (put k x data) ∧ ∀ e ∈ put k x data, P e.2 := by
      intro x hx
      refine ⟨put_sorted _ _ _ hs, fun e he => ?_⟩
      rcases put_mem he with rfl | he
      · exact hx
      · exact hp e he
    simp only [desMapM]
    cases hg : get k data with
    | some old =>
      dsimp only
      obtain ⟨f1, f2, f3, f4, leak, f5, f6⟩ := hf v old s (hp _ (get_mem hg))
      generalize f v old s = r at f1 f2 f3 f4 f5 f6
      have ht := total_put (fun x => 1 + cnt x) k r.data data hs
      rw [hg] at ht
      simp only [Option.map_some, Option.getD_some] at ht
      by_cases hk : r.status = .kOk
      · have hne : r.status ≠ .kException := by rw [hk]; simp
        have hpu := f3 hne
        have hnf : ¬ Failed M s.next r.st.next := fun h => hne (f2.2 h)
        have hl : leak = 0 := f6.resolve_right fun h => hne h.2
        have e : desMap g dflt ((k, v) :: l) data = desMap g dflt l (put k r.data data) := by
            simp only [desMap, hg, ← hpu, hk, ne_eq, not_true, if_false]
        rw [if_neg (by simpa using hk), e]
        obtain ⟨i1, i2, i3, i4, leak', i5, i6⟩ := ih (put k r.data data) r.st (keep _ f4).1 (keep _ f4).2
        refine ⟨by omega, ?_, i3, i4, leak', by omega, i6⟩
        rw [i2, failed_trans f1 i1]
        simp [hnf]
      · rw [if_pos hk]
        refine ⟨f1, f2, fun h => ?_, keep _ f4, leak, by simp only; omega, f6⟩
        have := f3 h
        simp only [desMap, hg, ← this, hk, ne_eq, not_false_eq_true, if_true]
    | none =>
      dsimp only
      by_cases hm : M s.next = true
      · rw [if_pos hm]
        exact ⟨Nat.le_succ _, ⟨fun _ => failed_here hm (Nat.lt_succ_self _), fun _ => rfl⟩, fun h => absurd rfl h, ⟨hs, hp⟩, 0,
          by simp [St.ask], .inl rfl⟩
      · rw [if_neg hm]
        by_cases hm1 : M (s.next + 1) = true
        · rw [if_pos (by simpa [St.ask, St.add] using hm1)]
          refine ⟨by simp [St.ask, St.add]; omega, ⟨fun _ => ⟨s.next + 1, by omega, by simp [St.ask, St.add], hm1⟩, fun _ => rfl⟩,
            fun h => absurd rfl h, ⟨hs, hp⟩, 1, by simp [St.ask, St.add, h0]; omega, .inr ⟨rfl, rfl⟩⟩
        · rw [if_neg (by simpa [St.ask, St.add] using hm1)]
          obtain ⟨f1, f2, f3, f4, leak, f5, f6⟩ := hf v dflt (s.ask.add (1 + cnt dflt)).ask hd
          generalize f v dflt (s.ask.add (1 + cnt dflt)).ask = r at f1 f2 f3 f4 f5 f6
          simp only [St.ask, St.add, h0] at f1 f2 f5
          have ht := total_put (fun x => 1 + cnt x) k r.data data hs
          rw [hg] at ht
          simp only [Option.map_none, Option.getD_none] at ht
          have hsk : ∀ b, Failed M s.next b ↔ Failed M (s.next + 1 + 1) b := fun b => by
            rw [failed_skip hm, failed_skip hm1]
          by_cases hk : r.status = .kOk
          · have hne : r.status ≠ .kException := by rw [hk]; simp
            have hpu := f3 hne
            have hnf : ¬ Failed M (s.next + 1 + 1) r.st.next := fun h => hne (f2.2 h)
            have hl : leak = 0 := f6.resolve_right fun h => hne h.2
            have e : desMap g dflt ((k, v) :: l) data = desMap g dflt l (put k r.data data) := by
              simp only [desMap, hg, ← hpu, hk, ne_eq, not_true, if_false]
            rw [if_neg (by simpa using hk), e]
            obtain ⟨i1, i2, i3, i4, leak', i5, i6⟩ := ih (put k r.data data) r.st (keep _ f4).1 (keep _ f4).2
            refine ⟨by omega, ?_, i3, i4, leak', by omega, i6⟩
            rw [i2, hsk, failed_trans f1 i1]
            simp [hnf]
          · rw [if_pos hk]
            refine ⟨by simp only [St.add]; omega, ?_, fun h => ?_, ⟨hs, hp⟩, leak, by simp only [St.add]; omega, f6⟩
            · simp only [St.add]
              rw [f2, hsk]
            · have := f3 h
              simp only [desMap, hg, ← this, hk, ne_eq, not_false_eq_true, if_true]

theorem fine_stdMap (hf : ∀ v o s, P o → Fine M P cnt (g v o) o s (f v o s)) (hd : P dflt) (h0 : cnt dflt = 0)
    (l : List (Bytes × Value D)) (data : List (Bytes × α)) (s : St) (hs : Sorted nameLt data) (hp : ∀ e ∈ data, P e.2) :
    Fine M (fun d => Sorted nameLt d ∧ ∀ e ∈ d, P e.2) (total cnt) (desStdMap g dflt l data) data s
      (desStdMapM M f cnt dflt l data s) := by
  induction l generalizing data s with
  | nil => exact fine_none (g := (Status.kOk, data)) (by simp) ⟨hs, hp⟩ rfl
  | cons a l ih =>
    obtain ⟨k, v⟩ := a
    simp only [desStdMapM]
    by_cases hm : M s.next = true
    · rw [if_pos hm]
      exact ⟨Nat.le_succ _, ⟨fun _ => failed_here hm (Nat.lt_succ_self _), fun _ => rfl⟩, fun h => absurd rfl h, ⟨hs, hp⟩, 0,
        by simp [St.ask], .inl rfl⟩
    · rw [if_neg hm]
      suffices key : ∀ o, P o → (Serial.get (cText k) data).getD dflt = o → cnt o = ((Serial.get (cText k) data).map cnt).getD 0 →
          Fine M (fun d => Sorted nameLt d ∧ ∀ e ∈ d, P e.2) (total cnt) (desStdMap g dflt ((k, v) :: l) data) data s
            (if (f v o s.ask).status ≠ .kOk then ⟨(f v o s.ask).status, put (cText k) (f v o s.ask).data data, (f v o s.ask).st⟩
            else desStdMapM M f cnt dflt l (put (cText k) (f v o s.ask).data data) (f v o s.ask).st) by
        cases hg : Serial.get (cText k) data with
        | some old => exact key old (hp _ (get_mem hg)) (by rw [hg]; rfl) (by rw [hg]; rfl)
        | none =>
          have : s.ask.add (cnt dflt) = s.ask := by simp [St.add, h0]
          dsimp only
          rw [this]
          exact key dflt hd (by rw [hg]; rfl) (by rw [hg]; simp [h0])
      intro o ho e1 e2
      obtain ⟨f1, f2, f3, f4, leak, f5, f6⟩ := hf v o s.ask ho
      generalize f v o s.ask = r at f1 f2 f3 f4 f5 f6
      simp only [St.ask] at f1 f2 f5
      have ht := total_put cnt (cText k) r.data data hs
      rw [← e2] at ht
      have keep : Sorted nameLt (put (cText k) r.data data) ∧ ∀ e ∈ put (cText k) r.data data, P e.2 := by
        refine ⟨put_sorted _ _ _ hs, fun e he => ?_⟩
        rcases put_mem he with rfl | he
        · exact f4
        · exact hp e he
      by_cases hk : r.status = .kOk
      · have hne : r.status ≠ .kException := by rw [hk]; simp
        have hpu := f3 hne
        have hnf : ¬ Failed M (s.next + 1) r.st.next := fun h => hne (f2.2 h)
        have hl : leak = 0 := f6.resolve_right fun h => hne h.2
        have e : desStdMap g dflt ((k, v) :: l) data = desStdMap g dflt l (put (cText k) r.data data) := by
          simp only [desStdMap, e1, ← hpu, hk, ne_eq, not_true, if_false]
        rw [if_neg (by simpa using hk), e]
        obtain ⟨i1, i2, i3, i4, leak', i5, i6⟩ := ih (put (cText k) r.data data) r.st keep.1 keep.2
        refine ⟨by omega, ?_, i3, i4, leak', by omega, i6⟩
        rw [i2, failed_skip hm, failed_trans f1 i1]
        simp [hnf]
      · rw [if_pos hk]
        refine ⟨by simp only; omega, ?_, fun h => ?_, keep, leak, by simp only; omega, f6⟩
        · simp only
          rw [f2, failed_skip hm]
        · have := f3 h
          simp only [desStdMap, e1, ← this, hk, ne_eq, not_false_eq_true, if_true]

theorem fine_named (hf : ∀ v o s, P o → Fine M P cnt (g v o) o s (f v o s)) (v : Value D) (n : Bytes) (o : α) (s : St) (ho : P o) :
    Fine M P cnt (desNamed g v n o) o s (desNamedM f v n o s) := by
  cases v with
  | obj m i =>
    cases hm : findMapElement nameLt n m with
    | none =>
      simp only [desNamedM, desNamed, hm]
      exact fine_none (g := (Status.kNameNotPresent, o)) (by simp) ho rfl
    | some e =>
      simp only [desNamedM, desNamed, hm]
      exact hf _ _ _ ho
  | _ => exact fine_none (g := (Status.kInvalidValueType, o)) (by simp) ho rfl
end

theorem fine_seq {α β : Type} {P : α → Prop} {Q : β → Prop} {c : α → Int} {c' : β → Int} {g : Status × α} {g' : Status × β} {o : α} {o' : β}
    {s : St} {r : Res α} {r' : Res β} (h1 : Fine M P c g o s r) (h2 : Fine M Q c' g' o' r.st r') (hne : r.status ≠ .kException) :
    Fine M (fun d : α × β => P d.1 ∧ Q d.2) (fun d => c d.1 + c' d.2) (g'.1, (r.data, g'.2)) (o, o') s
      ⟨r'.status, (r.data, r'.data), r'.st⟩ := by
  obtain ⟨f1, f2, f3, f4, leak, f5, f6⟩ := h1
  obtain ⟨i1, i2, i3, i4, leak', i5, i6⟩ := h2
  have hnf : ¬ Failed M s.next r.st.next := fun h => hne (f2.2 h)
  have hl : leak = 0 := f6.resolve_right fun h => hne h.2
  refine ⟨by simp only; omega, ?_, fun h => ?_, ⟨f4, i4⟩, leak', by simp only; omega, i6⟩
  · simp only
    rw [i2, failed_trans f1 i1]
    simp [hnf]
  · rw [← i3 h]
theorem fine_reserve {α : Type} {P : List α → Prop} {c : List α → Int} {g : Status × List α} {o : List α} (s : St)
    {r : Res (List α)} (h : Fine M P c g [] (s.add (- c o)).ask r) (hp : P []) (hc : c [] = 0) :
    Fine M P c g o s (if M (s.add (- c o)).next then ⟨.kException, [], (s.add (- c o)).ask⟩ else r) := by
  by_cases hm : M s.next = true
  · rw [if_pos (by simpa [St.add] using hm)]
    exact ⟨Nat.le_succ _, ⟨fun _ => failed_here hm (Nat.lt_succ_self _), fun _ => rfl⟩, fun h => absurd rfl h, hp, 0,
      by simp [St.ask, St.add, hc]; omega, .inl rfl⟩
  · rw [if_neg (by simpa [St.add] using hm)]
    obtain ⟨f1, f2, f3, f4, leak, f5, f6⟩ := h
    simp only [St.ask, St.add] at f1 f2 f5
    refine ⟨by omega, ?_, f3, f4, leak, by omega, f6⟩
    rw [f2, failed_skip hm]

variable (dflt : (t : Ty) → t.Den D)

mutual
theorem fine_des (hd : ∀ t, Ty.Ordered t (dflt t)) (h0 : ∀ t, elems t (dflt t) = 0) : ∀ (t : Ty) (v : Value D) (o : t.Den D) (s : St),
    t.Ordered o → Fine M t.Ordered (elems t) (deserialize dflt t v o) o s (desM M dflt t v o s)
  | .str, v, o, s, ho => by
    cases v with
    | str x => exact fine_assign s trivial trivial rfl
    | _ => exact fine_none (g := (Status.kInvalidValueType, o)) (by simp) ho rfl
  | .num, v, o, s, ho => by
    cases v with
    | num x => exact fine_none (g := (Status.kOk, x)) (by simp) trivial rfl
    | _ => exact fine_none (g := (Status.kInvalidValueType, o)) (by simp) ho rfl
  | .bool, v, o, s, ho => by
    cases v with
    | bool x => exact fine_none (g := (Status.kOk, x)) (by simp) trivial rfl
    | _ => exact fine_none (g := (Status.kInvalidValueType, o)) (by simp) ho rfl
  | .null, v, o, s, ho => by
    cases v with
    | null => exact fine_none (g := (Status.kOk, ())) (by simp) trivial rfl
    | _ => exact fine_none (g := (Status.kInvalidValueType, o)) (by simp) ho rfl
  | .stdString, v, o, s, ho => by
    cases v with
    | str x => exact fine_assign s trivial trivial rfl
    | _ => exact fine_none (g := (Status.kInvalidValueType, o)) (by simp) ho rfl
  | .arr t, v, o, s, ho => by
    cases v with
    | arr l =>
      have hf := fine_elems (M := M) (g := deserialize dflt t) 
        (fun v o s h => fine_des hd h0 t v o s h) (hd t) l [] (s.add (- elems (.arr t) o)).ask (by simp)
      exact fine_reserve s hf (by intro x hx; cases hx) rfl
    | _ => exact fine_none (g := (Status.kInvalidValueType, o)) (by simp) ho rfl
  | .vec t, v, o, s, ho => by
    cases v with
    | arr l =>
      have hf := fine_vec (M := M) (g := deserialize dflt t) 
        (fun v o s h => fine_des hd h0 t v o s h) (hd t) l [] (s.add (- elems (.vec t) o)).ask (by simp)
      exact fine_reserve s hf (by intro x hx; cases hx) rfl
    | _ => exact fine_none (g := (Status.kInvalidValueType, o)) (by simp) ho rfl
  | .map t, v, o, s, ho => by
    cases v with
    | obj m _ => exact fine_map (fun v o s h => fine_des hd h0 t v o s h) (hd t) (h0 t) (toList m) o s ho.1 ho.2
    | _ => exact fine_none (g := (Status.kInvalidValueType, o)) (by simp) ho rfl
  | .stdMap t, v, o, s, ho => by
    cases v with
    | obj m _ => exact fine_stdMap (fun v o s h => fine_des hd h0 t v o s h) (hd t) (h0 t) (toList m) o s ho.1 ho.2
    | _ => exact fine_none (g := (Status.kInvalidValueType, o)) (by simp) ho rfl
  | .struct _ fs, v, o, s, ho => fine_proto hd h0 fs v o s ho
theorem fine_proto (hd : ∀ t, Ty.Ordered t (dflt t)) (h0 : ∀ t, elems t (dflt t) = 0) : ∀ (fs : Fields) (v : Value D) (o : fs.Den D) (s : St),
    fs.Ordered o → Fine M fs.Ordered (elemsF fs) (desProto dflt fs v o) o s (desProtoM M dflt fs v o s)
  | .nil, v, o, s, ho => fine_none (g := (Status.kOk, o)) (by simp) ho rfl
  | .here t rest, v, o, s, ho => by
    have h1 := fine_des hd h0 t v o.1 s ho.1
    simp only [desProtoM, desProto]
    generalize desM M dflt t v o.1 s = r at h1 ⊢
    by_cases hk : r.status = .kOk
    · have h2 := fine_proto hd h0 rest v o.2 r.st ho.2
      have hk' : ¬ (r.status ≠ .kOk) := by simpa using hk
      rw [if_neg hk']
      have hpu := h1.pure (by rw [hk]; simp)
      simp only [← hpu, ne_eq, hk, not_true, if_false]
      exact fine_seq h1 h2 (by rw [hk]; simp)
    · rw [if_pos hk]
      obtain ⟨f1, f2, f3, f4, leak, f5, f6⟩ := h1
      refine ⟨f1, f2, fun h => ?_, ⟨f4, ho.2⟩, leak, by simp only [elemsF]; omega, f6⟩
      simp only [← f3 h, ne_eq, hk, not_false_eq_true, if_true]
  | .named opt name t rest, v, o, s, ho => by
    have h1 := fine_named (M := M) (fun v o s h => fine_des hd h0 t v o s h) v name o.1 s ho.1
    simp only [desProtoM, desProto]
    generalize desNamedM (desM M dflt t) v name o.1 s = r at h1 ⊢
    by_cases hk : r.status ≠ .kOk ∧ (opt = false ∨ r.status ≠ .kNameNotPresent)
    · rw [if_pos hk]
      obtain ⟨f1, f2, f3, f4, leak, f5, f6⟩ := h1
      refine ⟨f1, f2, fun h => ?_, ⟨f4, ho.2⟩, leak, by simp only [elemsF]; omega, f6⟩
      rw [← f3 h, if_pos hk]
    · have h2 := fine_proto hd h0 rest v o.2 r.st ho.2
      have hne : r.status ≠ .kException := by
        intro h
        exact hk ⟨by rw [h]; simp, .inr (by rw [h]; simp)⟩
      have hpu := h1.pure hne
      rw [if_neg hk, ← hpu, if_neg hk]
      exact fine_seq h1 h2 hne
end

end Verif.SerialMem
