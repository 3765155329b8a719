import Verif.Lemmas.ReaderBuiltin
import Verif.Lemmas.Write

/-!
# What `Write` emits, with any kind of number token

The theorems of `Verif/Lemmas/Write.lean` for the grammar of `Verif/Spec/Syntax.lean`; only the printer `N.fmt` of the number
operations is used. A number `x` comes back as a number related to it by `rel`.
-/

namespace Verif.ParserB

open Verif Verif.Text Verif.Number Verif.Map Verif.Spec Verif.Doc Verif.Parser
open Verif.Write hiding Alike SameDoc Good GoodNode Yields

variable {D ν : Type} {val : ν → D} {rel : D → D → Prop}

/-- A node that is written as intended, for given token relations. -/
def GoodNode (val : ν → D) (rel : D → D → Prop) (N : NumOps D) (numTok : Bytes → ν → Prop) (strTok : Bytes → Bytes → Prop) : Value D → Prop
  | .num x => ∃ d : ν, numTok (cText (N.fmt x)) d ∧ rel x (val d)
  | .str s => strTok (0x22 :: (cText s ++ [0x22])) s
  | .obj t o => (∀ k, (findMapElement nameLt k t).isSome ↔ k ∈ o) ∧
      ∀ k ∈ o, strTok (0x22 :: (cText k ++ [0x22])) k
  | _ => True

/-- Every node of the document is. -/
def Good (val : ν → D) (rel : D → D → Prop) (N : NumOps D) (numTok : Bytes → ν → Prop) (strTok : Bytes → Bytes → Prop) (v : Value D) : Prop :=
  ∀ path x, walk v path = some x → GoodNode val rel N numTok strTok x

theorem Good.node {N : NumOps D} {nt : Bytes → ν → Prop} {st : Bytes → Bytes → Prop} {v : Value D}
    (h : Good val rel N nt st v) : GoodNode val rel N nt st v := h [] v rfl

theorem Good.step {N : NumOps D} {nt : Bytes → ν → Prop} {st : Bytes → Bytes → Prop} {v v' : Value D} {s : Step}
    (h : Good val rel N nt st v) (hs : step v s = some v') : Good val rel N nt st v' := by
  intro path x hx
  exact h (s :: path) x (by simp [walk, hs, hx])

/-- Same kind and contents. -/
def Alike (rel : D → D → Prop) : Value D → Value D → Prop
  | .null, .null => True
  | .bool b, .bool b' => b' = b
  | .num x, .num x' => rel x x'
  | .str s, .str s' => s' = s
  | .arr l, .arr l' => l'.length = l.length
  | .obj t o, .obj t' o' =>
      (∀ k, (findMapElement nameLt k t').isSome ↔ (findMapElement nameLt k t).isSome) ∧ o' = o
  | _, _ => False

/-- Two documents that no walk can tell apart. -/
def SameDoc (rel : D → D → Prop) (v v' : Value D) : Prop :=
  ∀ path, (walk v path = none ∧ walk v' path = none) ∨
    ∃ x x', walk v path = some x ∧ walk v' path = some x' ∧ Alike rel x x'

theorem sameDoc_leaf {v v' : Value D} (h : Alike rel v v') (h1 : ∀ s, step v s = none) (h2 : ∀ s, step v' s = none) :
    SameDoc rel v v' := by
  intro path
  cases path with
  | nil => exact .inr ⟨v, v', rfl, rfl, h⟩
  | cons s p => left; simp [walk, h1, h2]

theorem sameDoc_node {v v' : Value D} (h : Alike rel v v')
    (hs : ∀ s, (step v s = none ∧ step v' s = none) ∨
      ∃ x x', step v s = some x ∧ step v' s = some x' ∧ SameDoc rel x x') : SameDoc rel v v' := by
  intro path
  cases path with
  | nil => exact .inr ⟨v, v', rfl, rfl, h⟩
  | cons s p =>
    rcases hs s with ⟨h1, h2⟩ | ⟨x, x', h1, h2, h3⟩
    · left; simp [walk, h1, h2]
    · simp only [walk, h1, h2, Option.bind_some]
      exact h3 p

variable {nt : Bytes → ν → Prop} {st : Bytes → Bytes → Prop}

/-- What writing a value in an indentation `ind` yields. -/
def Yields (val : ν → D) (rel : D → D → Prop) (N : NumOps D) (nt : Bytes → ν → Prop) (st : Bytes → Bytes → Prop) (w : Bytes → Value D → Out WRes)
    (v : Value D) : Prop :=
  ∀ ind, Ws ind → ∃ chunks j, w ind v = .ok ⟨.kOk, chunks, ind⟩ ∧ SVal nt st chunks.flatten j ∧
    SameDoc rel v (interp val j)

theorem writeElems_good (N : NumOps D) (w : Bytes → Value D → Out WRes) (l : List (Value D)) (hl : l ≠ [])
    (h : ∀ v ∈ l, Yields val rel N nt st w v) (ind : Bytes) (hi : Ws ind) (w0 w1 : Bytes) (hw0 : Ws w0) (hw1 : Ws w1) :
    ∃ chunks js, writeElems w l ind = .ok ⟨.kOk, chunks, ind⟩ ∧
      SElems nt st (w0 ++ (chunks.flatten ++ w1)) js ∧
      js.length = l.length ∧ ∀ (i : Nat) v, l[i]? = some v → ∃ j, js.get i = some j ∧ SameDoc rel v (interp val j) := by
  have hnl : Ws [0x0A] := by simp [Ws]
  induction l generalizing w0 with
  | nil => exact absurd rfl hl
  | cons v l ih =>
    obtain ⟨cv, j, h1, h2, h3⟩ := h v (by simp) ind hi
    cases l with
    | nil =>
      refine ⟨ind :: (cv ++ [[], [0x0A]]), .cons j .nil, by simp [writeElems, h1], ?_, rfl, ?_⟩
      · have := SElems.one (hw0.append hi) h2 (hnl.append hw1)
        simpa using this
      · intro i u hu
        cases i with
        | zero => simp at hu; subst hu; exact ⟨j, rfl, h3⟩
        | succ i => simp at hu
    | cons v2 l =>
      obtain ⟨c', js, h4, h5, h6, h7⟩ := ih (by simp) (fun u hu => h u (by simp [hu])) [0x0A] hnl
      refine ⟨_, .cons j js, by rw [writeElems]; simp only [h1, Out.ok_bind, h4]; rfl, ?_, ?_, ?_⟩
      · have := SElems.cons (hw0.append hi) h2 Ws.nil h5
        simpa using this
      · simp [SynL.length, h6]
      · intro i u hu
        cases i with
        | zero => simp at hu; subst hu; exact ⟨j, rfl, h3⟩
        | succ i => exact h7 i u (by simpa using hu)

theorem writeMembers_good (N : NumOps D) (w : Bytes → Value D → Out WRes) (t : Tree Bytes (Value D))
    (names : List Bytes) (hl : names ≠ [])
    (h : ∀ k ∈ names, ∃ x, findMapElement nameLt k t = some x ∧ Yields val rel N nt st w x.2)
    (hn : ∀ k ∈ names, st (0x22 :: (cText k ++ [0x22])) k)
    (ind : Bytes) (hi : Ws ind) (w0 w1 : Bytes) (hw0 : Ws w0) (hw1 : Ws w1) :
    ∃ chunks m, writeMembers w t names ind = .ok ⟨.kOk, chunks, ind⟩ ∧
      SMembers nt st (w0 ++ (chunks.flatten ++ w1)) m ∧ m.names = names ∧
      ∀ k x, findMapElement nameLt k t = some x → k ∈ names →
        ∃ j, m.first k = some j ∧ SameDoc rel x.2 (interp val j) := by
  have hnl : Ws [0x0A] := by simp [Ws]
  have hsp : Ws [0x20] := by simp [Ws]
  induction names generalizing w0 with
  | nil => exact absurd rfl hl
  | cons k names ih =>
    obtain ⟨x, hx, hy⟩ := h k (by simp)
    have hk : x.1 = k := find_key hx
    obtain ⟨cv, j, h1, h2, h3⟩ := hy ind hi
    have hfirst : ∀ m, ∀ k' y, findMapElement nameLt k' t = some y → k' = k →
        ∃ j', (SynM.cons k j m).first k' = some j' ∧ SameDoc rel y.2 (interp val j') := by
      intro m k' y hy' e
      subst e
      rw [hx] at hy'
      simp only [Option.some.injEq] at hy'
      subst hy'
      exact ⟨j, by simp [SynM.first], h3⟩
    cases names with
    | nil =>
      refine ⟨ind :: [0x22] :: cText x.1 :: [0x22, 0x20, 0x3A, 0x20] :: (cv ++ [[], [0x0A]]), .cons k j .nil,
        by simp [writeMembers, hx, h1], ?_, rfl, ?_⟩
      · have := SMembers.one (hw0.append hi) (hn k (by simp)) hsp hsp h2 (hnl.append hw1)
        simpa [hk] using this
      · intro k' y hy' hm
        exact hfirst _ k' y hy' (by simpa using hm)
    | cons k2 names =>
      obtain ⟨c', m, h4, h5, h6, h7⟩ := ih (by simp) (fun u hu => h u (by simp [hu]))
        (fun u hu => hn u (by simp [hu])) [0x0A] hnl
      refine ⟨_, .cons k j m, by rw [writeMembers, hx]; simp only [h1, Out.ok_bind, h4]; rfl, ?_, ?_, ?_⟩
      · have := SMembers.cons (hw0.append hi) (hn k (by simp)) hsp hsp h2 Ws.nil h5
        simpa [hk] using this
      · simp [SynM.names, h6]
      · intro k' y hy' hm
        by_cases e : k' = k
        · exact hfirst _ k' y hy' e
        · have : k' ∈ k2 :: names := by
            rcases List.mem_cons.1 hm with e' | e'
            · exact absurd e' e
            · exact e'
          obtain ⟨j', h8, h9⟩ := h7 k' y hy' this
          exact ⟨j', by simp [SynM.first, show ¬ k = k' from fun e' => e e'.symm, h8], h9⟩

theorem writeValue_good (N : NumOps D) (il : Nat) (ic : Byte) (hic : il = 0 ∨ Ws [ic]) (n : Nat) :
    ∀ v : Value D, sizeOf v ≤ n → Good val rel N nt st v → Yields val rel N nt st (writeValue N il ic n) v := by
  have hnl : Ws [0x0A] := by simp [Ws]
  induction n with
  | zero =>
    intro v h
    exfalso; cases v <;> simp at h <;> omega
  | succ n ih =>
    intro v hsz hg ind hi
    have hi' := hi.append (ws_replicate hic)
    cases v with
    | str s =>
      refine ⟨_, .str s, rfl, ?_, sameDoc_leaf rfl (by intro s; cases s <;> rfl) (by intro s; cases s <;> rfl)⟩
      have := SVal.str (numTok := nt) hg.node
      simpa using this
    | num x =>
      obtain ⟨d, h1, h2⟩ := hg.node
      refine ⟨_, .num d, rfl, ?_, sameDoc_leaf ?_ (by intro s; cases s <;> rfl) (by intro s; cases s <;> rfl)⟩
      · simpa using SVal.num (strTok := st) h1
      · exact h2
    | bool b =>
      cases b with
      | true => exact ⟨_, .bool true, rfl, .true, sameDoc_leaf rfl (by intro s; cases s <;> rfl) (by intro s; cases s <;> rfl)⟩
      | false => exact ⟨_, .bool false, rfl, .false, sameDoc_leaf rfl (by intro s; cases s <;> rfl) (by intro s; cases s <;> rfl)⟩
    | null => exact ⟨_, .null, rfl, .null, sameDoc_leaf trivial (by intro s; cases s <;> rfl) (by intro s; cases s <;> rfl)⟩
    | arr l =>
      by_cases hl : l = []
      · subst hl
        refine ⟨[[0x5B, 0x0A], ind, [0x5D]], .arr .nil, by simp [writeValue, writeElems], ?_, sameDoc_leaf rfl ?_ ?_⟩
        · have := SVal.arrEmpty (numTok := nt) (strTok := st) (hnl.append hi)
          simpa using this
        · intro s; cases s <;> simp [step]
        · intro s; cases s <;> simp [step, interp, interpL]
      · obtain ⟨chunks, js, h1, h2, h3, h4⟩ := writeElems_good N (writeValue N il ic n) l hl (by
          intro v hv
          obtain ⟨i, hi⟩ := List.getElem?_of_mem hv
          refine ih v ?_ (hg.step (s := .index i) (by simpa [step] using hi))
          have := mem_sizeOf hv; simp at hsz; omega) (ind ++ List.replicate il ic) hi' [0x0A] ind hnl hi
        refine ⟨[0x5B, 0x0A] :: (chunks ++ [ind, [0x5D]]), .arr js, ?_, ?_, ?_⟩
        · simp only [writeValue, h1, Out.ok_bind, take_back]; rfl
        · have := SVal.arr h2
          simpa using this
        · refine sameDoc_node (by simp [Alike, interp, interpL_length, h3]) ?_
          intro s
          cases s with
          | member k => left; simp [step, interp]
          | index i =>
            simp only [step, interp, interpL_get]
            cases hli : l[i]? with
            | none =>
              left
              refine ⟨rfl, ?_⟩
              have : js.get i = none := by
                have := interpL_get val js i
                rw [List.getElem?_eq_none (by
                  rw [interpL_length, h3]
                  rw [List.getElem?_eq_none_iff] at hli
                  exact hli)] at this
                cases hx : js.get i with
                | none => rfl
                | some y => simp [hx] at this
              simp [this]
            | some v =>
              obtain ⟨j, h5, h6⟩ := h4 i v hli
              exact .inr ⟨v, interp val j, rfl, by simp [h5], h6⟩
    | obj t o =>
      obtain ⟨hgo, hgn⟩ := hg.node
      by_cases hl : o = []
      · subst hl
        have hnone : ∀ k, findMapElement nameLt k t = none := by
          intro k
          have := hgo k
          simp at this
          exact this
        refine ⟨[[0x7B, 0x0A], ind, [0x7D]], .obj .nil, by simp [writeValue, writeMembers], ?_, sameDoc_leaf ?_ ?_ ?_⟩
        · have := SVal.objEmpty (numTok := nt) (strTok := st) (hnl.append hi)
          simpa using this
        · refine ⟨?_, rfl⟩
          intro k; rw [hnone]; simp [interpM, findMapElement]
        · intro s; cases s <;> simp [step, hnone]
        · intro s; cases s <;> simp [step, interp, interpM, findMapElement]
      · obtain ⟨chunks, m, h1, h2, h3, h4⟩ := writeMembers_good N (writeValue N il ic n) t o hl (by
          intro k hk
          have := (hgo k).2 hk
          rw [Option.isSome_iff_exists] at this
          obtain ⟨x, hx⟩ := this
          refine ⟨x, hx, ih x.2 ?_ (hg.step (s := .member k) (by simp [step, hx]))⟩
          have := find_sizeOf hx; simp at hsz; omega) hgn (ind ++ List.replicate il ic) hi' [0x0A] ind hnl hi
        refine ⟨[0x7B, 0x0A] :: (chunks ++ [ind, [0x7D]]), .obj m, ?_, ?_, ?_⟩
        · simp only [writeValue, h1, Out.ok_bind, take_back]; rfl
        · have := SVal.obj h2
          simpa using this
        · have key : ∀ k, (findMapElement nameLt k t = none ∧ m.first k = none) ∨
              ∃ x j, findMapElement nameLt k t = some x ∧ m.first k = some j ∧ SameDoc rel x.2 (interp val j) := by
            intro k
            cases hf : findMapElement nameLt k t with
            | none =>
              left; refine ⟨rfl, ?_⟩
              have h5 : k ∉ o := by rw [← hgo, hf]; simp
              rw [← h3, ← first_isSome] at h5
              simpa using h5
            | some x =>
              obtain ⟨j, h5, h6⟩ := h4 k x hf ((hgo k).1 (by simp [hf]))
              exact .inr ⟨x, j, rfl, h5, h6⟩
          refine sameDoc_node ⟨?_, h3⟩ ?_
          · intro k
            rw [find_interpM]
            rcases key k with ⟨h5, h6⟩ | ⟨x, j, h5, h6, -⟩
            · simp [h5, h6]
            · simp [h5, h6]
          · intro s
            cases s with
            | index i => left; simp [step, interp]
            | member k =>
              simp only [step, interp, find_interpM]
              rcases key k with ⟨h5, h6⟩ | ⟨x, j, h5, h6, h7⟩
              · left; simp [h5, h6]
              · exact .inr ⟨x.2, interp val j, by simp [h5], by simp [h6], h7⟩

/-! ## Layout of parsed documents -/

end Verif.ParserB
