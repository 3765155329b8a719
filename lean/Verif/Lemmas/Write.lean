import Verif.Model.File
import Verif.Spec.Layout
import Verif.Props.Parser

/-! # Lemmas about the writer -/

namespace Verif.Write

open Verif Verif.Map Verif.Text Verif.Number Verif.Parser Verif.Doc Verif.Spec Verif.Props

variable {D : Type}

/-! ## Sizes -/

theorem find_sizeOf {k : Bytes} {t : Tree Bytes (Value D)} {x : Bytes × Value D}
    (h : findMapElement nameLt k t = some x) : sizeOf x.2 < sizeOf t := by
  induction t with
  | nil => simp [findMapElement] at h
  | node b l k' v r ihl ihr =>
    unfold findMapElement at h
    split at h
    · have := ihl h; simp; omega
    · split at h
      · have := ihr h; simp; omega
      · simp only [Option.some.injEq] at h; subst h; simp; omega

theorem mem_sizeOf {l : List (Value D)} {v : Value D} (h : v ∈ l) : sizeOf v < sizeOf l := by
  exact List.sizeOf_lt_of_mem h

theorem find_key {k : Bytes} {t : Tree Bytes (Value D)} {x : Bytes × Value D}
    (h : findMapElement nameLt k t = some x) : x.1 = k := by
  induction t with
  | nil => simp [findMapElement] at h
  | node b l k' v r ihl ihr =>
    unfold findMapElement at h
    split at h
    · exact ihl h
    · split at h
      · exact ihr h
      · rename_i h1 h2
        simp only [Option.some.injEq] at h; subst h
        exact (nameLt_strict.total k k' (by simpa using h1) (by simpa using h2)).symm

/-! ## Termination -/

theorem writeElems_total (w : Bytes → Value D → Out WRes) (l : List (Value D))
    (h : ∀ v ∈ l, ∀ ind, ∃ r, w ind v = .ok r) : ∀ ind, ∃ r, writeElems w l ind = .ok r := by
  induction l with
  | nil => intro ind; exact ⟨_, rfl⟩
  | cons v l ih =>
    intro ind
    obtain ⟨r, hr⟩ := h v (by simp) ind
    obtain ⟨r', hr'⟩ := ih (fun v hv => h v (by simp [hv])) r.indent
    simp only [writeElems, hr, Out.ok_bind]
    split
    · exact ⟨_, rfl⟩
    · rw [hr']; exact ⟨_, rfl⟩

theorem writeMembers_total (w : Bytes → Value D → Out WRes) (t : Tree Bytes (Value D)) (names : List Bytes)
    (h : ∀ k x, findMapElement nameLt k t = some x → ∀ ind, ∃ r, w ind x.2 = .ok r) :
    ∀ ind, ∃ r, writeMembers w t names ind = .ok r := by
  induction names with
  | nil => intro ind; exact ⟨_, rfl⟩
  | cons k names ih =>
    intro ind
    simp only [writeMembers]
    cases hf : findMapElement nameLt k t with
    | none => exact ⟨_, rfl⟩
    | some x =>
      obtain ⟨r, hr⟩ := h k x hf ind
      obtain ⟨r', hr'⟩ := ih r.indent
      simp only [hr, Out.ok_bind]
      split
      · exact ⟨_, rfl⟩
      · rw [hr']; exact ⟨_, rfl⟩

theorem writeValue_total (N : NumOps D) (il : Nat) (ic : Byte) (n : Nat) :
    ∀ (v : Value D) (ind : Bytes), sizeOf v ≤ n → ∃ r, writeValue N il ic n ind v = .ok r := by
  induction n with
  | zero =>
    intro v ind h
    exfalso; cases v <;> simp at h <;> omega
  | succ n ih =>
    intro v ind h
    cases v with
    | str s => exact ⟨_, rfl⟩
    | num x => exact ⟨_, rfl⟩
    | bool b => cases b <;> exact ⟨_, rfl⟩
    | null => exact ⟨_, rfl⟩
    | arr l =>
      obtain ⟨r, hr⟩ := writeElems_total (writeValue N il ic n) l (fun v hv ind => ih v ind (by
        have := mem_sizeOf hv; simp at h; omega)) (ind ++ List.replicate il ic)
      simp only [writeValue, hr, Out.ok_bind]
      split <;> exact ⟨_, rfl⟩
    | obj t o =>
      obtain ⟨r, hr⟩ := writeMembers_total (writeValue N il ic n) t o (fun k x hx ind => ih x.2 ind (by
        have := find_sizeOf hx; simp at h; omega)) (ind ++ List.replicate il ic)
      simp only [writeValue, hr, Out.ok_bind]
      split <;> exact ⟨_, rfl⟩

/-! ## More fuel gives the same result -/

theorem writeElems_mono {w w' : Bytes → Value D → Out WRes} (l : List (Value D))
    (h : ∀ v ∈ l, ∀ ind r, w ind v = .ok r → w' ind v = .ok r) :
    ∀ ind r, writeElems w l ind = .ok r → writeElems w' l ind = .ok r := by
  induction l with
  | nil => intro ind r h; exact h
  | cons v l ih =>
    intro ind r hr
    simp only [writeElems] at hr ⊢
    rw [Out.bind_eq_ok] at hr ⊢
    obtain ⟨r1, h1, h2⟩ := hr
    refine ⟨r1, h v (by simp) _ _ h1, ?_⟩
    split at h2
    · rename_i hc; rw [if_pos hc]; exact h2
    · rename_i hc; rw [if_neg hc]
      rw [Out.bind_eq_ok] at h2 ⊢
      obtain ⟨r2, h3, h4⟩ := h2
      exact ⟨r2, ih (fun v hv => h v (by simp [hv])) _ _ h3, h4⟩

theorem writeMembers_mono {w w' : Bytes → Value D → Out WRes} (t : Tree Bytes (Value D)) (names : List Bytes)
    (h : ∀ v ind r, w ind v = .ok r → w' ind v = .ok r) :
    ∀ ind r, writeMembers w t names ind = .ok r → writeMembers w' t names ind = .ok r := by
  induction names with
  | nil => intro ind r h; exact h
  | cons k names ih =>
    intro ind r hr
    simp only [writeMembers] at hr ⊢
    split
    · rename_i hf; rw [hf] at hr; exact hr
    · rename_i key v hf
      rw [hf] at hr
      simp only at hr
      rw [Out.bind_eq_ok] at hr ⊢
      obtain ⟨r1, h1, h2⟩ := hr
      refine ⟨r1, h v _ _ h1, ?_⟩
      split at h2
      · rename_i hc; rw [if_pos hc]; exact h2
      · rename_i hc; rw [if_neg hc]
        rw [Out.bind_eq_ok] at h2 ⊢
        obtain ⟨r2, h3, h4⟩ := h2
        exact ⟨r2, ih _ _ h3, h4⟩

theorem writeValue_mono (N : NumOps D) (il : Nat) (ic : Byte) {n m : Nat} (hnm : n ≤ m) :
    ∀ (v : Value D) (ind : Bytes) r, writeValue N il ic n ind v = .ok r → writeValue N il ic m ind v = .ok r := by
  induction n generalizing m with
  | zero => intro v ind r h; simp [writeValue] at h
  | succ n ih =>
    obtain ⟨m', rfl⟩ : ∃ m', m = m' + 1 := ⟨m - 1, by omega⟩
    intro v ind r h
    cases v with
    | str s => exact h
    | num x => exact h
    | bool b => cases b <;> exact h
    | null => exact h
    | arr l =>
      simp only [writeValue] at h ⊢
      rw [Out.bind_eq_ok] at h ⊢
      obtain ⟨r1, h1, h2⟩ := h
      exact ⟨r1, writeElems_mono l (fun v _ ind r => ih (by omega) v ind r) _ _ h1, h2⟩
    | obj t o =>
      simp only [writeValue] at h ⊢
      rw [Out.bind_eq_ok] at h ⊢
      obtain ⟨r1, h1, h2⟩ := h
      exact ⟨r1, writeMembers_mono t o (fun v ind r => ih (by omega) v ind r) _ _ h1, h2⟩

/-! ## Texts of the dialect and of the RFC -/

/-- A node that is written as intended, for given token relations. -/
def GoodNode (N : NumOps D) (numTok : Bytes → Dec → Prop) (strTok : Bytes → Bytes → Prop) : Value D → Prop
  | .num x => ∃ d : Dec, numTok (cText (N.fmt x)) d ∧ x = N.conv d.neg d.mantissa d.exponent
  | .str s => strTok (0x22 :: (cText s ++ [0x22])) s
  | .obj t o => (∀ k, (findMapElement nameLt k t).isSome ↔ k ∈ o) ∧
      ∀ k ∈ o, strTok (0x22 :: (cText k ++ [0x22])) k
  | _ => True

/-- Every node of the document is. -/
def Good (N : NumOps D) (numTok : Bytes → Dec → Prop) (strTok : Bytes → Bytes → Prop) (v : Value D) : Prop :=
  ∀ path x, walk v path = some x → GoodNode N numTok strTok x

theorem Good.node {N : NumOps D} {nt : Bytes → Dec → Prop} {st : Bytes → Bytes → Prop} {v : Value D}
    (h : Good N nt st v) : GoodNode N nt st v := h [] v rfl

theorem Good.step {N : NumOps D} {nt : Bytes → Dec → Prop} {st : Bytes → Bytes → Prop} {v v' : Value D} {s : Step}
    (h : Good N nt st v) (hs : step v s = some v') : Good N nt st v' := by
  intro path x hx
  exact h (s :: path) x (by simp [walk, hs, hx])

/-- Same kind and contents. -/
def Alike : Value D → Value D → Prop
  | .null, .null => True
  | .bool b, .bool b' => b' = b
  | .num x, .num x' => x' = x
  | .str s, .str s' => s' = s
  | .arr l, .arr l' => l'.length = l.length
  | .obj t o, .obj t' o' =>
      (∀ k, (findMapElement nameLt k t').isSome ↔ (findMapElement nameLt k t).isSome) ∧ o' = o
  | _, _ => False

/-- Two documents that no walk can tell apart. -/
def SameDoc (v v' : Value D) : Prop :=
  ∀ path, (walk v path = none ∧ walk v' path = none) ∨
    ∃ x x', walk v path = some x ∧ walk v' path = some x' ∧ Alike x x'

theorem sameDoc_leaf {v v' : Value D} (h : Alike v v') (h1 : ∀ s, step v s = none) (h2 : ∀ s, step v' s = none) :
    SameDoc v v' := by
  intro path
  cases path with
  | nil => exact .inr ⟨v, v', rfl, rfl, h⟩
  | cons s p => left; simp [walk, h1, h2]

theorem sameDoc_node {v v' : Value D} (h : Alike v v')
    (hs : ∀ s, (step v s = none ∧ step v' s = none) ∨
      ∃ x x', step v s = some x ∧ step v' s = some x' ∧ SameDoc x x') : SameDoc v v' := by
  intro path
  cases path with
  | nil => exact .inr ⟨v, v', rfl, rfl, h⟩
  | cons s p =>
    rcases hs s with ⟨h1, h2⟩ | ⟨x, x', h1, h2, h3⟩
    · left; simp [walk, h1, h2]
    · simp only [walk, h1, h2, Option.bind_some]
      exact h3 p

variable {nt : Bytes → Dec → Prop} {st : Bytes → Bytes → Prop}

/-- What writing a value in an indentation `ind` yields. -/
def Yields (N : NumOps D) (nt : Bytes → Dec → Prop) (st : Bytes → Bytes → Prop) (w : Bytes → Value D → Out WRes)
    (v : Value D) : Prop :=
  ∀ ind, Ws ind → ∃ chunks j, w ind v = .ok ⟨.kOk, chunks, ind⟩ ∧ Val nt st chunks.flatten j ∧
    SameDoc v (interp N j)

theorem writeElems_good (N : NumOps D) (w : Bytes → Value D → Out WRes) (l : List (Value D)) (hl : l ≠ [])
    (h : ∀ v ∈ l, Yields N nt st w v) (ind : Bytes) (hi : Ws ind) (w0 w1 : Bytes) (hw0 : Ws w0) (hw1 : Ws w1) :
    ∃ chunks js, writeElems w l ind = .ok ⟨.kOk, chunks, ind⟩ ∧
      Elems nt st (w0 ++ (chunks.flatten ++ w1)) js ∧
      js.length = l.length ∧ ∀ (i : Nat) v, l[i]? = some v → ∃ j, js.get i = some j ∧ SameDoc v (interp N j) := by
  have hnl : Ws [0x0A] := by simp [Ws]
  induction l generalizing w0 with
  | nil => exact absurd rfl hl
  | cons v l ih =>
    obtain ⟨cv, j, h1, h2, h3⟩ := h v (by simp) ind hi
    cases l with
    | nil =>
      refine ⟨ind :: (cv ++ [[], [0x0A]]), .cons j .nil, by simp [writeElems, h1], ?_, rfl, ?_⟩
      · have := Elems.one (hw0.append hi) h2 (hnl.append hw1)
        simpa using this
      · intro i u hu
        cases i with
        | zero => simp at hu; subst hu; exact ⟨j, rfl, h3⟩
        | succ i => simp at hu
    | cons v2 l =>
      obtain ⟨c', js, h4, h5, h6, h7⟩ := ih (by simp) (fun u hu => h u (by simp [hu])) [0x0A] hnl
      refine ⟨_, .cons j js, by rw [writeElems]; simp only [h1, Out.ok_bind, h4]; rfl, ?_, ?_, ?_⟩
      · have := Elems.cons (hw0.append hi) h2 Ws.nil h5
        simpa using this
      · simp [JL.length, h6]
      · intro i u hu
        cases i with
        | zero => simp at hu; subst hu; exact ⟨j, rfl, h3⟩
        | succ i => exact h7 i u (by simpa using hu)

theorem writeMembers_good (N : NumOps D) (w : Bytes → Value D → Out WRes) (t : Tree Bytes (Value D))
    (names : List Bytes) (hl : names ≠ [])
    (h : ∀ k ∈ names, ∃ x, findMapElement nameLt k t = some x ∧ Yields N nt st w x.2)
    (hn : ∀ k ∈ names, st (0x22 :: (cText k ++ [0x22])) k)
    (ind : Bytes) (hi : Ws ind) (w0 w1 : Bytes) (hw0 : Ws w0) (hw1 : Ws w1) :
    ∃ chunks m, writeMembers w t names ind = .ok ⟨.kOk, chunks, ind⟩ ∧
      Members nt st (w0 ++ (chunks.flatten ++ w1)) m ∧ m.names = names ∧
      ∀ k x, findMapElement nameLt k t = some x → k ∈ names →
        ∃ j, m.first k = some j ∧ SameDoc x.2 (interp N j) := by
  have hnl : Ws [0x0A] := by simp [Ws]
  have hsp : Ws [0x20] := by simp [Ws]
  induction names generalizing w0 with
  | nil => exact absurd rfl hl
  | cons k names ih =>
    obtain ⟨x, hx, hy⟩ := h k (by simp)
    have hk : x.1 = k := find_key hx
    obtain ⟨cv, j, h1, h2, h3⟩ := hy ind hi
    have hfirst : ∀ m, ∀ k' y, findMapElement nameLt k' t = some y → k' = k →
        ∃ j', (JM.cons k j m).first k' = some j' ∧ SameDoc y.2 (interp N j') := by
      intro m k' y hy' e
      subst e
      rw [hx] at hy'
      simp only [Option.some.injEq] at hy'
      subst hy'
      exact ⟨j, by simp [JM.first], h3⟩
    cases names with
    | nil =>
      refine ⟨ind :: [0x22] :: cText x.1 :: [0x22, 0x20, 0x3A, 0x20] :: (cv ++ [[], [0x0A]]), .cons k j .nil,
        by simp [writeMembers, hx, h1], ?_, rfl, ?_⟩
      · have := Members.one (hw0.append hi) (hn k (by simp)) hsp hsp h2 (hnl.append hw1)
        simpa [hk] using this
      · intro k' y hy' hm
        exact hfirst _ k' y hy' (by simpa using hm)
    | cons k2 names =>
      obtain ⟨c', m, h4, h5, h6, h7⟩ := ih (by simp) (fun u hu => h u (by simp [hu]))
        (fun u hu => hn u (by simp [hu])) [0x0A] hnl
      refine ⟨_, .cons k j m, by rw [writeMembers, hx]; simp only [h1, Out.ok_bind, h4]; rfl, ?_, ?_, ?_⟩
      · have := Members.cons (hw0.append hi) (hn k (by simp)) hsp hsp h2 Ws.nil h5
        simpa [hk] using this
      · simp [JM.names, h6]
      · intro k' y hy' hm
        by_cases e : k' = k
        · exact hfirst _ k' y hy' e
        · have : k' ∈ k2 :: names := by
            rcases List.mem_cons.1 hm with e' | e'
            · exact absurd e' e
            · exact e'
          obtain ⟨j', h8, h9⟩ := h7 k' y hy' this
          exact ⟨j', by simp [JM.first, show ¬ k = k' from fun e' => e e'.symm, h8], h9⟩

theorem ws_replicate {il : Nat} {ic : Byte} (h : il = 0 ∨ Ws [ic]) : Ws (List.replicate il ic) := by
  intro c hc
  rw [List.mem_replicate] at hc
  rcases h with h | h
  · exact absurd h hc.1
  · exact h c (by simp [hc.2])

theorem take_back (ind : Bytes) (il : Nat) (ic : Byte) :
    (ind ++ List.replicate il ic).take ((ind ++ List.replicate il ic).length - il) = ind := by
  simp

/-- Writing a good document yields a text for it. -/
theorem writeValue_good (N : NumOps D) (il : Nat) (ic : Byte) (hic : il = 0 ∨ Ws [ic]) (n : Nat) :
    ∀ v : Value D, sizeOf v ≤ n → Good N nt st v → Yields N nt st (writeValue N il ic n) v := by
  have hnl : Ws [0x0A] := by simp [Ws]
  induction n with
  | zero =>
    intro v h
    exfalso; cases v <;> simp at h <;> omega
  | succ n ih =>
    intro v hsz hg ind hi
    have hi' := hi.append (ws_replicate hic)
    cases v with
    | str s =>
      refine ⟨_, .str s, rfl, ?_, sameDoc_leaf rfl (by intro s; cases s <;> rfl) (by intro s; cases s <;> rfl)⟩
      have := Val.str (numTok := nt) hg.node
      simpa using this
    | num x =>
      obtain ⟨d, h1, h2⟩ := hg.node
      refine ⟨_, .num d, rfl, ?_, sameDoc_leaf ?_ (by intro s; cases s <;> rfl) (by intro s; cases s <;> rfl)⟩
      · simpa using Val.num (strTok := st) h1
      · rw [h2]; rfl
    | bool b =>
      cases b with
      | true => exact ⟨_, .bool true, rfl, .true, sameDoc_leaf rfl (by intro s; cases s <;> rfl) (by intro s; cases s <;> rfl)⟩
      | false => exact ⟨_, .bool false, rfl, .false, sameDoc_leaf rfl (by intro s; cases s <;> rfl) (by intro s; cases s <;> rfl)⟩
    | null => exact ⟨_, .null, rfl, .null, sameDoc_leaf trivial (by intro s; cases s <;> rfl) (by intro s; cases s <;> rfl)⟩
    | arr l =>
      by_cases hl : l = []
      · subst hl
        refine ⟨[[0x5B, 0x0A], ind, [0x5D]], .arr .nil, by simp [writeValue, writeElems], ?_, sameDoc_leaf rfl ?_ ?_⟩
        · have := Val.arrEmpty (numTok := nt) (strTok := st) (hnl.append hi)
          simpa using this
        · intro s; cases s <;> simp [step]
        · intro s; cases s <;> simp [step, interp, interpL]
      · obtain ⟨chunks, js, h1, h2, h3, h4⟩ := writeElems_good N (writeValue N il ic n) l hl (by
          intro v hv
          obtain ⟨i, hi⟩ := List.getElem?_of_mem hv
          refine ih v ?_ (hg.step (s := .index i) (by simpa [step] using hi))
          have := mem_sizeOf hv; simp at hsz; omega) (ind ++ List.replicate il ic) hi' [0x0A] ind hnl hi
        refine ⟨[0x5B, 0x0A] :: (chunks ++ [ind, [0x5D]]), .arr js, ?_, ?_, ?_⟩
        · simp only [writeValue, h1, Out.ok_bind, take_back]; rfl
        · have := Val.arr h2
          simpa using this
        · refine sameDoc_node (by simp [Alike, interp, interpL_length, h3]) ?_
          intro s
          cases s with
          | member k => left; simp [step, interp]
          | index i =>
            simp only [step, interp, interpL_get]
            cases hli : l[i]? with
            | none =>
              left
              refine ⟨rfl, ?_⟩
              have : js.get i = none := by
                have := interpL_get N js i
                rw [List.getElem?_eq_none (by
                  rw [interpL_length, h3]
                  rw [List.getElem?_eq_none_iff] at hli
                  exact hli)] at this
                cases hx : js.get i with
                | none => rfl
                | some y => simp [hx] at this
              simp [this]
            | some v =>
              obtain ⟨j, h5, h6⟩ := h4 i v hli
              exact .inr ⟨v, interp N j, rfl, by simp [h5], h6⟩
    | obj t o =>
      obtain ⟨hgo, hgn⟩ := hg.node
      by_cases hl : o = []
      · subst hl
        have hnone : ∀ k, findMapElement nameLt k t = none := by
          intro k
          have := hgo k
          simp at this
          exact this
        refine ⟨[[0x7B, 0x0A], ind, [0x7D]], .obj .nil, by simp [writeValue, writeMembers], ?_, sameDoc_leaf ?_ ?_ ?_⟩
        · have := Val.objEmpty (numTok := nt) (strTok := st) (hnl.append hi)
          simpa using this
        · refine ⟨?_, rfl⟩
          intro k; rw [hnone]; simp [interpM, findMapElement]
        · intro s; cases s <;> simp [step, hnone]
        · intro s; cases s <;> simp [step, interp, interpM, findMapElement]
      · obtain ⟨chunks, m, h1, h2, h3, h4⟩ := writeMembers_good N (writeValue N il ic n) t o hl (by
          intro k hk
          have := (hgo k).2 hk
          rw [Option.isSome_iff_exists] at this
          obtain ⟨x, hx⟩ := this
          refine ⟨x, hx, ih x.2 ?_ (hg.step (s := .member k) (by simp [step, hx]))⟩
          have := find_sizeOf hx; simp at hsz; omega) hgn (ind ++ List.replicate il ic) hi' [0x0A] ind hnl hi
        refine ⟨[0x7B, 0x0A] :: (chunks ++ [ind, [0x7D]]), .obj m, ?_, ?_, ?_⟩
        · simp only [writeValue, h1, Out.ok_bind, take_back]; rfl
        · have := Val.obj h2
          simpa using this
        · have key : ∀ k, (findMapElement nameLt k t = none ∧ m.first k = none) ∨
              ∃ x j, findMapElement nameLt k t = some x ∧ m.first k = some j ∧ SameDoc x.2 (interp N j) := by
            intro k
            cases hf : findMapElement nameLt k t with
            | none =>
              left; refine ⟨rfl, ?_⟩
              have h5 : k ∉ o := by rw [← hgo, hf]; simp
              rw [← h3, ← first_isSome] at h5
              simpa using h5
            | some x =>
              obtain ⟨j, h5, h6⟩ := h4 k x hf ((hgo k).1 (by simp [hf]))
              exact .inr ⟨x, j, rfl, h5, h6⟩
          refine sameDoc_node ⟨?_, h3⟩ ?_
          · intro k
            rw [find_interpM]
            rcases key k with ⟨h5, h6⟩ | ⟨x, j, h5, h6, -⟩
            · simp [h5, h6]
            · simp [h5, h6]
          · intro s
            cases s with
            | index i => left; simp [step, interp]
            | member k =>
              simp only [step, interp, find_interpM]
              rcases key k with ⟨h5, h6⟩ | ⟨x, j, h5, h6, h7⟩
              · left; simp [h5, h6]
              · exact .inr ⟨x.2, interp N j, by simp [h5], by simp [h6], h7⟩

/-! ## Layout of parsed documents -/

theorem cText_nul_free {s : Bytes} (h : (0 : Byte) ∉ s) : cText s = s := by
  induction s with
  | nil => rfl
  | cons c s ih =>
    simp only [List.mem_cons, not_or] at h
    simp [cText, show ¬ c = 0 from fun e => h.1 e.symm, ih h.2]

theorem cText_clean (s : Bytes) : (0 : Byte) ∉ cText s := by
  induction s with
  | nil => simp [cText]
  | cons c s ih =>
    simp only [cText]
    split
    · simp
    · rename_i h; simp [ih, show ¬ 0 = c from fun e => h e.symm]

/-- How numbers of the text are printed again. -/
def reprint (N : NumOps D) (d : Dec) : Bytes := cText (N.fmt (N.conv d.neg d.mantissa d.exponent))

/-- The names found by `FindMapElement` and the rows for them. -/
theorem firstRow_layouts (num : Dec → Bytes) (u ind : Bytes) (m : JM) (k : Bytes) (j : J) (h : m.first k = some j) :
    firstRow k (m.layouts num u ind) = j.layout num u ind := by
  induction m using jm_ind with
  | nil => simp [JM.first] at h
  | cons k' j' m ih =>
    simp only [JM.first] at h
    simp only [JM.layouts, firstRow]
    split at h
    · rename_i e; rw [if_pos e]; simp only [Option.some.injEq] at h; rw [h]
    · rename_i e; rw [if_neg e]; exact ih h

/-- What writing the value of a text yields, exactly. -/
def Lays (N : NumOps D) (il : Nat) (ic : Byte) (w : Bytes → Value D → Out WRes) (j : J) : Prop :=
  ∀ ind, ∃ chunks, w ind (interp N j) = .ok ⟨.kOk, chunks, ind⟩ ∧
    chunks.flatten = j.layout (reprint N) (List.replicate il ic) ind

theorem writeElems_lays (N : NumOps D) (il : Nat) (ic : Byte) (w : Bytes → Value D → Out WRes) (l : JL)
    (h : ∀ i j, l.get i = some j → Lays N il ic w j) (ind : Bytes) :
    ∃ chunks, writeElems w (interpL N l) ind = .ok ⟨.kOk, chunks, ind⟩ ∧
      chunks.flatten = rows ind (l.layouts (reprint N) (List.replicate il ic) ind) := by
  induction l using jl_ind with
  | nil => exact ⟨[], rfl, rfl⟩
  | cons j l ih =>
    obtain ⟨cv, h1, h2⟩ := h 0 j rfl ind
    obtain ⟨c', h4, h5⟩ := ih (fun i j' hj => h (i + 1) j' hj)
    refine ⟨_, by simp only [interpL, writeElems, h1, Out.ok_bind, h4]; rfl, ?_⟩
    cases l with
    | nil => simp [interpL, JL.layouts, rows, h2, h5]
    | cons j2 l =>
      simp only [JL.layouts, rows] at h5 ⊢
      simp [interpL, h2, h5]

theorem writeMembers_lays (N : NumOps D) (il : Nat) (ic : Byte) (w : Bytes → Value D → Out WRes)
    (t : Tree Bytes (Value D)) (m : JM) (ind : Bytes) (body : Bytes → Bytes)
    (h : ∀ k ∈ m.names, ∃ j, findMapElement nameLt k t = some (k, interp N j) ∧ Lays N il ic w j ∧
      body k = j.layout (reprint N) (List.replicate il ic) ind)
    (hn : ∀ k ∈ m.names, (0 : Byte) ∉ k) :
    ∃ chunks, writeMembers w t m.names ind = .ok ⟨.kOk, chunks, ind⟩ ∧
      chunks.flatten = rows ind ((m.layouts (reprint N) (List.replicate il ic) ind).map fun e =>
        0x22 :: (e.1 ++ 0x22 :: 0x20 :: 0x3A :: 0x20 :: body e.1)) := by
  induction m using jm_ind with
  | nil => exact ⟨[], rfl, rfl⟩
  | cons k j0 m ih =>
    obtain ⟨j, hf, hw, hb⟩ := h k (by simp [JM.names])
    obtain ⟨cv, h1, h2⟩ := hw ind
    have hk : cText k = k := cText_nul_free (hn k (by simp [JM.names]))
    obtain ⟨c', h4, h5⟩ := ih (fun k' hk' => h k' (by simp [JM.names, hk'])) (fun k' hk' => hn k' (by simp [JM.names, hk']))
    refine ⟨_, by simp only [JM.names, writeMembers, hf, h1, Out.ok_bind, h4]; rfl, ?_⟩
    cases m with
    | nil => simp [JM.names, JM.layouts, rows, h2, h5, hk, hb]
    | cons k2 j2 m =>
      simp only [JM.layouts, List.map_cons, rows] at h5 ⊢
      simp [JM.names, h2, h5, hk, hb]

theorem strs_get {l : JL} {i : Nat} {j : J} (h : l.get i = some j) (hl : ∀ s ∈ l.strs, (0 : Byte) ∉ s) :
    ∀ s ∈ j.strs, (0 : Byte) ∉ s := fun s hs => hl s (get_strs l i h hs)

theorem writeValue_lays (N : NumOps D) (il : Nat) (ic : Byte) (n : Nat) :
    ∀ j : J, sizeOf (interp N j) ≤ n → (∀ s ∈ j.strs, (0 : Byte) ∉ s) → Lays N il ic (writeValue N il ic n) j := by
  induction n with
  | zero =>
    intro j h
    exfalso; cases j <;> simp [interp] at h <;> omega
  | succ n ih =>
    intro j hsz hs ind
    cases j with
    | str s =>
      refine ⟨_, rfl, ?_⟩
      rw [cText_nul_free (hs s (by simp [J.strs]))]; simp [J.layout]
    | num d => exact ⟨_, rfl, by simp [J.layout, reprint, numVal]⟩
    | bool b => cases b <;> exact ⟨_, rfl, rfl⟩
    | null => exact ⟨_, rfl, rfl⟩
    | arr l =>
      obtain ⟨chunks, h1, h2⟩ := writeElems_lays N il ic (writeValue N il ic n) l (by
        intro i j hj
        refine ih j ?_ (strs_get hj (by simpa [J.strs] using hs))
        have h3 : (interpL N l)[i]? = some (interp N j) := by rw [interpL_get, hj]; rfl
        have := mem_sizeOf (List.mem_of_getElem? h3)
        simp [interp] at hsz; omega) (ind ++ List.replicate il ic)
      refine ⟨[0x5B, 0x0A] :: (chunks ++ [ind, [0x5D]]), ?_, ?_⟩
      · simp only [interp, writeValue, h1, Out.ok_bind, take_back]; rfl
      · simp [J.layout, h2]
    | obj m =>
      have hfind : ∀ k ∈ m.names, ∃ j, m.first k = some j := by
        intro k hk
        rw [← first_isSome, Option.isSome_iff_exists] at hk
        exact hk
      obtain ⟨chunks, h1, h2⟩ := writeMembers_lays N il ic (writeValue N il ic n) (interpM N m .nil) m
        (ind ++ List.replicate il ic)
        (fun k => firstRow k (m.layouts (reprint N) (List.replicate il ic) (ind ++ List.replicate il ic))) (by
        intro k hk
        obtain ⟨j, hj⟩ := hfind k hk
        have h3 : findMapElement nameLt k (interpM N m .nil) = some (k, interp N j) := by rw [find_interpM, hj]; rfl
        refine ⟨j, h3, ih j ?_ ?_, ?_⟩
        · have := find_sizeOf h3
          simp [interp] at hsz this; omega
        · intro s hs'
          exact hs s (by simp only [J.strs]; exact first_strs m k hj hs')
        · exact firstRow_layouts _ _ _ _ _ _ hj) (by
        intro k hk
        exact hs k (by simp only [J.strs]; exact names_strs m hk))
      refine ⟨[0x7B, 0x0A] :: (chunks ++ [ind, [0x7D]]), ?_, ?_⟩
      · simp only [interp, writeValue, h1, Out.ok_bind, take_back]; rfl
      · simp [J.layout, h2]

end Verif.Write
