import Verif.Lemmas.Heap

/-!
# The status of a parse with scarce memory
-/

namespace Verif.Own

open Verif Verif.Text Verif.Number Verif.Parser Verif.Spec

variable {D : Type}

/-- The two statuses a lack of memory can lead to. -/
def Meek (st : Status) : Prop := st = .kException ∨ st = .kExpectedJsonValue

/-- With scarce memory (left): the same result, or one of the two statuses. -/
def Mild {α β : Type} : PRes α → PRes β → Prop
  | .ok rest _, y => ∃ b, y = .ok rest b
  | .err st p, y => Meek st ∨ y = .err st p

/-- The same for loops. -/
def MildL {α β : Type} : LRes α → PRes β → Prop
  | .ok rest _, y => ∃ b, y = .ok rest b
  | .err st p _, y => Meek st ∨ y = .err st p

/-- The computation can only return one of the two statuses. -/
def Meeky (a : Out (PRes (OVal D) × Heap)) : Prop :=
  ∀ x, a = .ok x → ∃ st p, x.1 = .err st p ∧ Meek st

theorem Meeky.ok {st : Status} {p : Bytes} {h : Heap} (hm : Meek st) :
    Meeky (.ok (.err st p, h) : Out (PRes (OVal D) × Heap)) := by
  intro x e
  injection e with e
  subst e
  exact ⟨st, p, rfl, hm⟩

theorem Meeky.bind {α : Type} {a : Out α} {f : α → Out (PRes (OVal D) × Heap)} (hf : ∀ x, a = .ok x → Meeky (f x)) :
    Meeky (a >>= f) := by
  intro y e
  rw [Out.bind_eq_ok] at e
  obtain ⟨x, hx, e⟩ := e
  exact hf x hx y e

theorem Meeky.sim {a : Out (PRes (OVal D) × Heap)} {β : Type} {b : Out (PRes β)} (h : Meeky a) :
    Sim (fun x y => Mild x.1 y) a b := by
  intro x y ex _
  obtain ⟨st, p, e, hm⟩ := h x ex
  rw [e]
  exact .inl hm

theorem meek_exc : Meek .kException := .inl rfl

theorem tryObject_meeky (M : Mem) (N : NumOps D) (n : Nat) {c : Byte} {s : Bytes} (h : Heap) (hc : c ≠ 123) :
    Meeky (tryObject M N n (c :: s) h) := by
  unfold tryObject
  cases n with
  | zero => intro x e; cases e
  | succ n =>
    rw [parseObjectH_succ]
    cases e1 : newValue M .value h with
    | mk o h1 =>
      cases o with
      | none => exact Meeky.ok meek_exc
      | some a =>
        simp only [rd_cons_zero, Out.ok_bind]
        rw [if_pos hc]
        refine Meeky.bind fun x hx => ?_
        rw [Out.bind_eq_ok] at hx
        obtain ⟨h2, -, hx⟩ := hx
        injection hx with hx
        subst hx
        exact Meeky.ok (.inr rfl)

theorem tryArray_meeky (M : Mem) (N : NumOps D) (n : Nat) {c : Byte} {s : Bytes} (h : Heap) (hc : c ≠ 123)
    (hc' : c ≠ 91) : Meeky (tryArray M N n (c :: s) h) := by
  unfold tryArray
  cases n with
  | zero => intro x e; cases e
  | succ n =>
    rw [parseArrayH_succ]
    cases e1 : newValue M .value h with
    | mk o h1 =>
      cases o with
      | none => exact Meeky.ok meek_exc
      | some a =>
        simp only [rd_cons_zero, Out.ok_bind]
        rw [if_pos hc']
        refine Meeky.bind fun x hx => ?_
        rw [Out.bind_eq_ok] at hx
        obtain ⟨h2, -, hx⟩ := hx
        injection hx with hx
        subst hx
        exact tryObject_meeky M N _ h2 hc

/-- A leaf never succeeds where its parser fails. -/
theorem parseLeaf_err {α : Type} (M : Mem) (needs : Bool) {parse : Bytes → Out (PRes α)} {mk : α → Value D} {t : Bytes}
    {h : Heap} {st : Status} {p : Bytes} (he : parse t = .ok (.err st p)) {x : PRes (OVal D) × Heap}
    (hx : parseLeaf M needs parse mk t h = .ok x) :
    x.1 = .err .kException t ∨ x.1 = .err st p := by
  unfold parseLeaf at hx
  cases e1 : newValue M .value h with
  | mk o h1 =>
    rw [e1] at hx
    cases o with
    | none => injection hx with hx; subst hx; exact .inl rfl
    | some a =>
      simp only [he, Out.ok_bind] at hx
      rw [Out.bind_eq_ok] at hx
      obtain ⟨h2, -, hx⟩ := hx
      injection hx with hx
      subst hx
      exact .inr rfl

theorem tryNull_meeky (M : Mem) (N : NumOps D) (n : Nat) {c : Byte} {s : Bytes} (h : Heap) (h1 : c ≠ 123)
    (h2 : c ≠ 91) (h3 : c ≠ 110) : Meeky (tryNull M N n (c :: s) h) := by
  unfold tryNull
  refine Meeky.bind fun x hx => ?_
  obtain ⟨r, h'⟩ := x
  rcases parseLeaf_err M false (parseNull_other h3) hx with e | e <;> simp only at e <;> subst e <;>
    exact tryArray_meeky M N n h' h1 h2

theorem tryBool_meeky (M : Mem) (N : NumOps D) (n : Nat) {c : Byte} {s : Bytes} (h : Heap) (h1 : c ≠ 123)
    (h2 : c ≠ 91) (h3 : c ≠ 110) (h4 : c ≠ 116) (h5 : c ≠ 102) : Meeky (tryBool M N n (c :: s) h) := by
  unfold tryBool
  refine Meeky.bind fun x hx => ?_
  obtain ⟨r, h'⟩ := x
  rcases parseLeaf_err M false (parseBool_other h4 h5) hx with e | e <;> simp only at e <;> subst e <;>
    exact tryNull_meeky M N n h' h1 h2 h3

/-- A leaf: the same result as its parser, or an exception. -/
def Leafy {α β : Type} : PRes α → PRes β → Prop
  | .ok rest _, y => ∃ b, y = .ok rest b
  | .err st p, y => st = .kException ∨ y = .err st p

theorem parseLeaf_leafy {α : Type} {M : Mem} {needs : Bool} {parse : Bytes → Out (PRes α)}
    {mk : α → Value D} {t : Bytes} {h : Heap} :
    Sim (fun x y => parse t = .ok y ∧ Leafy x.1 y) (parseLeaf M needs parse mk t h) (parse t) := by
  intro x y hx hy
  refine ⟨hy, ?_⟩
  unfold parseLeaf at hx
  cases e1 : newValue M .value h with
  | mk o h1 =>
    rw [e1] at hx
    cases o with
    | none => injection hx with hx; subst hx; exact .inl rfl
    | some a =>
      simp only [hy, Out.ok_bind] at hx
      cases y with
      | err st p =>
        simp only at hx
        rw [Out.bind_eq_ok] at hx
        obtain ⟨h2, -, hx⟩ := hx
        injection hx with hx
        subst hx
        exact .inr rfl
      | ok rest v =>
        cases needs with
        | false =>
          injection hx with hx
          subst hx
          exact ⟨_, rfl⟩
        | true =>
          simp only [if_true] at hx
          cases e2 : request M .text h1 with
          | mk b h2 =>
            rw [e2] at hx
            cases b with
            | false =>
              simp only at hx
              rw [Out.bind_eq_ok] at hx
              obtain ⟨h3, -, hx⟩ := hx
              injection hx with hx
              subst hx
              exact .inl rfl
            | true =>
              injection hx with hx
              subst hx
              exact ⟨_, rfl⟩

theorem Leafy.mild {α β γ : Type} {x : PRes α} {y : PRes β} (f : β → γ) (h : Leafy x y) :
    Mild x (match y with | .ok r b => PRes.ok r (f b) | .err st p => .err st p) := by
  cases x with
  | ok r a => obtain ⟨b, rfl⟩ := h; exact ⟨_, rfl⟩
  | err st p =>
    rcases h with rfl | rfl
    · exact .inl meek_exc
    · exact .inr rfl

theorem mild_err {α β : Type} (st : Status) (p : Bytes) : Mild (.err st p : PRes α) (.err st p : PRes β) := .inr rfl
theorem mild_ok {α β : Type} (r : Bytes) (a : α) (b : β) : Mild (.ok r a : PRes α) (.ok r b) := ⟨_, rfl⟩
theorem mildL_err {α β : Type} (st : Status) (p : Bytes) (l : α) : MildL (.err st p l : LRes α) (.err st p : PRes β) :=
  .inr rfl
theorem mildL_ok {α β : Type} (r : Bytes) (a : α) (b : β) : MildL (.ok r a : LRes α) (.ok r b) := ⟨_, rfl⟩

theorem Meek.simL {α β : Type} {st : Status} {p : Bytes} {l : α} {h : Heap} {b : Out (PRes β)} (hm : Meek st) :
    Sim (fun (x : LRes α × Heap) y => MildL x.1 y) (.ok (.err st p l, h)) b := by
  intro x y ex _
  injection ex with ex
  subst ex
  exact .inl hm

theorem parseNumber_nil (N : NumOps D) (x : PRes D) : parseNumber N [] ≠ .ok x := by
  intro h; cases h

theorem number_head (N : NumOps D) {t : Bytes} {y : PRes D} (hy : parseNumber N t = .ok y)
    (hn : (∃ r d, y = .ok r d) ∨ ∃ p, y = .err .kNumbersCannotHaveLeadingZeros p) :
    ∃ c s, t = c :: s ∧ c ≠ 123 ∧ c ≠ 91 ∧ c ≠ 110 ∧ c ≠ 116 ∧ c ≠ 102 := by
  cases t with
  | nil => exact absurd hy (parseNumber_nil N y)
  | cons c s =>
    refine ⟨c, s, rfl, ?_⟩
    have key : ∀ k : Byte, ¬ NumChar k → c ≠ k := by
      rintro k hk rfl
      rw [parseNumber_other N c s hk] at hy
      injection hy with hy
      subst hy
      rcases hn with ⟨_, _, h⟩ | ⟨_, h⟩ <;> cases h
    exact ⟨key _ (by unfold NumChar Digit; decide), key _ (by unfold NumChar Digit; decide), key _ (by unfold NumChar Digit; decide), key _ (by unfold NumChar Digit; decide), key _ (by unfold NumChar Digit; decide)⟩

theorem bool_head {t r : Bytes} {b : Bool} (hy : parseBool t = .ok (.ok r b)) :
    ∃ c s, t = c :: s ∧ c ≠ 123 ∧ c ≠ 91 ∧ c ≠ 110 := by
  cases t with
  | nil => cases hy
  | cons c s =>
    refine ⟨c, s, rfl, ?_⟩
    by_cases h1 : c = 116
    · subst h1; decide
    · by_cases h2 : c = 102
      · subst h2; decide
      · rw [parseBool_other h1 h2] at hy; cases hy

theorem null_head {t r : Bytes} {b : Unit} (hy : parseNull t = .ok (.ok r b)) :
    ∃ c s, t = c :: s ∧ c ≠ 123 ∧ c ≠ 91 := by
  cases t with
  | nil => cases hy
  | cons c s =>
    refine ⟨c, s, rfl, ?_⟩
    by_cases h1 : c = 110
    · subst h1; decide
    · rw [parseNull_other h1] at hy; cases hy

theorem allH_mild (M : Mem) (N : NumOps D) (n : Nat) :
    (∀ t h, Sim (fun x y => Mild x.1 y) (parseAnyH M N n t h) (parseAny N n t)) ∧
    (∀ t h, Sim (fun x y => Mild x.1 y) (parseArrayH M N n t h) (parseArray N n t)) ∧
    (∀ t acc acc0 h, acc.isNil = acc0.isEmpty →
      Sim (fun x y => MildL x.1 y) (arrayLoopH M N n t acc h) (arrayLoop N n t acc0)) ∧
    (∀ t h, Sim (fun x y => Mild x.1 y) (parseObjectH M N n t h) (parseObject N n t)) ∧
    (∀ t acc m order h, acc.isNil = order.isEmpty →
      Sim (fun x y => MildL x.1 y) (objectLoopH M N n t acc h) (objectLoop N n t m order)) := by
  induction n with
  | zero =>
    refine ⟨?_, ?_, ?_, ?_, ?_⟩ <;> intros <;> (intro _ _ e _; cases e)
  | succ n ih =>
    obtain ⟨ih1, ih2, ih3, ih4, ih5⟩ := ih
    refine ⟨?_, ?_, ?_, ?_, ?_⟩
    · intro t h
      rw [parseAnyH_succ, parseAny_succ]
      refine Sim.bind parseLeaf_leafy fun x y ⟨_, hs⟩ => ?_
      obtain ⟨x, h1⟩ := x
      cases x with
      | ok r v => obtain ⟨b, rfl⟩ := hs; exact Sim.ok (mild_ok _ _ _)
      | err st p =>
      rcases hs with rfl | rfl
      · exact (Meeky.ok meek_exc).sim
      refine Sim.ite (fun _ => Sim.ok (mild_err _ _)) fun _ => ?_
      unfold tryNumber
      refine Sim.bind parseLeaf_leafy fun x y ⟨hy, hs⟩ => ?_
      obtain ⟨x, h2⟩ := x
      have hbool : Sim (fun x y => Mild x.1 y) (tryBool M N n t h2) (parseBool t >>= fun r =>
              match r with
              | .ok rest b => .ok (.ok rest (.bool b))
              | .err _ _ =>
                parseNull t >>= fun r =>
                match r with
                | .ok rest _ => .ok (.ok rest .null)
                | .err _ _ =>
                  parseArray N n t >>= fun r =>
                  match r with
                  | .ok rest v => .ok (.ok rest v)
                  | .err status pos =>
                    if status ≠ .kExpectedOpeningSquareBrackets then .ok (.err status pos)
                    else
                      parseObject N n pos >>= fun r =>
                      match r with
                      | .ok rest v => .ok (.ok rest v)
                      | .err status pos =>
                        if status ≠ .kExpectedOpeningCurlyBraces ∨
                            status = .kNumbersCannotHaveLeadingZeros then .ok (.err status pos)
                        else .ok (.err .kExpectedJsonValue pos)) := by
        unfold tryBool
        refine Sim.bind parseLeaf_leafy fun x y ⟨hy, hs⟩ => ?_
        obtain ⟨x, h3⟩ := x
        cases x with
        | ok r v => obtain ⟨b, rfl⟩ := hs; exact Sim.ok (mild_ok _ _ _)
        | err st p =>
        cases y with
        | ok r b =>
          obtain ⟨c, s, rfl, a1, a2, a3⟩ := bool_head hy
          exact (tryNull_meeky M N n h3 a1 a2 a3).sim
        | err st p =>
        simp only
        unfold tryNull
        refine Sim.bind parseLeaf_leafy fun x y ⟨hy, hs⟩ => ?_
        obtain ⟨x, h4⟩ := x
        cases x with
        | ok r v => obtain ⟨b, rfl⟩ := hs; exact Sim.ok (mild_ok _ _ _)
        | err st p =>
        cases y with
        | ok r b =>
          obtain ⟨c, s, rfl, a1, a2⟩ := null_head hy
          exact (tryArray_meeky M N n h4 a1 a2).sim
        | err st p =>
        simp only
        unfold tryArray
        refine Sim.bind (ih2 _ _) fun x y hs => ?_
        obtain ⟨x, h5⟩ := x
        cases x with
        | ok r v => obtain ⟨b, rfl⟩ := hs; exact Sim.ok (mild_ok _ _ _)
        | err st p =>
        rcases hs with hm | rfl
        · rcases hm with rfl | rfl
          · exact (Meeky.ok (.inl rfl)).sim
          · exact (Meeky.ok (.inr rfl)).sim
        refine Sim.ite (fun _ => Sim.ok (mild_err _ _)) fun _ => ?_
        unfold tryObject
        refine Sim.bind (ih4 _ _) fun x y hs => ?_
        obtain ⟨x, h6⟩ := x
        cases x with
        | ok r v => obtain ⟨b, rfl⟩ := hs; exact Sim.ok (mild_ok _ _ _)
        | err st p =>
        rcases hs with hm | rfl
        · rcases hm with rfl | rfl
          · exact (Meeky.ok (.inl rfl)).sim
          · exact (Meeky.ok (.inr rfl)).sim
        exact Sim.ite (fun _ => Sim.ok (mild_err _ _)) fun _ => Sim.ok (mild_err _ _)
      cases x with
      | ok r v => obtain ⟨b, rfl⟩ := hs; exact Sim.ok (mild_ok _ _ _)
      | err st p =>
      rcases hs with rfl | rfl
      · simp only
        rw [if_neg (by decide)]
        cases y with
        | ok r d =>
          obtain ⟨c, s, rfl, a1, a2, a3, a4, a5⟩ := number_head N hy (.inl ⟨_, _, rfl⟩)
          exact (tryBool_meeky M N n h2 a1 a2 a3 a4 a5).sim
        | err st p =>
          by_cases hz : st = .kNumbersCannotHaveLeadingZeros
          · subst hz
            obtain ⟨c, s, rfl, a1, a2, a3, a4, a5⟩ := number_head N hy (.inr ⟨_, rfl⟩)
            exact (tryBool_meeky M N n h2 a1 a2 a3 a4 a5).sim
          · simp only
            rw [if_neg hz]
            exact hbool
      · exact Sim.ite (fun _ => Sim.ok (mild_err _ _)) fun _ => hbool
    · intro t h
      rw [parseArrayH_succ, parseArray_succ]
      cases e1 : newValue M .value h with
      | mk o h1 =>
      cases o with
      | none => exact (Meeky.ok meek_exc).sim
      | some a =>
      refine Sim.same fun c => Sim.ite (fun _ => Sim.left fun _ => Sim.ok (mild_err _ _)) fun _ => ?_
      have hid : arrayLoop N n t [] = (arrayLoop N n t [] >>= fun x => .ok x) := by
        cases arrayLoop N n t [] <;> rfl
      rw [hid]
      refine Sim.bind (ih3 _ _ _ _ rfl) fun x y hs => ?_
      obtain ⟨x, h2⟩ := x
      cases x with
      | ok r v => exact Sim.ok hs
      | err st p l => exact Sim.left fun _ => Sim.ok hs
    · intro t acc acc0 h hnil
      rw [arrayLoopH_succ, arrayLoop_succ]
      refine Sim.same fun t => Sim.same fun c => Sim.ite (fun _ => ?_) fun _ => ?_
      · rw [← hnil]
        exact Sim.ite (fun _ => Sim.ok (mildL_err _ _ _)) fun _ => Sim.ok (mildL_ok _ _ _)
      · refine Sim.bind (ih1 _ _) fun x y hs => ?_
        obtain ⟨x, h2⟩ := x
        cases x with
        | ok r v =>
          obtain ⟨b, rfl⟩ := hs
          cases e3 : request M .slot h2 with
          | mk o h3 =>
          cases o with
          | false => simp only [e3]; exact meek_exc.simL
          | true =>
          simp only [e3]
          refine Sim.same fun t => Sim.same fun c =>
            Sim.ite (fun _ => Sim.ite (fun _ => Sim.ok (mildL_err _ _ _)) fun _ => Sim.ok (mildL_ok _ _ _))
            fun _ => ih3 _ _ _ _ ?_
          rw [olist_isNil_snoc]; simp
        | err st p =>
          rcases hs with hm | rfl
          · exact hm.simL
          · exact Sim.ok (mildL_err _ _ _)
    · intro t h
      rw [parseObjectH_succ, parseObject_succ]
      cases e1 : newValue M .value h with
      | mk o h1 =>
      cases o with
      | none => exact (Meeky.ok meek_exc).sim
      | some a =>
      refine Sim.same fun c => Sim.ite (fun _ => Sim.left fun _ => Sim.ok (mild_err _ _)) fun _ => ?_
      have hid : objectLoop N n t .nil [] = (objectLoop N n t .nil [] >>= fun x => .ok x) := by
        cases objectLoop N n t .nil [] <;> rfl
      rw [hid]
      refine Sim.bind (ih5 _ _ _ _ _ rfl) fun x y hs => ?_
      obtain ⟨x, h2⟩ := x
      cases x with
      | ok r v => exact Sim.ok hs
      | err st p l => exact Sim.left fun _ => Sim.ok hs
    · intro t acc m order h hnil
      rw [objectLoopH_succ, objectLoop_succ]
      refine Sim.same fun t => Sim.same fun c => Sim.ite (fun _ => ?_) fun _ => ?_
      · rw [← hnil]
        exact Sim.ite (fun _ => Sim.ok (mildL_err _ _ _)) fun _ => Sim.ok (mildL_ok _ _ _)
      · refine Sim.same fun r => ?_
        cases r with
        | err st p => exact Sim.ok (mildL_err _ _ _)
        | ok t' name =>
          cases e3 : request M .text h with
          | mk o h3 =>
          cases o with
          | false => simp only [e3]; exact meek_exc.simL
          | true =>
          simp only [e3]
          refine Sim.same fun t => Sim.same fun c => Sim.ite (fun _ => Sim.ok (mildL_err _ _ _)) fun _ => Sim.same fun t => ?_
          refine Sim.bind (ih1 _ _) fun x y hs => ?_
          obtain ⟨x, h4⟩ := x
          cases x with
          | err st p =>
            rcases hs with hm | rfl
            · exact hm.simL
            · exact Sim.ok (mildL_err _ _ _)
          | ok r v =>
            obtain ⟨b, rfl⟩ := hs
            cases e5 : request M .slot h4 with
            | mk o h5 =>
            cases o with
            | false => simp only [e5]; exact meek_exc.simL
            | true =>
            simp only [e5]
            intro x y ex ey
            unfold insertAccounted at ey
            split at ey
            · cases ey
            · rename_i m' _
              revert ex ey
              revert x y
              refine Sim.same fun t => Sim.same fun c =>
                Sim.ite (fun _ => Sim.ite (fun _ => Sim.ok (mildL_err _ _ _)) fun _ => Sim.ok (mildL_ok _ _ _))
                  fun _ => ih5 _ _ _ _ _ ?_
              rw [omem_isNil_snoc]; simp

theorem final_status {q : Status} {root : Option (Value D)} {r : RootResult D} {lc : Nat × Nat}
    (er : (if q ≠ .kOk then (match lc with | (line, column) => .ok ⟨q, root, line, column⟩)
      else .ok ⟨q, root, 0, 0⟩) = Out.ok r) : r.status = q := by
  split at er <;> (injection er with er; subst er; rfl)

/-- A whole buffer: the status with enough memory, or one of the two. -/
theorem parseBufferH_mild (M : Mem) (N : NumOps D) (root : Option (OVal D)) (root0 : Option (Value D)) (buf : Bytes)
    (h : Heap) :
    Sim (fun x y => Meek x.1 ∨ x.1 = y.1.status) (parseBufferH M N root buf h) (Doc.parseBuffer N root0 buf) := by
  unfold parseBufferH Doc.parseBuffer
  refine Sim.ite (fun _ => Sim.ok (.inr rfl)) fun h3 => ?_
  intro x y ex ey
  rw [Out.bind_eq_ok] at ex ey
  obtain ⟨c, hc, ex⟩ := ex
  obtain ⟨c', hc', ey⟩ := ey
  rw [hc] at hc'
  injection hc' with hc'
  subst hc'
  revert ex ey
  revert x y
  refine Sim.ite (fun _ => Sim.ok (.inr rfl)) fun hl => ?_
  refine Sim.left fun h1 => ?_
  unfold parseRoot
  rw [if_neg h3, hc]
  simp only [Out.ok_bind]
  rw [if_neg hl]
  intro x y ex ey
  rw [Out.bind_eq_ok] at ex ey
  obtain ⟨s, hs, ex⟩ := ex
  obtain ⟨r, er, ey⟩ := ey
  injection ey with ey
  subst ey
  simp only [hs, Out.ok_bind] at er
  rw [Out.bind_eq_ok] at ex er
  obtain ⟨⟨x1, h2⟩, e1, ex⟩ := ex
  obtain ⟨y1, e2, er⟩ := er
  have hm := (allH_mild M N (parseFuel buf)).1 s h1 _ _ e1 e2
  simp only at hm ex er
  cases x1 with
  | ok rest v =>
    obtain ⟨b, rfl⟩ := hm
    simp only at ex er
    rw [Out.bind_eq_ok] at ex er
    obtain ⟨t, ht, ex⟩ := ex
    obtain ⟨t', ht', er⟩ := er
    rw [ht] at ht'
    injection ht' with ht'
    subst ht'
    rw [Out.bind_eq_ok] at ex er
    obtain ⟨t1, ht, ex⟩ := ex
    obtain ⟨t', ht', er⟩ := er
    rw [ht] at ht'
    injection ht' with ht'
    subst ht'
    injection ex with ex
    subst ex
    right
    exact (final_status er).symm
  | err st p =>
    rcases hm with hm | rfl
    · left
      simp only at ex
      rw [Out.bind_eq_ok] at ex
      obtain ⟨t, ht, ex⟩ := ex
      rw [Out.bind_eq_ok] at ex
      obtain ⟨t1, ht, ex⟩ := ex
      injection ex with ex
      subst ex
      have : st ≠ .kOk := by rcases hm with rfl | rfl <;> decide
      simp only [this, false_and, if_false]
      exact hm
    · simp only at ex er
      rw [Out.bind_eq_ok] at ex er
      obtain ⟨t, ht, ex⟩ := ex
      obtain ⟨t', ht', er⟩ := er
      rw [ht] at ht'
      injection ht' with ht'
      subst ht'
      rw [Out.bind_eq_ok] at ex er
      obtain ⟨t1, ht, ex⟩ := ex
      obtain ⟨t', ht', er⟩ := er
      rw [ht] at ht'
      injection ht' with ht'
      subst ht'
      injection ex with ex
      subst ex
      right
      exact (final_status er).symm

/-- With all the memory needed the status is that of the parser of `Verif.Model.Parser`. -/
theorem parseBufferH_same {M : Mem} (hM : AllOk M) (N : NumOps D) (root : Option (OVal D)) (root0 : Option (Value D))
    (buf : Bytes) (h : Heap) :
    Sim (fun x y => x.1 = y.1.status) (parseBufferH M N root buf h) (Doc.parseBuffer N root0 buf) := by
  unfold parseBufferH Doc.parseBuffer
  refine Sim.ite (fun _ => Sim.ok rfl) fun h3 => ?_
  intro x y ex ey
  rw [Out.bind_eq_ok] at ex ey
  obtain ⟨c, hc, ex⟩ := ex
  obtain ⟨c', hc', ey⟩ := ey
  rw [hc] at hc'
  injection hc' with hc'
  subst hc'
  revert ex ey
  revert x y
  refine Sim.ite (fun _ => Sim.ok rfl) fun hl => ?_
  refine Sim.left fun h1 => ?_
  unfold parseRoot
  rw [if_neg h3, hc]
  simp only [Out.ok_bind]
  rw [if_neg hl]
  intro x y ex ey
  rw [Out.bind_eq_ok] at ex ey
  obtain ⟨s, hs, ex⟩ := ex
  obtain ⟨r, er, ey⟩ := ey
  injection ey with ey
  subst ey
  simp only [hs, Out.ok_bind] at er
  rw [Out.bind_eq_ok] at ex er
  obtain ⟨⟨x1, h2⟩, e1, ex⟩ := ex
  obtain ⟨y1, e2, er⟩ := er
  have hm := (allH_same hM N (parseFuel buf)).1 s h1 _ _ e1 e2
  simp only at hm ex er
  cases x1 <;> cases y1 <;> simp only [SameH, Same] at hm
  · subst hm
    simp only at ex er
    rw [Out.bind_eq_ok] at ex er
    obtain ⟨t, ht, ex⟩ := ex
    obtain ⟨t', ht', er⟩ := er
    rw [ht] at ht'
    injection ht' with ht'
    subst ht'
    rw [Out.bind_eq_ok] at ex er
    obtain ⟨t1, ht, ex⟩ := ex
    obtain ⟨t', ht', er⟩ := er
    rw [ht] at ht'
    injection ht' with ht'
    subst ht'
    injection ex with ex
    subst ex
    exact (final_status er).symm
  · obtain ⟨rfl, rfl⟩ := hm
    simp only at ex er
    rw [Out.bind_eq_ok] at ex er
    obtain ⟨t, ht, ex⟩ := ex
    obtain ⟨t', ht', er⟩ := er
    rw [ht] at ht'
    injection ht' with ht'
    subst ht'
    rw [Out.bind_eq_ok] at ex er
    obtain ⟨t1, ht, ex⟩ := ex
    obtain ⟨t', ht', er⟩ := er
    rw [ht] at ht'
    injection ht' with ht'
    subst ht'
    injection ex with ex
    subst ex
    exact (final_status er).symm

end Verif.Own
