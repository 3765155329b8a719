import Verif.Model.Heap
import Verif.Lemmas.Root

/-!
# Accounting for value objects during parsing
-/

namespace Verif.Own

open Verif Verif.Text Verif.Number Verif.Parser Verif.Spec

variable {D : Type}

/-! ## Heaps -/

/-- From `h` to `h'` exactly the objects `r` were added, all of them new. -/
structure Grew (h h' : Heap) (r : List Nat) : Prop where
  wf : ∀ a ∈ h.live, a < h.next
  next : h.next ≤ h'.next
  nodup : r.Nodup
  fresh : ∀ a ∈ r, h.next ≤ a ∧ a < h'.next
  live : ∀ a, a ∈ h'.live ↔ a ∈ h.live ∨ a ∈ r
  refused : h.refused ≤ h'.refused

theorem Grew.refl {h : Heap} (wf : ∀ a ∈ h.live, a < h.next) : Grew h h [] :=
  ⟨wf, Nat.le_refl _, List.nodup_nil, by simp, by simp, Nat.le_refl _⟩

theorem Grew.wf' {h h' : Heap} {r : List Nat} (g : Grew h h' r) : ∀ a ∈ h'.live, a < h'.next := by
  intro a ha
  rcases (g.live a).1 ha with ha | ha
  · exact Nat.lt_of_lt_of_le (g.wf a ha) g.next
  · exact (g.fresh a ha).2

theorem Grew.trans {h h1 h2 : Heap} {r s : List Nat} (g : Grew h h1 r) (g' : Grew h1 h2 s) :
    Grew h h2 (r ++ s) := by
  refine ⟨g.wf, Nat.le_trans g.next g'.next, ?_, ?_, ?_, Nat.le_trans g.refused g'.refused⟩
  · rw [List.nodup_append]
    refine ⟨g.nodup, g'.nodup, ?_⟩
    intro a ha b hb e
    subst e
    have := (g.fresh a ha).2
    have := (g'.fresh a hb).1
    omega
  · intro a ha
    rcases List.mem_append.1 ha with ha | ha
    · exact ⟨(g.fresh a ha).1, Nat.lt_of_lt_of_le (g.fresh a ha).2 g'.next⟩
    · exact ⟨Nat.le_trans g.next (g'.fresh a ha).1, (g'.fresh a ha).2⟩
  · intro a
    rw [g'.live, g.live, List.mem_append, or_assoc]

theorem Grew.perm {h h' : Heap} {r s : List Nat} (g : Grew h h' r) (p : r.Perm s) : Grew h h' s :=
  ⟨g.wf, g.next, p.nodup_iff.1 g.nodup, fun a ha => g.fresh a (p.mem_iff.2 ha),
    fun a => by rw [g.live, p.mem_iff], g.refused⟩

/-- Destroying part of what was added. -/
theorem Grew.freeAll {h h' : Heap} (s : List Nat) {L : List Nat} (g : Grew h h' (s ++ L)) :
    ∃ h2, freeAll s h' = .ok h2 ∧ Grew h h2 L ∧ h2.refused = h'.refused := by
  induction s generalizing h' with
  | nil => exact ⟨h', rfl, g, rfl⟩
  | cons a s ih =>
    have hmem : a ∈ h'.live := (g.live a).2 (.inr (by simp))
    have hnd := List.nodup_cons.1 g.nodup
    have hno : a ∉ h.live := fun ha => by
      have := g.wf a ha; have := (g.fresh a (by simp)).1; omega
    have g1 : Grew h { h' with live := h'.live.filter (· ≠ a) } (s ++ L) := by
      refine ⟨g.wf, g.next, hnd.2, fun b hb => g.fresh b (by simp [List.mem_append.1 hb]), ?_, g.refused⟩
      intro b
      simp only [List.mem_filter, g.live, decide_eq_true_eq]
      constructor
      · rintro ⟨hb | hb, hne⟩
        · exact .inl hb
        · simp only [List.cons_append, List.mem_cons] at hb
          exact .inr (hb.resolve_left hne)
      · rintro (hb | hb)
        · exact ⟨.inl hb, fun e => hno (e ▸ hb)⟩
        · exact ⟨.inr (by simp only [List.cons_append, List.mem_cons]; exact .inr hb),
            fun e => hnd.1 (e ▸ hb)⟩
    obtain ⟨h2, e2, g2, hr⟩ := ih g1
    refine ⟨h2, ?_, g2, hr⟩
    rw [Own.freeAll, free, if_pos hmem]
    exact e2

theorem request_grew {h h' : Heap} {r : List Nat} (g : Grew h h' r) (M : Mem) (q : Req) :
    Grew h (request M q h').2 r ∧ (request M q h').2.refused = h'.refused :=
  ⟨⟨g.wf, g.next, g.nodup, g.fresh, g.live, g.refused⟩, rfl⟩

theorem newValue_grew {h h' : Heap} {r : List Nat} (g : Grew h h' r) (M : Mem) (q : Req) :
    (∃ h2, newValue M q h' = (none, h2) ∧ Grew h h2 r ∧ h2.refused = h'.refused ∧ M q h'.tick = false) ∨
    (∃ a h2, newValue M q h' = (some a, h2) ∧ Grew h h2 (a :: r) ∧ h2.refused = h'.refused) := by
  unfold newValue
  by_cases hm : M q h'.tick = true
  · right
    rw [if_pos hm]
    refine ⟨_, _, rfl, ?_, rfl⟩
    have hlt : ∀ a ∈ r, a < h'.next := fun a ha => (g.fresh a ha).2
    refine ⟨g.wf, Nat.le_succ_of_le g.next, ?_, ?_, ?_, g.refused⟩
    · rw [List.nodup_cons]
      exact ⟨fun hc => Nat.lt_irrefl _ (hlt _ hc), g.nodup⟩
    · intro a ha
      rcases List.mem_cons.1 ha with rfl | ha
      · exact ⟨g.next, Nat.lt_succ_self _⟩
      · exact ⟨(g.fresh a ha).1, Nat.lt_succ_of_lt (hlt a ha)⟩
    · intro a
      simp only [List.mem_cons, g.live]
      constructor
      · rintro (h | h | h)
        · exact .inr (.inl h)
        · exact .inl h
        · exact .inr (.inr h)
      · rintro (h | h | h)
        · exact .inr (.inl h)
        · exact .inl h
        · exact .inr (.inr h)
  · left
    rw [if_neg hm]
    exact ⟨_, rfl, ⟨g.wf, g.next, g.nodup, g.fresh, g.live, g.refused⟩, rfl, by simpa using hm⟩

/-! ## Containers -/

mutual
/-- Objects that are no longer reachable: those of refused members. -/
def _root_.Verif.Own.OVal.lost : OVal D → List Nat
  | .leaf _ _ => []
  | .arr _ l => l.lost
  | .obj _ m => m.lost
/-- Elements. -/
def _root_.Verif.Own.OList.lost : OList D → List Nat
  | .nil => []
  | .cons v l => v.lost ++ l.lost
/-- Members. -/
def _root_.Verif.Own.OMem.lost : OMem D → List Nat
  | .nil => []
  | .cons _ b v m => ((if b then [] else v.reach) ++ v.lost) ++ m.lost
end

theorem olist_reach_snoc (l : OList D) (v : OVal D) : (l.snoc v).reach = l.reach ++ v.reach := by
  match l with
  | .nil => simp [OList.snoc, OList.reach]
  | .cons x l => simp [OList.snoc, OList.reach, olist_reach_snoc l v]

theorem olist_lost_snoc (l : OList D) (v : OVal D) : (l.snoc v).lost = l.lost ++ v.lost := by
  match l with
  | .nil => simp [OList.snoc, OList.lost]
  | .cons x l => simp [OList.snoc, OList.lost, olist_lost_snoc l v]

theorem omem_reach_snoc (m : OMem D) (k : Bytes) (b : Bool) (v : OVal D) :
    (m.snoc k b v).reach = m.reach ++ (if b then v.reach else []) := by
  match m with
  | .nil => simp [OMem.snoc, OMem.reach]
  | .cons k' b' v' m => simp [OMem.snoc, OMem.reach, omem_reach_snoc m k b v]

theorem omem_lost_snoc (m : OMem D) (k : Bytes) (b : Bool) (v : OVal D) :
    (m.snoc k b v).lost = m.lost ++ ((if b then [] else v.reach) ++ v.lost) := by
  match m with
  | .nil => simp [OMem.snoc, OMem.lost]
  | .cons k' b' v' m => simp [OMem.snoc, OMem.lost, omem_lost_snoc m k b v]

theorem omem_names_snoc (m : OMem D) (k : Bytes) (b : Bool) (v : OVal D) :
    (m.snoc k b v).names = m.names ++ [k] := by
  match m with
  | .nil => simp [OMem.snoc, OMem.names]
  | .cons k' b' v' m => simp [OMem.snoc, OMem.names, omem_names_snoc m k b v]

theorem olist_isNil_snoc (l : OList D) (v : OVal D) : (l.snoc v).isNil = false := by
  cases l <;> rfl

theorem omem_isNil_snoc (m : OMem D) (k : Bytes) (b : Bool) (v : OVal D) : (m.snoc k b v).isNil = false := by
  cases m <;> rfl

theorem olist_isNil {l : OList D} (h : l.isNil = true) : l = .nil := by
  cases l with
  | nil => rfl
  | cons => cases h

theorem omem_isNil {m : OMem D} (h : m.isNil = true) : m = .nil := by
  cases m with
  | nil => rfl
  | cons => cases h

/-- Concatenation. -/
def OList.app : OList D → OList D → OList D
  | .nil, l => l
  | .cons v a, l => .cons v (a.app l)

/-- Concatenation. -/
def OMem.app : OMem D → OMem D → OMem D
  | .nil, l => l
  | .cons k b v a, l => .cons k b v (a.app l)

theorem olist_snoc_app (a : OList D) (v : OVal D) (l : OList D) : (a.snoc v).app l = a.app (.cons v l) := by
  match a with
  | .nil => rfl
  | .cons x a => simp [OList.snoc, OList.app, olist_snoc_app a v l]

theorem omem_snoc_app (a : OMem D) (k : Bytes) (b : Bool) (v : OVal D) (l : OMem D) :
    (a.snoc k b v).app l = a.app (.cons k b v l) := by
  match a with
  | .nil => rfl
  | .cons k' b' x a => simp [OMem.snoc, OMem.app, omem_snoc_app a k b v l]

theorem olist_app_nil (a : OList D) : a.app .nil = a := by
  match a with
  | .nil => rfl
  | .cons x a => simp [OList.app, olist_app_nil a]

theorem omem_app_nil (a : OMem D) : a.app .nil = a := by
  match a with
  | .nil => rfl
  | .cons k b x a => simp [OMem.app, omem_app_nil a]

/-- The value has no elements or members. -/
def Scalar : J → Prop
  | .arr _ => False
  | .obj _ => False
  | _ => True

mutual
/-- The objects hold the abstract value; exactly the members with a new name are in the map. -/
def Rep (N : NumOps D) : OVal D → J → Prop
  | .leaf _ v, j => Scalar j ∧ v = interp N j
  | .arr _ l, j => match j with | .arr jl => RepL N l jl | _ => False
  | .obj _ m, j => match j with | .obj jm => RepM N [] m jm | _ => False
/-- Elements. -/
def RepL (N : NumOps D) : OList D → JL → Prop
  | .nil, .nil => True
  | .cons v l, .cons j jl => Rep N v j ∧ RepL N l jl
  | _, _ => False
/-- Members, after those named in the list. -/
def RepM (N : NumOps D) : List Bytes → OMem D → JM → Prop
  | _, .nil, .nil => True
  | seen, .cons k b v m, .cons k' j jm =>
      k = k' ∧ b = decide (k ∉ seen) ∧ Rep N v j ∧ RepM N (seen ++ [k]) m jm
  | _, _, _ => False
end

/-! ## Leaves -/

/-- What `ParseValue` does for a class without elements. -/
theorem parseLeaf_cases {α : Type} (M : Mem) (needs : Bool) (parse : Bytes → Out (PRes α)) (mk : α → Value D)
    (start : Bytes) {h0 h : Heap} {X : List Nat} (g : Grew h0 h X) {r : PRes α} (hr : parse start = .ok r) :
    (∃ h' p, parseLeaf M needs parse mk start h = .ok (.err .kException p, h') ∧ Grew h0 h' X ∧
      h'.refused = h.refused ∧ (p = start ∨ needs = true ∧ p = start.drop 1 ∧ ∃ rest x, r = .ok rest x) ∧
      ∃ q k, M q k = false) ∨
    (∃ st p h', r = .err st p ∧ parseLeaf M needs parse mk start h = .ok (.err st p, h') ∧ Grew h0 h' X ∧
      h'.refused = h.refused) ∨
    (∃ rest x a h', r = .ok rest x ∧ parseLeaf M needs parse mk start h = .ok (.ok rest (.leaf a (mk x)), h') ∧
      Grew h0 h' (a :: X) ∧ h'.refused = h.refused) := by
  unfold parseLeaf
  rcases newValue_grew g M .value with ⟨h1, e1, g1, hr1, hM⟩ | ⟨a, h1, e1, g1, hr1⟩
  · left
    rw [e1]
    exact ⟨h1, start, rfl, g1, hr1, .inl rfl, _, _, hM⟩
  · rw [e1, hr]
    simp only [Out.ok_bind]
    have hfree : ∀ {h2 : Heap}, Grew h0 h2 (a :: X) → ∃ h3, free a h2 = .ok h3 ∧ Grew h0 h3 X ∧
        h3.refused = h2.refused := by
      intro h2 g2
      obtain ⟨h3, e3, g3, hr3⟩ := Grew.freeAll [a] g2
      refine ⟨h3, ?_, g3, hr3⟩
      have : Own.freeAll [a] h2 = free a h2 := by
        rw [Own.freeAll]
        cases free a h2 <;> rfl
      rw [← this, e3]
    cases r with
    | err st p =>
      right; left
      obtain ⟨h3, e3, g3, hr3⟩ := hfree g1
      exact ⟨st, p, h3, rfl, by simp only [e3, Out.ok_bind], g3, hr3.trans hr1⟩
    | ok rest x =>
      cases needs with
      | false =>
        right; right
        exact ⟨rest, x, a, h1, rfl, by simp, g1, hr1⟩
      | true =>
        simp only [if_true]
        obtain ⟨g2, hr2⟩ := request_grew g1 M .text
        cases hm : request M .text h1 with
        | mk b h2 =>
          rw [hm] at g2 hr2
          cases b with
          | false =>
            left
            obtain ⟨h3, e3, g3, hr3⟩ := hfree g2
            refine ⟨h3, start.drop 1, by simp only [e3, Out.ok_bind], g3, hr3.trans (hr2.trans hr1),
              .inr ⟨trivial, rfl, rest, x, rfl⟩, .text, h1.tick, ?_⟩
            have := congrArg Prod.fst hm
            simpa [request] using this
          | true =>
            right; right
            exact ⟨rest, x, a, h2, rfl, rfl, g2, hr2.trans hr1⟩

/-! ## The recursive functions -/

/-- No request for a place in an array or for a copy of a name fails. -/
def SlotOk (M : Mem) : Prop := ∀ k, M .slot k = true

/-- Statuses of failures. -/
def BadEnd (st : Status) : Prop :=
  st ≠ .kOk ∧ st ≠ .kExpectedOpeningSquareBrackets ∧ st ≠ .kExpectedOpeningCurlyBraces

theorem badEnd_exception : BadEnd .kException := by unfold BadEnd; decide

/-- Outcome of `ParseAnyValue`. -/
def AnyH (M : Mem) (N : NumOps D) (n : Nat) (t : Bytes) (h : Heap) : Prop :=
  ∀ h0 X, Grew h0 h X →
  (∃ tok j w rest v h', DVal tok j ∧ Ws w ∧ t = tok ++ (w ++ rest) ∧ Term rest ∧
    parseAnyH M N n t h = .ok (.ok rest v, h') ∧ Rep N v j ∧ Grew h0 h' (v.reach ++ (v.lost ++ X)) ∧
    h.refused ≤ h'.refused ∧ (h'.refused = h.refused → v.lost = [])) ∨
  (∃ st p h' L, parseAnyH M N n t h = .ok (.err st p, h') ∧ BadEnd st ∧ Adv t p ∧ Grew h0 h' (L ++ X) ∧
    h.refused ≤ h'.refused ∧ (SlotOk M → h'.refused = h.refused → L = []))

/-- Outcome of the loop over elements. -/
def ArrH (M : Mem) (N : NumOps D) (n : Nat) (c : Byte) (t : Bytes) (acc : OList D) (h : Heap) : Prop :=
  ∀ h0 X, Grew h0 h (acc.reach ++ (acc.lost ++ X)) →
  (acc = .nil ∧ ∃ w rest, Ws w ∧ t = w ++ 0x5D :: rest ∧ Term rest ∧
    arrayLoopH M N n (c :: t) acc h = .ok (.ok rest .nil, h)) ∨
  (∃ ts jl l rest h', DElems ts jl ∧ t = ts ++ 0x5D :: rest ∧ Term rest ∧
    arrayLoopH M N n (c :: t) acc h = .ok (.ok rest (acc.app l), h') ∧ RepL N l jl ∧
    Grew h0 h' ((acc.app l).reach ++ ((acc.app l).lost ++ X)) ∧ h.refused ≤ h'.refused ∧
    (h'.refused = h.refused → acc.lost = [] → (acc.app l).lost = [])) ∨
  (∃ st p acc' h' L, arrayLoopH M N n (c :: t) acc h = .ok (.err st p acc', h') ∧ BadEnd st ∧ Adv t p ∧
    Grew h0 h' (acc'.reach ++ (L ++ X)) ∧ h.refused ≤ h'.refused ∧
    (SlotOk M → h'.refused = h.refused → acc.lost = [] → L = []))

/-- Outcome of the loop over members. -/
def ObjH (M : Mem) (N : NumOps D) (n : Nat) (c : Byte) (t : Bytes) (acc : OMem D) (h : Heap) : Prop :=
  ∀ h0 X, Grew h0 h (acc.reach ++ (acc.lost ++ X)) →
  (acc = .nil ∧ ∃ w rest, Ws w ∧ t = w ++ 0x7D :: rest ∧ Term rest ∧
    objectLoopH M N n (c :: t) acc h = .ok (.ok rest .nil, h)) ∨
  (∃ ts jl l rest h', DMembers ts jl ∧ t = ts ++ 0x7D :: rest ∧ Term rest ∧
    objectLoopH M N n (c :: t) acc h = .ok (.ok rest (acc.app l), h') ∧ RepM N acc.names l jl ∧
    Grew h0 h' ((acc.app l).reach ++ ((acc.app l).lost ++ X)) ∧ h.refused ≤ h'.refused ∧
    (h'.refused = h.refused → acc.lost = [] → (acc.app l).lost = [])) ∨
  (∃ st p acc' h' L, objectLoopH M N n (c :: t) acc h = .ok (.err st p acc', h') ∧ BadEnd st ∧ Adv t p ∧
    Grew h0 h' (acc'.reach ++ (L ++ X)) ∧ h.refused ≤ h'.refused ∧
    (SlotOk M → h'.refused = h.refused → acc.lost = [] → L = []))

theorem arrayLoopH_succ (M : Mem) (N : NumOps D) (n : Nat) (t : Bytes) (acc : OList D) (h : Heap) :
    arrayLoopH M N (n + 1) t acc h =
      (skipWs (t.drop 1) >>= fun t =>
      rd t 0 >>= fun c =>
      if c = 93 then
        if ¬ acc.isNil then .ok (.err .kExpectedJsonValue t acc, h) else .ok (.ok (t.drop 1) acc, h)
      else
        parseAnyH M N n t h >>= fun (r, h) =>
        match r with
        | .err status pos => .ok (.err status pos acc, h)
        | .ok t v =>
            match request M .slot h with
            | (false, h) => .ok (.err .kException t acc, h)
            | (true, h) =>
                skipWs t >>= fun t =>
                rd t 0 >>= fun c =>
                if c ≠ 44 then
                  if c ≠ 93 then .ok (.err .kExpectedClosingSquareBracketsOrComma t (acc.snoc v), h)
                  else .ok (.ok (t.drop 1) (acc.snoc v), h)
                else arrayLoopH M N n t (acc.snoc v) h) := rfl

theorem arrH_total (M : Mem) (N : NumOps D) (n : Nat)
    (ihA : ∀ t h, Term t → 3 * t.length + 1 ≤ n → AnyH M N n t h)
    (ihL : ∀ c t acc h, Term t → 3 * t.length + 2 ≤ n → ArrH M N n c t acc h)
    (c : Byte) (t : Bytes) (acc : OList D) (h : Heap) (ht : Term t) (hn : 3 * t.length + 2 ≤ n + 1) :
    ArrH M N (n + 1) c t acc h := by
  intro h0 X g
  obtain ⟨w1, a, s, hw1, e1, ha, hs1⟩ := skipWs_total ht
  have hadv1 : Adv t (a :: s) := ⟨w1, e1, hw1.nul_free⟩
  have hts := hadv1.term ht
  have hlen1 := hadv1.length_le
  rw [arrayLoopH_succ]
  simp only [List.drop_one, List.tail_cons, hs1, Out.ok_bind, rd_cons_zero]
  by_cases h93 : a = 93
  · subst h93
    rw [if_pos rfl]
    cases hnil : acc.isNil with
    | true =>
      left
      exact ⟨olist_isNil hnil, w1, s, hw1, e1, hts.tail (by decide), by simp [olist_isNil hnil]⟩
    | false =>
      right; right
      exact ⟨.kExpectedJsonValue, 93 :: s, acc, h, acc.lost, by simp, by unfold BadEnd; decide, hadv1, g,
        Nat.le_refl _, fun _ _ e => e⟩
  · rw [if_neg h93]
    rcases ihA (a :: s) h hts (by omega) h0 _ g with
      ⟨tok, j, w2, rest, v, h1, hv, hw2, e2, hr, hp, hrep, g1, hle1, hlost1⟩ |
      ⟨st, p, h1, L, hp, hst, hadv, g1, hle1, hL⟩
    · rw [hp]
      simp only [Out.ok_bind]
      have hadv2 : Adv (a :: s) rest ∧ rest.length < (a :: s).length := by
        have hz := val_nul_free_ne hv
        refine ⟨⟨tok ++ w2, by rw [e2]; simp, by simp [hz.1, hw2.nul_free]⟩, ?_⟩
        have := congrArg List.length e2
        have : 0 < tok.length := List.length_pos_iff.2 hz.2
        simp only [List.length_append] at *
        omega
      obtain ⟨gq, hrq⟩ := request_grew g1 M .slot
      cases hm : request M .slot h1 with
      | mk b h2 =>
        rw [hm] at gq hrq
        simp only at gq hrq
        cases b with
        | false =>
          right; right
          refine ⟨.kException, rest, acc, h2, v.reach ++ (v.lost ++ acc.lost), rfl, badEnd_exception,
            hadv1.trans hadv2.1, gq.perm ?_, by omega, ?_⟩
          · grind
          · intro hs
            have := congrArg Prod.fst hm
            simp [request, hs _] at this
        | true =>
          simp only
          have g2 : Grew h0 h2 ((acc.snoc v).reach ++ ((acc.snoc v).lost ++ X)) := by
            refine gq.perm ?_
            rw [olist_reach_snoc, olist_lost_snoc]
            grind
          obtain ⟨w3, b, s3, hw3, e3, hb, hs3⟩ := skipWs_total hr
          have hadv3 : Adv rest (b :: s3) := ⟨w3, e3, hw3.nul_free⟩
          have hlen3 := hadv3.length_le
          have hadv := (hadv1.trans hadv2.1).trans hadv3
          have ht3 := hadv.term ht
          rw [hs3]
          simp only [Out.ok_bind, rd_cons_zero]
          have etext : t = w1 ++ (tok ++ ((w2 ++ w3) ++ b :: s3)) := by
            rw [e1, e2, e3]; simp
          by_cases h44 : b = 44
          · subst h44
            rw [if_neg (by simp)]
            have ht4 : Term s3 := ht3.tail (by decide)
            rcases ihL 44 s3 (acc.snoc v) h2 ht4 (by
                simp only [List.length_cons] at *; omega) h0 X g2 with
              ⟨he, -⟩ | ⟨ts, jl, l, rest', h3, hl, e4, hr', hloop, hrepl, g3, hle3, hlost3⟩ |
              ⟨st, p, acc', h3, L, hloop, hst, hadv', g3, hle3, hL⟩
            · exfalso; have := olist_isNil_snoc acc v; rw [he] at this; cases this
            · right; left
              refine ⟨w1 ++ (tok ++ ((w2 ++ w3) ++ 0x2C :: ts)), .cons j jl, .cons v l, rest', h3,
                .cons hw1 hv (hw2.append hw3) hl, ?_, hr', ?_, ⟨hrep, hrepl⟩, ?_, by omega, ?_⟩
              · rw [etext, e4]; simp
              · rw [hloop, olist_snoc_app]
              · rw [← olist_snoc_app]; exact g3
              · intro he ha
                rw [← olist_snoc_app]
                refine hlost3 (by omega) ?_
                rw [olist_lost_snoc, ha, hlost1 (by omega)]; rfl
            · right; right
              refine ⟨st, p, acc', h3, L, hloop, hst, hadv.trans ((Adv.cons s3 (by decide)).trans hadv'), g3,
                by omega, ?_⟩
              intro hs he ha
              refine hL hs (by omega) ?_
              rw [olist_lost_snoc, ha, hlost1 (by omega)]; rfl
          · rw [if_pos h44]
            by_cases h93' : b = 93
            · subst h93'
              rw [if_neg (by simp)]
              right; left
              refine ⟨w1 ++ (tok ++ (w2 ++ w3)), .cons j .nil, .cons v .nil, s3, h2,
                .one hw1 hv (hw2.append hw3), ?_, ht3.tail (by decide), ?_, ⟨hrep, trivial⟩, ?_, by omega, ?_⟩
              · rw [etext]; simp
              · rw [← olist_snoc_app, olist_app_nil]; rfl
              · rw [← olist_snoc_app, olist_app_nil]; exact g2
              · intro he ha
                rw [← olist_snoc_app, olist_app_nil, olist_lost_snoc, ha, hlost1 (by omega)]; rfl
            · rw [if_pos h93']
              right; right
              refine ⟨_, _, _, h2, (acc.snoc v).lost, rfl, by unfold BadEnd; decide, hadv, g2, by omega, ?_⟩
              intro hs he ha
              rw [olist_lost_snoc, ha, hlost1 (by omega)]; rfl
    · rw [hp]
      right; right
      refine ⟨st, p, acc, h1, L ++ acc.lost, rfl, hst, hadv1.trans hadv, g1.perm ?_, hle1, ?_⟩
      · grind
      · intro hs he ha
        rw [hL hs he, ha]; rfl

theorem objectLoopH_succ (M : Mem) (N : NumOps D) (n : Nat) (t : Bytes) (acc : OMem D) (h : Heap) :
    objectLoopH M N (n + 1) t acc h =
      (skipWs (t.drop 1) >>= fun t =>
      rd t 0 >>= fun c =>
      if c = 125 then
        if ¬ acc.isNil then .ok (.err .kExpectedJsonValue t acc, h) else .ok (.ok (t.drop 1) acc, h)
      else
        parseString t >>= fun r =>
        match r with
        | .err status pos => .ok (.err status pos acc, h)
        | .ok t' name =>
          match request M .text h with
          | (false, h) => .ok (.err .kException (t.drop 1) acc, h)
          | (true, h) =>
            skipWs t' >>= fun t =>
            rd t 0 >>= fun c =>
            if c ≠ 58 then .ok (.err .kExpectedColon t acc, h)
            else
              skipWs (t.drop 1) >>= fun t =>
              parseAnyH M N n t h >>= fun (r, h) =>
              match r with
              | .err status pos => .ok (.err status pos acc, h)
              | .ok t v =>
                match request M .slot h with
                | (false, h) => .ok (.err .kException t acc, h)
                | (true, h) =>
                  let stored := decide (name ∉ acc.names)
                  let h := if stored then h else { h with refused := h.refused + 1 }
                  skipWs t >>= fun t =>
                  rd t 0 >>= fun c =>
                  if c ≠ 44 then
                    if c ≠ 125 then
                      .ok (.err .kExpectedClosingCurlyBracesOrComma t (acc.snoc name stored v), h)
                    else .ok (.ok (t.drop 1) (acc.snoc name stored v), h)
                  else objectLoopH M N n t (acc.snoc name stored v) h) := rfl

/-- The count of refused members only matters for itself. -/
theorem Grew.refuse {h h' : Heap} {r : List Nat} (g : Grew h h' r) (b : Bool) :
    Grew h (if b then h' else { h' with refused := h'.refused + 1 }) r := by
  cases b with
  | true => exact g
  | false => exact ⟨g.wf, g.next, g.nodup, g.fresh, g.live, Nat.le_succ_of_le g.refused⟩

theorem objH_total (M : Mem) (N : NumOps D) (n : Nat)
    (ihA : ∀ t h, Term t → 3 * t.length + 1 ≤ n → AnyH M N n t h)
    (ihL : ∀ c t acc h, Term t → 3 * t.length + 2 ≤ n → ObjH M N n c t acc h)
    (c : Byte) (t : Bytes) (acc : OMem D) (h : Heap) (ht : Term t) (hn : 3 * t.length + 2 ≤ n + 1) :
    ObjH M N (n + 1) c t acc h := by
  intro h0 X g
  obtain ⟨w1, a, s, hw1, e1, ha, hs1⟩ := skipWs_total ht
  have hadv1 : Adv t (a :: s) := ⟨w1, e1, hw1.nul_free⟩
  have hts := hadv1.term ht
  have hlen1 := hadv1.length_le
  rw [objectLoopH_succ]
  simp only [List.drop_one, List.tail_cons, hs1, Out.ok_bind, rd_cons_zero]
  by_cases h125 : a = 125
  · subst h125
    rw [if_pos rfl]
    cases hnil : acc.isNil with
    | true =>
      left
      exact ⟨omem_isNil hnil, w1, s, hw1, e1, hts.tail (by decide), by simp [omem_isNil hnil]⟩
    | false =>
      right; right
      exact ⟨.kExpectedJsonValue, 125 :: s, acc, h, acc.lost, by simp, by unfold BadEnd; decide, hadv1, g,
        Nat.le_refl _, fun _ _ e => e⟩
  · rw [if_neg h125]
    rcases parseString_total (a :: s) hts with
      ⟨tn, name, rest, hname, e2, hr, hp⟩ | ⟨st, p, hp, hadv, hst⟩
    · rw [hp]
      simp only [Out.ok_bind]
      have ha34 : a = 34 := by
        obtain ⟨r, hr⟩ := hname.head
        rw [hr] at e2
        exact (List.cons.inj e2).1
      obtain ⟨gt, hrt⟩ := request_grew g M .text
      cases hmt : request M .text h with
      | mk b ht1 =>
      rw [hmt] at gt hrt
      simp only at gt hrt
      cases b with
      | false =>
        right; right
        refine ⟨.kException, s, acc, ht1, acc.lost, rfl, badEnd_exception,
          hadv1.trans (Adv.cons s (by rw [ha34]; decide)), gt, by omega, fun _ _ e => e⟩
      | true =>
      simp only
      have hadv2 : Adv (a :: s) rest := ⟨tn, e2, hname.nul_free⟩
      have hlen2 := hadv2.length_le
      obtain ⟨w2, b, s2, hw2, e3, hb, hs2⟩ := skipWs_total hr
      have hadv3 : Adv rest (b :: s2) := ⟨w2, e3, hw2.nul_free⟩
      have hlen3 := hadv3.length_le
      rw [hs2]
      simp only [Out.ok_bind, rd_cons_zero]
      by_cases h58 : b = 58
      · subst h58
        rw [if_neg (by simp)]
        have hts2 : Term s2 := (hadv3.term hr).tail (by decide)
        obtain ⟨w3, d, s3, hw3, e4, hd, hs3⟩ := skipWs_total hts2
        have hadv4 : Adv s2 (d :: s3) := ⟨w3, e4, hw3.nul_free⟩
        have hlen4 := hadv4.length_le
        have ht4 := hadv4.term hts2
        have hadvV : Adv t (d :: s3) :=
          ((hadv1.trans hadv2).trans hadv3).trans ((Adv.cons s2 (by decide)).trans hadv4)
        simp only [List.drop_one, List.tail_cons, hs3, Out.ok_bind]
        rcases ihA (d :: s3) ht1 ht4 (by simp only [List.length_cons] at *; omega) h0 _ gt with
          ⟨tok, j, w4, rest', v, h1, hv, hw4, e5, hr', hp', hrep, g1, hle1, hlost1⟩ |
          ⟨st, p, h1, L, hp', hst, hadv, g1, hle1, hL⟩
        · rw [hp']
          simp only [Out.ok_bind]
          have hz := val_nul_free_ne hv
          have hadv5 : Adv (d :: s3) rest' :=
            ⟨tok ++ w4, by rw [e5]; simp, by simp [hz.1, hw4.nul_free]⟩
          have hlen5 := hadv5.length_le
          obtain ⟨gq, hrq⟩ := request_grew g1 M .slot
          cases hm : request M .slot h1 with
          | mk b h2 =>
          rw [hm] at gq hrq
          simp only at gq hrq
          cases b with
          | false =>
            right; right
            refine ⟨.kException, rest', acc, h2, v.reach ++ (v.lost ++ acc.lost), rfl, badEnd_exception,
              hadvV.trans hadv5, gq.perm ?_, by omega, ?_⟩
            · grind
            · intro hs
              have := congrArg Prod.fst hm
              simp [request, hs _] at this
          | true =>
          simp only
          obtain ⟨stored, hsto⟩ : ∃ b, b = decide (name ∉ acc.names) := ⟨_, rfl⟩
          have gq' := gq.refuse stored
          obtain ⟨h3, hh3⟩ : ∃ h3 : Heap, h3 = if stored then h2 else { h2 with refused := h2.refused + 1 } :=
            ⟨_, rfl⟩
          rw [← hh3] at gq'
          have hle3 : h2.refused ≤ h3.refused ∧ (h3.refused = h2.refused → stored = true) := by
            rw [hh3]; cases stored <;> simp
          rw [← hsto, ← hh3]
          have g2 : Grew h0 h3 ((acc.snoc name stored v).reach ++ ((acc.snoc name stored v).lost ++ X)) := by
            refine gq'.perm ?_
            rw [omem_reach_snoc, omem_lost_snoc]
            cases stored <;> simp only [if_true, Bool.false_eq_true, if_false] <;> grind
          have hlost2 : h3.refused = h.refused → acc.lost = [] → (acc.snoc name stored v).lost = [] := by
            intro he hacc
            rw [omem_lost_snoc, hacc, hlost1 (by omega), hle3.2 (by omega)]; rfl
          obtain ⟨w5, b, s5, hw5, e6, hb, hs5⟩ := skipWs_total hr'
          have hadv6 : Adv rest' (b :: s5) := ⟨w5, e6, hw5.nul_free⟩
          have hlen6 := hadv6.length_le
          have hadv := (hadvV.trans hadv5).trans hadv6
          have ht6 := hadv.term ht
          rw [hs5]
          simp only [Out.ok_bind, rd_cons_zero]
          have etext : t = w1 ++ (tn ++ (w2 ++ 0x3A :: (w3 ++ (tok ++ ((w4 ++ w5) ++ b :: s5))))) := by
            rw [e1, e2, e3, e4, e5, e6]; simp
          by_cases h44 : b = 44
          · subst h44
            rw [if_neg (by simp)]
            have ht7 : Term s5 := ht6.tail (by decide)
            rcases ihL 44 s5 (acc.snoc name stored v) h3 ht7 (by
                simp only [List.length_cons] at *; omega) h0 X g2 with
              ⟨he, -⟩ | ⟨ts, jl, l, rest'', h4, hl, e7, hr'', hloop, hrepl, g4, hle4, hlost4⟩ |
              ⟨st, p, acc', h4, L, hloop, hst, hadv', g4, hle4, hL⟩
            · exfalso; have := omem_isNil_snoc acc name stored v; rw [he] at this; cases this
            · right; left
              refine ⟨w1 ++ (tn ++ (w2 ++ 0x3A :: (w3 ++ (tok ++ ((w4 ++ w5) ++ 0x2C :: ts))))),
                .cons name j jl, .cons name stored v l, rest'', h4,
                .cons hw1 hname hw2 hw3 hv (hw4.append hw5) hl, ?_, hr'', ?_,
                ⟨rfl, hsto, hrep, ?_⟩, ?_, by omega, ?_⟩
              · rw [etext, e7]; simp
              · rw [hloop, omem_snoc_app]
              · rw [← omem_names_snoc acc name stored v]; exact hrepl
              · rw [← omem_snoc_app]; exact g4
              · intro he hacc
                rw [← omem_snoc_app]
                exact hlost4 (by omega) (hlost2 (by omega) hacc)
            · right; right
              refine ⟨st, p, acc', h4, L, hloop, hst, hadv.trans ((Adv.cons s5 (by decide)).trans hadv'), g4,
                by omega, ?_⟩
              intro hs he hacc
              exact hL hs (by omega) (hlost2 (by omega) hacc)
          · rw [if_pos h44]
            by_cases h125' : b = 125
            · subst h125'
              rw [if_neg (by simp)]
              right; left
              refine ⟨w1 ++ (tn ++ (w2 ++ 0x3A :: (w3 ++ (tok ++ (w4 ++ w5))))), .cons name j .nil,
                .cons name stored v .nil, s5, h3, .one hw1 hname hw2 hw3 hv (hw4.append hw5), ?_,
                ht6.tail (by decide), ?_, ⟨rfl, hsto, hrep, trivial⟩, ?_, by omega, ?_⟩
              · rw [etext]; simp
              · rw [← omem_snoc_app, omem_app_nil]; rfl
              · rw [← omem_snoc_app, omem_app_nil]; exact g2
              · intro he hacc
                rw [← omem_snoc_app, omem_app_nil]; exact hlost2 he hacc
            · rw [if_pos h125']
              right; right
              exact ⟨_, _, _, h3, (acc.snoc name stored v).lost, rfl, by unfold BadEnd; decide, hadv, g2,
                by omega, fun _ => hlost2⟩
        · rw [hp']
          right; right
          refine ⟨st, p, acc, h1, L ++ acc.lost, rfl, hst, hadvV.trans hadv, g1.perm ?_, by omega, ?_⟩
          · grind
          · intro hs he hacc
            rw [hL hs (by omega), hacc]; rfl
      · rw [if_pos h58]
        right; right
        exact ⟨_, _, acc, ht1, acc.lost, rfl, by unfold BadEnd; decide, (hadv1.trans hadv2).trans hadv3, gt,
          by omega, fun _ _ e => e⟩
    · rw [hp]
      right; right
      refine ⟨st, p, acc, h, acc.lost, rfl, ?_, hadv1.trans hadv, g, Nat.le_refl _, fun _ _ e => e⟩
      rcases hst with ⟨rfl, -⟩ | ⟨rfl | rfl | rfl, -⟩ <;> (unfold BadEnd; decide)

/-- `ParseAnyValue` from the object alternative on. -/
def tryObject (M : Mem) (N : NumOps D) (n : Nat) (pos : Bytes) (h : Heap) : Out (PRes (OVal D) × Heap) :=
  parseObjectH M N n pos h >>= fun (r, h) =>
  match r with
  | .ok rest v => .ok (.ok rest v, h)
  | .err status pos =>
    if status ≠ .kExpectedOpeningCurlyBraces ∨
        status = .kNumbersCannotHaveLeadingZeros then .ok (.err status pos, h)
    else .ok (.err .kExpectedJsonValue pos, h)

/-- `ParseAnyValue` from the array alternative on. -/
def tryArray (M : Mem) (N : NumOps D) (n : Nat) (start : Bytes) (h : Heap) : Out (PRes (OVal D) × Heap) :=
  parseArrayH M N n start h >>= fun (r, h) =>
  match r with
  | .ok rest v => .ok (.ok rest v, h)
  | .err status pos =>
    if status ≠ .kExpectedOpeningSquareBrackets then .ok (.err status pos, h)
    else tryObject M N n pos h

/-- `ParseAnyValue` from the null alternative on. -/
def tryNull (M : Mem) (N : NumOps D) (n : Nat) (start : Bytes) (h : Heap) : Out (PRes (OVal D) × Heap) :=
  parseLeaf M false parseNull (fun _ => .null) start h >>= fun (r, h) =>
  match r with
  | .ok rest v => .ok (.ok rest v, h)
  | .err _ _ => tryArray M N n start h

/-- `ParseAnyValue` from the boolean alternative on. -/
def tryBool (M : Mem) (N : NumOps D) (n : Nat) (start : Bytes) (h : Heap) : Out (PRes (OVal D) × Heap) :=
  parseLeaf M false parseBool .bool start h >>= fun (r, h) =>
  match r with
  | .ok rest v => .ok (.ok rest v, h)
  | .err _ _ => tryNull M N n start h

/-- `ParseAnyValue` from the number alternative on. -/
def tryNumber (M : Mem) (N : NumOps D) (n : Nat) (start : Bytes) (h : Heap) : Out (PRes (OVal D) × Heap) :=
  parseLeaf M false (parseNumber N) .num start h >>= fun (r, h) =>
  match r with
  | .ok rest v => .ok (.ok rest v, h)
  | .err status pos =>
    if status = .kNumbersCannotHaveLeadingZeros then .ok (.err status pos, h)
    else tryBool M N n start h

theorem parseAnyH_succ (M : Mem) (N : NumOps D) (n : Nat) (start : Bytes) (h : Heap) :
    parseAnyH M N (n + 1) start h =
      (parseLeaf M true parseString .str start h >>= fun (r, h) =>
      match r with
      | .ok rest v => .ok (.ok rest v, h)
      | .err status pos =>
        if status ≠ .kExpectedBeginingDoubleQuotes then .ok (.err status pos, h)
        else tryNumber M N n start h) := rfl

/-- The two outcomes of `ParseAnyValue`. -/
def Done (M : Mem) (N : NumOps D) (t : Bytes) (h h0 : Heap) (X : List Nat)
    (e : Out (PRes (OVal D) × Heap)) : Prop :=
  (∃ tok j w rest v h', DVal tok j ∧ Ws w ∧ t = tok ++ (w ++ rest) ∧ Term rest ∧
    e = .ok (.ok rest v, h') ∧ Rep N v j ∧ Grew h0 h' (v.reach ++ (v.lost ++ X)) ∧
    h.refused ≤ h'.refused ∧ (h'.refused = h.refused → v.lost = [])) ∨
  (∃ st p h' L, e = .ok (.err st p, h') ∧ BadEnd st ∧ Adv t p ∧ Grew h0 h' (L ++ X) ∧
    h.refused ≤ h'.refused ∧ (SlotOk M → h'.refused = h.refused → L = []))

theorem parseArrayH_succ (M : Mem) (N : NumOps D) (n : Nat) (t : Bytes) (h : Heap) :
    parseArrayH M N (n + 1) t h =
      match newValue M .value h with
      | (none, h) => .ok (.err .kException t, h)
      | (some a, h) =>
          rd t 0 >>= fun c =>
          if c ≠ 91 then
            delete (.arr a .nil : OVal D) h >>= fun h => .ok (.err .kExpectedOpeningSquareBrackets t, h)
          else
            arrayLoopH M N n t .nil h >>= fun (r, h) =>
            match r with
            | .ok rest l => .ok (.ok rest (.arr a l), h)
            | .err status pos l => delete (.arr a l) h >>= fun h => .ok (.err status pos, h) := rfl

theorem parseObjectH_succ (M : Mem) (N : NumOps D) (n : Nat) (t : Bytes) (h : Heap) :
    parseObjectH M N (n + 1) t h =
      match newValue M .value h with
      | (none, h) => .ok (.err .kException t, h)
      | (some a, h) =>
          rd t 0 >>= fun c =>
          if c ≠ 123 then
            delete (.obj a .nil : OVal D) h >>= fun h => .ok (.err .kExpectedOpeningCurlyBraces t, h)
          else
            objectLoopH M N n t .nil h >>= fun (r, h) =>
            match r with
            | .ok rest l => .ok (.ok rest (.obj a l), h)
            | .err status pos l => delete (.obj a l) h >>= fun h => .ok (.err status pos, h) := rfl

/-- The array alternative of `ParseAnyValue`. -/
theorem parseArrayH_cases (M : Mem) (N : NumOps D) (n : Nat)
    (ihL : ∀ c t acc h, Term t → 3 * t.length + 2 ≤ n → ArrH M N n c t acc h)
    (c : Byte) (s : Bytes) (ht : Term (c :: s)) (hn : 3 * (c :: s).length + 1 ≤ n + 2) {h0 h : Heap} {X : List Nat}
    (g : Grew h0 h X) :
    (c ≠ 91 ∧ ∃ h', parseArrayH M N (n + 1) (c :: s) h = .ok (.err .kExpectedOpeningSquareBrackets (c :: s), h') ∧
      Grew h0 h' X ∧ h'.refused = h.refused) ∨
    (∃ tok jl rest v h', DVal tok (.arr jl) ∧ c :: s = tok ++ rest ∧ Term rest ∧
      parseArrayH M N (n + 1) (c :: s) h = .ok (.ok rest v, h') ∧ Rep N v (.arr jl) ∧
      Grew h0 h' (v.reach ++ (v.lost ++ X)) ∧ h.refused ≤ h'.refused ∧ (h'.refused = h.refused → v.lost = [])) ∨
    (∃ st p h' L, parseArrayH M N (n + 1) (c :: s) h = .ok (.err st p, h') ∧ BadEnd st ∧ Adv (c :: s) p ∧
      Grew h0 h' (L ++ X) ∧ h.refused ≤ h'.refused ∧ (SlotOk M → h'.refused = h.refused → L = [])) := by
  rw [parseArrayH_succ]
  rcases newValue_grew g M .value with ⟨h1, e1, g1, hr1, hM⟩ | ⟨a, h1, e1, g1, hr1⟩
  · right; right
    rw [e1]
    exact ⟨.kException, c :: s, h1, [], rfl, badEnd_exception, Adv.refl _, g1, by omega, fun _ _ => rfl⟩
  · rw [e1]
    simp only [rd_cons_zero, Out.ok_bind]
    by_cases h91 : c = 91
    · subst h91
      rw [if_neg (by simp)]
      have hs := ht.tail (by decide)
      rcases ihL 91 s .nil h1 hs (by simp only [List.length_cons] at hn; omega) h0 (a :: X)
          (by simpa [OList.reach, OList.lost] using g1) with
        ⟨-, w, rest, hw, e, hr, hp⟩ | ⟨ts, jl, l, rest, h2, hl, e, hr, hp, hrep, g2, hle, hlost⟩ |
        ⟨st, p, acc', h2, L, hp, hst, hadv, g2, hle, hL⟩
      · right; left
        refine ⟨91 :: (w ++ [93]), .nil, rest, .arr a .nil, h1, .arrEmpty hw, ?_, hr, ?_, trivial, ?_, by omega,
          fun _ => rfl⟩
        · rw [e]; simp
        · rw [hp]; rfl
        · simpa [OVal.reach, OVal.lost, OList.reach, OList.lost] using g1
      · right; left
        refine ⟨91 :: (ts ++ [93]), jl, rest, .arr a l, h2, .arr hl, ?_, hr, ?_, hrep, ?_, by omega, ?_⟩
        · rw [e]; simp
        · rw [hp]; rfl
        · refine g2.perm ?_
          simp only [OList.app, OVal.reach, OVal.lost]
          grind
        · intro he
          exact hlost (by omega) rfl
      · right; right
        rw [hp]
        simp only [Out.ok_bind]
        obtain ⟨h3, e3, g3, hr3⟩ := Grew.freeAll (OVal.arr a acc').reach (L := L ++ X) (g2.perm (by
          simp only [OVal.reach]; grind))
        refine ⟨st, p, h3, L, ?_, hst, (Adv.cons s (by decide)).trans hadv, g3, by omega, ?_⟩
        · rw [delete, e3]; rfl
        · intro hs he
          exact hL hs (by omega) rfl
    · rw [if_pos h91]
      left
      obtain ⟨h3, e3, g3, hr3⟩ := Grew.freeAll (OVal.arr a (.nil : OList D)).reach (L := X) g1
      refine ⟨h91, h3, ?_, g3, hr3.trans hr1⟩
      rw [delete, e3]; rfl

/-- The object alternative of `ParseAnyValue`. -/
theorem parseObjectH_cases (M : Mem) (N : NumOps D) (n : Nat)
    (ihL : ∀ c t acc h, Term t → 3 * t.length + 2 ≤ n → ObjH M N n c t acc h)
    (c : Byte) (s : Bytes) (ht : Term (c :: s)) (hn : 3 * (c :: s).length + 1 ≤ n + 2) {h0 h : Heap} {X : List Nat}
    (g : Grew h0 h X) :
    (c ≠ 123 ∧ ∃ h', parseObjectH M N (n + 1) (c :: s) h = .ok (.err .kExpectedOpeningCurlyBraces (c :: s), h') ∧
      Grew h0 h' X ∧ h'.refused = h.refused) ∨
    (∃ tok jl rest v h', DVal tok (.obj jl) ∧ c :: s = tok ++ rest ∧ Term rest ∧
      parseObjectH M N (n + 1) (c :: s) h = .ok (.ok rest v, h') ∧ Rep N v (.obj jl) ∧
      Grew h0 h' (v.reach ++ (v.lost ++ X)) ∧ h.refused ≤ h'.refused ∧ (h'.refused = h.refused → v.lost = [])) ∨
    (∃ st p h' L, parseObjectH M N (n + 1) (c :: s) h = .ok (.err st p, h') ∧ BadEnd st ∧ Adv (c :: s) p ∧
      Grew h0 h' (L ++ X) ∧ h.refused ≤ h'.refused ∧ (SlotOk M → h'.refused = h.refused → L = [])) := by
  rw [parseObjectH_succ]
  rcases newValue_grew g M .value with ⟨h1, e1, g1, hr1, hM⟩ | ⟨a, h1, e1, g1, hr1⟩
  · right; right
    rw [e1]
    exact ⟨.kException, c :: s, h1, [], rfl, badEnd_exception, Adv.refl _, g1, by omega, fun _ _ => rfl⟩
  · rw [e1]
    simp only [rd_cons_zero, Out.ok_bind]
    by_cases h91 : c = 123
    · subst h91
      rw [if_neg (by simp)]
      have hs := ht.tail (by decide)
      rcases ihL 123 s .nil h1 hs (by simp only [List.length_cons] at hn; omega) h0 (a :: X)
          (by simpa [OMem.reach, OMem.lost] using g1) with
        ⟨-, w, rest, hw, e, hr, hp⟩ | ⟨ts, jl, l, rest, h2, hl, e, hr, hp, hrep, g2, hle, hlost⟩ |
        ⟨st, p, acc', h2, L, hp, hst, hadv, g2, hle, hL⟩
      · right; left
        refine ⟨123 :: (w ++ [125]), .nil, rest, .obj a .nil, h1, .objEmpty hw, ?_, hr, ?_, trivial, ?_, by omega,
          fun _ => rfl⟩
        · rw [e]; simp
        · rw [hp]; rfl
        · simpa [OVal.reach, OVal.lost, OMem.reach, OMem.lost] using g1
      · right; left
        refine ⟨123 :: (ts ++ [125]), jl, rest, .obj a l, h2, .obj hl, ?_, hr, ?_, hrep, ?_, by omega, ?_⟩
        · rw [e]; simp
        · rw [hp]; rfl
        · refine g2.perm ?_
          simp only [OMem.app, OVal.reach, OVal.lost]
          grind
        · intro he
          exact hlost (by omega) rfl
      · right; right
        rw [hp]
        simp only [Out.ok_bind]
        obtain ⟨h3, e3, g3, hr3⟩ := Grew.freeAll (OVal.obj a acc').reach (L := L ++ X) (g2.perm (by
          simp only [OVal.reach]; grind))
        refine ⟨st, p, h3, L, ?_, hst, (Adv.cons s (by decide)).trans hadv, g3, by omega, ?_⟩
        · rw [delete, e3]; rfl
        · intro hs he
          exact hL hs (by omega) rfl
    · rw [if_pos h91]
      left
      obtain ⟨h3, e3, g3, hr3⟩ := Grew.freeAll (OVal.obj a (.nil : OMem D)).reach (L := X) g1
      refine ⟨h91, h3, ?_, g3, hr3.trans hr1⟩
      rw [delete, e3]; rfl

/-- A leaf was read. -/
theorem done_leaf (M : Mem) (N : NumOps D) {t : Bytes} {h h0 h' : Heap} {X : List Nat} {tok w rest : Bytes} {j : J}
    {a : Nat} {v : Value D} (hv : DVal tok j) (hw : Ws w) (e : t = tok ++ (w ++ rest)) (hr : Term rest)
    (hs : Scalar j) (hi : v = interp N j) (g : Grew h0 h' (a :: X)) (hle : h'.refused = h.refused) :
    Done M N t h h0 X (.ok (.ok rest (.leaf a v), h')) :=
  .inl ⟨tok, j, w, rest, _, h', hv, hw, e, hr, rfl, ⟨hs, hi⟩, by simpa [OVal.reach, OVal.lost] using g, by omega,
    fun _ => rfl⟩

theorem tryArray_done (M : Mem) (N : NumOps D) (k : Nat) {t : Bytes} (ht : Term t) (hn : 3 * t.length + 1 ≤ k + 1)
    (ih : ∀ m, m < k + 1 →
      (∀ c t (acc : OList D) h, Term t → 3 * t.length + 2 ≤ m → ArrH M N m c t acc h) ∧
      (∀ c t (acc : OMem D) h, Term t → 3 * t.length + 2 ≤ m → ObjH M N m c t acc h))
    {h h0 h4 : Heap} {X : List Nat} (g4 : Grew h0 h4 X) (hr4 : h4.refused = h.refused) :
    Done M N t h h0 X (tryArray M N k t h4) := by
  obtain ⟨c, s, rfl⟩ := ht.ne_nil
  obtain ⟨k, rfl⟩ : ∃ i, k = i + 1 := ⟨k - 1, by simp at hn; omega⟩
  unfold tryArray
  rcases parseArrayH_cases M N k (ih k (by omega)).1 c s ht hn g4 with
    ⟨h91, h5, e5, g5, hr5⟩ | ⟨tok, jl, rest, v, h5, hv, et, hr, e5, hrep, g5, hle5, hlost5⟩ |
    ⟨st, p, h5, L, e5, hst, hadv, g5, hle5, hL⟩
  · rw [e5]
    simp only [Out.ok_bind, ne_eq, not_true_eq_false, if_false]
    unfold tryObject
    rcases parseObjectH_cases M N k (ih k (by omega)).2 c s ht hn g5 with
      ⟨h123, h6, e6, g6, hr6⟩ | ⟨tok, jl, rest, v, h6, hv, et, hr, e6, hrep, g6, hle6, hlost6⟩ |
      ⟨st, p, h6, L, e6, hst, hadv, g6, hle6, hL⟩
    · right
      rw [e6]
      simp only [Out.ok_bind]
      rw [if_neg (by decide)]
      exact ⟨_, _, h6, [], rfl, by unfold BadEnd; decide, Adv.refl _, g6, by omega, fun _ _ => rfl⟩
    · left
      rw [e6]
      exact ⟨tok, _, [], rest, v, h6, hv, Ws.nil, by simpa using et, hr, rfl, hrep, g6, by omega,
        fun he => hlost6 (by omega)⟩
    · right
      rw [e6]
      simp only [Out.ok_bind]
      rw [if_pos (.inl hst.2.2)]
      exact ⟨_, _, h6, L, rfl, hst, hadv, g6, by omega, fun hs he => hL hs (by omega)⟩
  · left
    rw [e5]
    exact ⟨tok, _, [], rest, v, h5, hv, Ws.nil, by simpa using et, hr, rfl, hrep, g5, by omega,
      fun he => hlost5 (by omega)⟩
  · right
    rw [e5]
    simp only [Out.ok_bind]
    rw [if_pos hst.2.1]
    exact ⟨_, _, h5, L, rfl, hst, hadv, g5, by omega, fun hs he => hL hs (by omega)⟩

theorem tryNull_done (M : Mem) (N : NumOps D) (k : Nat) {t : Bytes} (ht : Term t) (hn : 3 * t.length + 1 ≤ k + 1)
    (ih : ∀ m, m < k + 1 →
      (∀ c t (acc : OList D) h, Term t → 3 * t.length + 2 ≤ m → ArrH M N m c t acc h) ∧
      (∀ c t (acc : OMem D) h, Term t → 3 * t.length + 2 ≤ m → ObjH M N m c t acc h))
    {h h0 h3 : Heap} {X : List Nat} (g3 : Grew h0 h3 X) (hr3 : h3.refused = h.refused) :
    Done M N t h h0 X (tryNull M N k t h3) := by
  unfold tryNull
  rcases parseNull_total t ht with ⟨tok, rest, hv, e, hr, hp⟩ | hp
  · rcases parseLeaf_cases M false parseNull (fun _ => (Value.null : Value D)) t g3 hp with
      ⟨h4, p, e4, g4, hr4, -, -⟩ | ⟨st, p, h4, hx, e4, g4, hr4⟩ | ⟨rest, x, a, h4, hx, e4, g4, hr4⟩
    · rw [e4]
      exact tryArray_done M N k ht hn ih g4 (hr4.trans hr3)
    · cases hx
    · rw [e4]
      injection hx with hx1 hx2
      subst hx1
      exact done_leaf M N hv Ws.nil (by simpa using e) hr trivial rfl g4 (hr4.trans hr3)
  · rcases parseLeaf_cases M false parseNull (fun _ => (Value.null : Value D)) t g3 hp with
      ⟨h4, p, e4, g4, hr4, -, -⟩ | ⟨st, p, h4, hx, e4, g4, hr4⟩ | ⟨rest, x, a, h4, hx, e4, g4, hr4⟩
    · rw [e4]
      exact tryArray_done M N k ht hn ih g4 (hr4.trans hr3)
    · rw [e4]
      exact tryArray_done M N k ht hn ih g4 (hr4.trans hr3)
    · cases hx

theorem tryBool_done (M : Mem) (N : NumOps D) (k : Nat) {t : Bytes} (ht : Term t) (hn : 3 * t.length + 1 ≤ k + 1)
    (ih : ∀ m, m < k + 1 →
      (∀ c t (acc : OList D) h, Term t → 3 * t.length + 2 ≤ m → ArrH M N m c t acc h) ∧
      (∀ c t (acc : OMem D) h, Term t → 3 * t.length + 2 ≤ m → ObjH M N m c t acc h))
    {h h0 h3 : Heap} {X : List Nat} (g3 : Grew h0 h3 X) (hr3 : h3.refused = h.refused) :
    Done M N t h h0 X (tryBool M N k t h3) := by
  unfold tryBool
  rcases parseBool_total t ht with ⟨tok, b, rest, hv, e, hr, hp⟩ | hp
  · rcases parseLeaf_cases M false parseBool (Value.bool (D := D)) t g3 hp with
      ⟨h4, p, e4, g4, hr4, -, -⟩ | ⟨st, p, h4, hx, e4, g4, hr4⟩ | ⟨rest, x, a, h4, hx, e4, g4, hr4⟩
    · rw [e4]
      exact tryNull_done M N k ht hn ih g4 (hr4.trans hr3)
    · cases hx
    · rw [e4]
      injection hx with hx1 hx2
      subst hx1 hx2
      exact done_leaf M N hv Ws.nil (by simpa using e) hr trivial rfl g4 (hr4.trans hr3)
  · rcases parseLeaf_cases M false parseBool (Value.bool (D := D)) t g3 hp with
      ⟨h4, p, e4, g4, hr4, -, -⟩ | ⟨st, p, h4, hx, e4, g4, hr4⟩ | ⟨rest, x, a, h4, hx, e4, g4, hr4⟩
    · rw [e4]
      exact tryNull_done M N k ht hn ih g4 (hr4.trans hr3)
    · rw [e4]
      exact tryNull_done M N k ht hn ih g4 (hr4.trans hr3)
    · cases hx

theorem tryNumber_done (M : Mem) (N : NumOps D) (hN : NegLaw N) (k : Nat) {t : Bytes} (ht : Term t)
    (hn : 3 * t.length + 1 ≤ k + 1)
    (ih : ∀ m, m < k + 1 →
      (∀ c t (acc : OList D) h, Term t → 3 * t.length + 2 ≤ m → ArrH M N m c t acc h) ∧
      (∀ c t (acc : OMem D) h, Term t → 3 * t.length + 2 ≤ m → ObjH M N m c t acc h))
    {h h0 h3 : Heap} {X : List Nat} (g3 : Grew h0 h3 X) (hr3 : h3.refused = h.refused) :
    Done M N t h h0 X (tryNumber M N k t h3) := by
  unfold tryNumber
  rcases parseNumber_total N hN t ht with ⟨tok, w, d, rest, hd, hw, e, hr, hp⟩ | ⟨st, p', hp, hadv', hst⟩
  · rcases parseLeaf_cases M false (parseNumber N) (Value.num (D := D)) t g3 hp with
      ⟨h4, p, e4, g4, hr4, -, -⟩ | ⟨st, p, h4, hx, e4, g4, hr4⟩ | ⟨rest, x, a, h4, hx, e4, g4, hr4⟩
    · rw [e4]
      exact tryBool_done M N k ht hn ih g4 (hr4.trans hr3)
    · cases hx
    · rw [e4]
      injection hx with hx1 hx2
      subst hx1 hx2
      exact done_leaf M N (.num hd) hw e hr trivial rfl g4 (hr4.trans hr3)
  · rcases parseLeaf_cases M false (parseNumber N) (Value.num (D := D)) t g3 hp with
      ⟨h4, p, e4, g4, hr4, -, -⟩ | ⟨st, p, h4, hx, e4, g4, hr4⟩ | ⟨rest, x, a, h4, hx, e4, g4, hr4⟩
    · rw [e4]
      exact tryBool_done M N k ht hn ih g4 (hr4.trans hr3)
    · rw [e4]
      injection hx with hx1 hx2
      subst hx1 hx2
      simp only [Out.ok_bind]
      by_cases hz : st = .kNumbersCannotHaveLeadingZeros
      · subst hz
        rw [if_pos rfl]
        exact .inr ⟨_, _, h4, [], rfl, by unfold BadEnd; decide, hadv', g4, by omega, fun _ _ => rfl⟩
      · rw [if_neg hz]
        exact tryBool_done M N k ht hn ih g4 (hr4.trans hr3)
    · cases hx

theorem allH_total (M : Mem) (N : NumOps D) (hN : NegLaw N) (n : Nat) :
    (∀ t h, Term t → 3 * t.length + 1 ≤ n → AnyH M N n t h) ∧
    (∀ c t acc h, Term t → 3 * t.length + 2 ≤ n → ArrH M N n c t acc h) ∧
    (∀ c t acc h, Term t → 3 * t.length + 2 ≤ n → ObjH M N n c t acc h) := by
  induction n using Nat.strongRecOn with
  | _ n ih =>
    refine ⟨?_, ?_, ?_⟩
    · intro t h ht hn h0 X g
      obtain ⟨k, rfl⟩ : ∃ k, n = k + 1 := ⟨n - 1, by omega⟩
      show Done M N t h h0 X _
      rw [parseAnyH_succ]
      rcases parseString_total t ht with ⟨tok, s, rest, hs, e, hr, hp⟩ | ⟨st, p, hp, hadv, hst⟩
      · rcases parseLeaf_cases M true parseString (Value.str (D := D)) t g hp with
          ⟨h1, p, e1, g1, hr1, hp1, -⟩ | ⟨st, p, h1, hx, e1, g1, hr1⟩ | ⟨rest, x, a, h1, hx, e1, g1, hr1⟩
        · right
          rw [e1]
          simp only [Out.ok_bind]
          rw [if_pos (by decide)]
          refine ⟨_, p, h1, [], rfl, badEnd_exception, ?_, g1, by omega, fun _ _ => rfl⟩
          rcases hp1 with rfl | ⟨-, rfl, -⟩
          · exact Adv.refl _
          · obtain ⟨r, hr⟩ := hs.head
            rw [hr] at e
            rw [e]
            exact Adv.cons _ (by decide)
        · cases hx
        · rw [e1]
          injection hx with hx1 hx2
          subst hx1 hx2
          exact done_leaf M N (.str hs) Ws.nil (by simpa using e) hr trivial rfl g1 hr1
      · rcases parseLeaf_cases M true parseString (Value.str (D := D)) t g hp with
          ⟨h1, p, e1, g1, hr1, hp1, -⟩ | ⟨st, p, h1, hx, e1, g1, hr1⟩ | ⟨rest, x, a, h1, hx, e1, g1, hr1⟩
        · right
          rw [e1]
          simp only [Out.ok_bind]
          rw [if_pos (by decide)]
          refine ⟨_, p, h1, [], rfl, badEnd_exception, ?_, g1, by omega, fun _ _ => rfl⟩
          rcases hp1 with rfl | ⟨-, -, _, _, hc⟩
          · exact Adv.refl _
          · cases hc
        · rw [e1]
          injection hx with hx1 hx2
          subst hx1 hx2
          simp only [Out.ok_bind]
          by_cases hq : st = .kExpectedBeginingDoubleQuotes
          · rw [if_neg (by simpa using hq)]
            exact tryNumber_done M N hN k ht hn (fun m hm => (ih m hm).2) g1 hr1
          · rw [if_pos hq]
            refine .inr ⟨st, p, h1, [], rfl, ?_, hadv, g1, by omega, fun _ _ => rfl⟩
            rcases hst with ⟨rfl, -⟩ | ⟨rfl | rfl | rfl, -⟩ <;> (unfold BadEnd; decide)
        · cases hx
    · intro c t acc h ht hn
      obtain ⟨k, rfl⟩ : ∃ k, n = k + 1 := ⟨n - 1, by omega⟩
      exact arrH_total M N k (ih k (by omega)).1 (ih k (by omega)).2.1 c t acc h ht hn
    · intro c t acc h ht hn
      obtain ⟨k, rfl⟩ : ∃ k, n = k + 1 := ⟨n - 1, by omega⟩
      exact objH_total M N k (ih k (by omega)).1 (ih k (by omega)).2.2 c t acc h ht hn

/-! ## The same outcome as the parser without memory -/

/-- Every request succeeds. -/
def AllOk (M : Mem) : Prop := ∀ q k, M q k = true

/-- The same status and position. -/
def Same {α β : Type} : PRes α → PRes β → Prop
  | .ok rest _, .ok rest' _ => rest = rest'
  | .err st p, .err st' p' => st = st' ∧ p = p'
  | _, _ => False

/-- The same status and position. -/
def SameL {α β : Type} : LRes α → PRes β → Prop
  | .ok rest _, .ok rest' _ => rest = rest'
  | .err st p _, .err st' p' => st = st' ∧ p = p'
  | _, _ => False

theorem allOk_new {M : Mem} (hM : AllOk M) (q : Req) (h : Heap) : ∃ a h', newValue M q h = (some a, h') := by
  unfold newValue
  rw [if_pos (hM _ _)]
  exact ⟨_, _, rfl⟩

theorem allOk_request {M : Mem} (hM : AllOk M) (q : Req) (h : Heap) : ∃ h', request M q h = (true, h') := by
  unfold request
  rw [hM]
  exact ⟨_, rfl⟩

/-- If both computations return, their results are related. -/
def Sim {α β : Type} (P : α → β → Prop) (a : Out α) (b : Out β) : Prop :=
  ∀ x y, a = .ok x → b = .ok y → P x y

theorem Sim.ok {α β : Type} {P : α → β → Prop} {x : α} {y : β} (h : P x y) : Sim P (.ok x) (.ok y) := by
  intro _ _ e e'
  injection e with e
  injection e' with e'
  subst e e'
  exact h

theorem Sim.bind {α β γ δ : Type} {Q : α → β → Prop} {P : γ → δ → Prop} {a : Out α} {b : Out β} {f : α → Out γ}
    {g : β → Out δ} (h : Sim Q a b) (hf : ∀ x y, Q x y → Sim P (f x) (g y)) : Sim P (a >>= f) (b >>= g) := by
  intro _ _ e e'
  rw [Out.bind_eq_ok] at e e'
  obtain ⟨x, hx, e⟩ := e
  obtain ⟨y, hy, e'⟩ := e'
  exact hf x y (h x y hx hy) _ _ e e'

theorem Sim.same {α γ δ : Type} {P : γ → δ → Prop} {a : Out α} {f : α → Out γ}
    {g : α → Out δ} (hf : ∀ x, Sim P (f x) (g x)) : Sim P (a >>= f) (a >>= g) :=
  Sim.bind (Q := Eq) (fun x y hx hy => by rw [hx] at hy; injection hy) (fun x y e => e ▸ hf x)

theorem Sim.left {α γ δ : Type} {P : γ → δ → Prop} {a : Out α} {f : α → Out γ} {b : Out δ}
    (hf : ∀ x, Sim P (f x) b) : Sim P (a >>= f) b := by
  intro _ _ e e'
  rw [Out.bind_eq_ok] at e
  obtain ⟨x, hx, e⟩ := e
  exact hf x _ _ e e'

theorem Sim.ite {α β : Type} {P : α → β → Prop} {c : Prop} [Decidable c] {a a' : Out α} {b b' : Out β}
    (h1 : c → Sim P a b) (h2 : ¬ c → Sim P a' b') : Sim P (if c then a else a') (if c then b else b') := by
  by_cases h : c
  · rw [if_pos h, if_pos h]; exact h1 h
  · rw [if_neg h, if_neg h]; exact h2 h

/-- The relation between the results. -/
def SameH (x : PRes (OVal D) × Heap) (y : PRes (Value D)) : Prop := Same x.1 y

theorem parseLeaf_same {α : Type} {M : Mem} (hM : AllOk M) {needs : Bool} {parse : Bytes → Out (PRes α)}
    {mk : α → Value D} {t : Bytes} {h : Heap} :
    Sim (fun x y => Same x.1 y) (parseLeaf M needs parse mk t h) (parse t) := by
  unfold parseLeaf
  obtain ⟨a, h1, e1⟩ := allOk_new hM .value h
  rw [e1]
  simp only
  have hid : parse t = (parse t >>= fun x => .ok x) := by cases parse t <;> rfl
  rw (occs := .pos [2]) [hid]
  refine Sim.same ?_
  intro r
  cases r with
  | err st p => exact Sim.left fun h2 => Sim.ok ⟨rfl, rfl⟩
  | ok rest x =>
    cases needs with
    | true =>
      obtain ⟨h2, e2⟩ := allOk_request hM .text h1
      simp only [if_true, e2]
      exact Sim.ok rfl
    | false => exact Sim.ok rfl

theorem allH_same {M : Mem} (hM : AllOk M) (N : NumOps D) (n : Nat) :
    (∀ t h, Sim SameH (parseAnyH M N n t h) (parseAny N n t)) ∧
    (∀ t h, Sim SameH (parseArrayH M N n t h) (parseArray N n t)) ∧
    (∀ t acc acc0 h, acc.isNil = acc0.isEmpty →
      Sim (fun x y => SameL x.1 y) (arrayLoopH M N n t acc h) (arrayLoop N n t acc0)) ∧
    (∀ t h, Sim SameH (parseObjectH M N n t h) (parseObject N n t)) ∧
    (∀ t acc m order h, acc.isNil = order.isEmpty →
      Sim (fun x y => SameL x.1 y) (objectLoopH M N n t acc h) (objectLoop N n t m order)) := by
  induction n with
  | zero =>
    refine ⟨?_, ?_, ?_, ?_, ?_⟩ <;> intros <;> (intro _ _ e _; cases e)
  | succ n ih =>
    obtain ⟨ih1, ih2, ih3, ih4, ih5⟩ := ih
    refine ⟨?_, ?_, ?_, ?_, ?_⟩
    · intro t h
      rw [parseAnyH_succ, parseAny_succ]
      refine Sim.bind (parseLeaf_same hM) fun x y hs => ?_
      obtain ⟨x, h1⟩ := x
      cases x <;> cases y <;> simp only [Same] at hs
      · exact Sim.ok hs
      obtain ⟨rfl, rfl⟩ := hs
      refine Sim.ite (fun _ => Sim.ok ⟨rfl, rfl⟩) fun _ => ?_
      refine Sim.bind (parseLeaf_same hM) fun x y hs => ?_
      obtain ⟨x, h2⟩ := x
      cases x <;> cases y <;> simp only [Same] at hs
      · exact Sim.ok hs
      obtain ⟨rfl, rfl⟩ := hs
      refine Sim.ite (fun _ => Sim.ok ⟨rfl, rfl⟩) fun _ => ?_
      refine Sim.bind (parseLeaf_same hM) fun x y hs => ?_
      obtain ⟨x, h3⟩ := x
      cases x <;> cases y <;> simp only [Same] at hs
      · exact Sim.ok hs
      refine Sim.bind (parseLeaf_same hM) fun x y hs => ?_
      obtain ⟨x, h4⟩ := x
      cases x <;> cases y <;> simp only [Same] at hs
      · exact Sim.ok hs
      refine Sim.bind (ih2 _ _) fun x y hs => ?_
      obtain ⟨x, h5⟩ := x
      cases x <;> cases y <;> simp only [SameH, Same] at hs
      · exact Sim.ok hs
      obtain ⟨rfl, rfl⟩ := hs
      refine Sim.ite (fun _ => Sim.ok ⟨rfl, rfl⟩) fun _ => ?_
      refine Sim.bind (ih4 _ _) fun x y hs => ?_
      obtain ⟨x, h6⟩ := x
      cases x <;> cases y <;> simp only [SameH, Same] at hs
      · exact Sim.ok hs
      obtain ⟨rfl, rfl⟩ := hs
      exact Sim.ite (fun _ => Sim.ok ⟨rfl, rfl⟩) fun _ => Sim.ok ⟨rfl, rfl⟩
    · intro t h
      rw [parseArrayH_succ, parseArray_succ]
      obtain ⟨a, h1, e1⟩ := allOk_new hM .value h
      rw [e1]
      refine Sim.same fun c => Sim.ite (fun _ => Sim.left fun _ => Sim.ok ⟨rfl, rfl⟩) fun _ => ?_
      have hid : arrayLoop N n t [] = (arrayLoop N n t [] >>= fun x => .ok x) := by
        cases arrayLoop N n t [] <;> rfl
      rw [hid]
      refine Sim.bind (ih3 _ _ _ _ rfl) fun x y hs => ?_
      obtain ⟨x, h2⟩ := x
      cases x <;> cases y <;> simp only [SameL] at hs
      · exact Sim.ok hs
      · exact Sim.left fun _ => Sim.ok hs
    · intro t acc acc0 h hnil
      rw [arrayLoopH_succ, arrayLoop_succ]
      refine Sim.same fun t => Sim.same fun c => Sim.ite (fun _ => ?_) fun _ => ?_
      · rw [← hnil]
        exact Sim.ite (fun _ => Sim.ok ⟨rfl, rfl⟩) fun _ => Sim.ok rfl
      · refine Sim.bind (ih1 _ _) fun x y hs => ?_
        obtain ⟨x, h2⟩ := x
        cases x <;> cases y <;> simp only [SameH, Same] at hs
        · subst hs
          obtain ⟨h3, e3⟩ := allOk_request hM .slot h2
          simp only [e3]
          refine Sim.same fun t => Sim.same fun c => Sim.ite (fun _ => Sim.ite (fun _ => Sim.ok ⟨rfl, rfl⟩) fun _ => Sim.ok rfl)
            fun _ => ih3 _ _ _ _ ?_
          rw [olist_isNil_snoc]; simp
        · exact Sim.ok hs
    · intro t h
      rw [parseObjectH_succ, parseObject_succ]
      obtain ⟨a, h1, e1⟩ := allOk_new hM .value h
      rw [e1]
      refine Sim.same fun c => Sim.ite (fun _ => Sim.left fun _ => Sim.ok ⟨rfl, rfl⟩) fun _ => ?_
      have hid : objectLoop N n t .nil [] = (objectLoop N n t .nil [] >>= fun x => .ok x) := by
        cases objectLoop N n t .nil [] <;> rfl
      rw [hid]
      refine Sim.bind (ih5 _ _ _ _ _ rfl) fun x y hs => ?_
      obtain ⟨x, h2⟩ := x
      cases x <;> cases y <;> simp only [SameL] at hs
      · exact Sim.ok hs
      · exact Sim.left fun _ => Sim.ok hs
    · intro t acc m order h hnil
      rw [objectLoopH_succ, objectLoop_succ]
      refine Sim.same fun t => Sim.same fun c => Sim.ite (fun _ => ?_) fun _ => ?_
      · rw [← hnil]
        exact Sim.ite (fun _ => Sim.ok ⟨rfl, rfl⟩) fun _ => Sim.ok rfl
      · refine Sim.same fun r => ?_
        cases r with
        | err st p => exact Sim.ok ⟨rfl, rfl⟩
        | ok t' name =>
          obtain ⟨h3, e3⟩ := allOk_request hM .text h
          simp only [e3]
          refine Sim.same fun t => Sim.same fun c => Sim.ite (fun _ => Sim.ok ⟨rfl, rfl⟩) fun _ => Sim.same fun t => ?_
          refine Sim.bind (ih1 _ _) fun x y hs => ?_
          obtain ⟨x, h4⟩ := x
          cases x <;> cases y <;> simp only [SameH, Same] at hs
          · subst hs
            obtain ⟨h5, e5⟩ := allOk_request hM .slot h4
            simp only [e5]
            intro x y ex ey
            unfold insertAccounted at ey
            split at ey
            · cases ey
            · rename_i m' _
              revert ex ey
              revert x y
              refine Sim.same fun t => Sim.same fun c =>
                Sim.ite (fun _ => Sim.ite (fun _ => Sim.ok ⟨rfl, rfl⟩) fun _ => Sim.ok rfl) fun _ => ih5 _ _ _ _ _ ?_
              rw [omem_isNil_snoc]; simp
          · exact Sim.ok hs

/-! ## `StructuredData::Parse` -/

/-- The objects of a document. -/
def rootReach : Option (OVal D) → List Nat
  | none => []
  | some v => v.reach

theorem delete_root {h0 h : Heap} {X : List Nat} (root : Option (OVal D)) (g : Grew h0 h (rootReach root ++ X)) :
    ∃ h1, deleteRoot root h = .ok h1 ∧ Grew h0 h1 X ∧ h1.refused = h.refused := by
  cases root with
  | none => exact ⟨h, rfl, g, rfl⟩
  | some v => exact Grew.freeAll v.reach g

theorem parseBufferH_total (M : Mem) (N : NumOps D) (hN : NegLaw N) (root : Option (OVal D)) (buf : Bytes)
    (h3 : 3 ≤ buf.length) (hlast : buf.getLast? = some 0) {h0 h : Heap} {X : List Nat}
    (g : Grew h0 h (rootReach root ++ X)) :
    (∃ j v h', DialText (cstr buf) j ∧ parseBufferH M N root buf h = .ok (.kOk, some v, h') ∧ Rep N v j ∧
      Grew h0 h' (v.reach ++ (v.lost ++ X)) ∧ h.refused ≤ h'.refused ∧ (h'.refused = h.refused → v.lost = [])) ∨
    (∃ v h', parseBufferH M N root buf h = .ok (.kExpectedEndOfFile, some v, h') ∧
      Grew h0 h' (v.reach ++ (v.lost ++ X)) ∧ h.refused ≤ h'.refused ∧ (h'.refused = h.refused → v.lost = [])) ∨
    (∃ st h' L, parseBufferH M N root buf h = .ok (st, none, h') ∧ st ≠ .kOk ∧ Grew h0 h' (L ++ X) ∧
      h.refused ≤ h'.refused ∧ (SlotOk M → h'.refused = h.refused → L = [])) := by
  have ht := (last_zero hlast).1
  unfold parseBufferH
  rw [if_neg (by omega), (last_zero hlast).2]
  simp only [Out.ok_bind, ne_eq, not_true_eq_false, if_false]
  obtain ⟨h1, e1, g1, hr1⟩ := delete_root root g
  rw [e1]
  obtain ⟨w1, a, s, hw1, et, ha, hs1⟩ := skipWs_total ht
  simp only [Out.ok_bind, hs1]
  have hadv1 : Adv buf (a :: s) := ⟨w1, et, hw1.nul_free⟩
  have hts := hadv1.term ht
  have hlen := hadv1.length_le
  rcases (allH_total M N hN (parseFuel buf)).1 (a :: s) h1 hts (by unfold parseFuel; omega) h0 X g1 with
    ⟨tok, j, w2, rest, v, h2, hv, hw2, e2, hr, hp, hrep, g2, hle2, hlost2⟩ |
    ⟨st, p, h2, L, hp, hst, hadv, g2, hle2, hL⟩
  · rw [hp]
    obtain ⟨w3, c, u, hw3, e3, hc, hs3⟩ := skipWs_total hr
    simp only [Out.ok_bind, hs3, rd_cons_zero, true_and]
    by_cases hc0 : c = 0
    · subst hc0
      left
      refine ⟨j, v, h2, ?_, by simp, hrep, g2, by omega, fun he => hlost2 (by omega)⟩
      have hcs : cstr buf = w1 ++ (tok ++ (w2 ++ w3)) := by
        have eall : a :: s = (tok ++ (w2 ++ w3)) ++ 0 :: u := by rw [e2, e3]; simp
        rw [et, eall, ← List.append_assoc]
        apply cstr_append
        have h1 := val_nul_free hv
        have h2 := hw1.nul_free
        have h3 := hw2.nul_free
        have h4 := hw3.nul_free
        simp [h1, h2, h3, h4]
      rw [hcs]
      exact ⟨w1, tok, w2 ++ w3, hw1, hv, hw2.append hw3, rfl⟩
    · right; left
      rw [if_pos hc0]
      exact ⟨v, h2, rfl, g2, by omega, fun he => hlost2 (by omega)⟩
  · rw [hp]
    right; right
    obtain ⟨w3, c, u, hw3, e3, hc, hs3⟩ := skipWs_total (hadv.term hts)
    simp only [Out.ok_bind, hs3, rd_cons_zero]
    rw [if_neg (fun hx => hst.1 hx.1)]
    exact ⟨st, h2, L, rfl, hst.1, g2, by omega, fun hs he => hL hs (by omega)⟩

/-! ## `StructuredData::SerializeFrom` -/

theorem offer_grew (m : OMem D) (name : Bytes) (v : OVal D) {h0 h : Heap} {L L0 X : List Nat}
    (g : Grew h0 h (v.reach ++ (L ++ (m.reach ++ (L0 ++ X))))) :
    ∃ m' h' L', m.offer name v h = (m', h') ∧ Grew h0 h' (m'.reach ++ (L' ++ X)) ∧ h.refused ≤ h'.refused ∧
      (h'.refused = h.refused → L = [] → L0 = [] → L' = []) := by
  unfold OMem.offer
  obtain ⟨b, hb⟩ : ∃ b, b = decide (name ∉ m.names) := ⟨_, rfl⟩
  rw [← hb]
  refine ⟨_, _, (if b then [] else v.reach) ++ (L ++ L0), rfl, (g.refuse b).perm ?_, ?_, ?_⟩
  · rw [omem_reach_snoc]
    cases b <;> simp only [if_true, Bool.false_eq_true, if_false] <;> grind
  · cases b <;> simp
  · intro he hL hL0
    cases b with
    | true => simp [hL, hL0]
    | false => simp at he

mutual

theorem serialH_grew (M : Mem) (d : Dat) (a : Nat) (h h0 : Heap) (X : List Nat) (g : Grew h0 h (a :: X)) :
    ∃ st v h' L, serialH (D := D) M d a h = .ok (st, v, h') ∧ Grew h0 h' (v.reach ++ (L ++ X)) ∧
      h.refused ≤ h'.refused ∧ (SlotOk M → h'.refused = h.refused → L = []) := by
  cases d with
  | plain => exact ⟨_, _, h, [], rfl, by simpa [OVal.reach] using g, Nat.le_refl _, fun _ _ => rfl⟩
  | text =>
    obtain ⟨gq, hrq⟩ := request_grew g M .text
    unfold serialH
    cases hm : request M .text h with
    | mk b h2 =>
    rw [hm] at gq hrq
    simp only at gq hrq
    cases b <;>
      exact ⟨_, _, h2, [], rfl, by simpa [OVal.reach] using gq, by omega, fun _ _ => rfl⟩
  | refused =>
    exact ⟨_, _, h, [], rfl, by simpa [OVal.reach, OMem.reach] using g, Nat.le_refl _, fun _ _ => rfl⟩
  | array l =>
    obtain ⟨gq, hrq⟩ := request_grew g M .slot
    unfold serialH
    cases hm : request M .slot h with
    | mk b h2 =>
    rw [hm] at gq hrq
    simp only at gq hrq
    cases b with
    | false =>
      exact ⟨_, _, h2, [], rfl, by simpa [OVal.reach, OList.reach] using gq, by omega, fun _ _ => rfl⟩
    | true =>
      obtain ⟨st, acc, h3, L, e, g3, hle, hL⟩ := serElemsH_grew M l .nil h2 h0 (a :: X) [] (by
        simpa [OList.reach] using gq)
      refine ⟨st, .arr a acc, h3, L, ?_, g3.perm ?_, by omega, fun hs he => hL hs (by omega) rfl⟩
      · simp only [e, Out.ok_bind]
      · simp only [OVal.reach]; grind
  | map m =>
    unfold serialH
    obtain ⟨st, acc, h3, L, e, g3, hle, hL⟩ := serMapH_grew M m .nil h h0 (a :: X) [] (by
      simpa [OMem.reach] using g)
    refine ⟨st, .obj a acc, h3, L, ?_, g3.perm ?_, by omega, fun hs he => hL hs (by omega) rfl⟩
    · simp only [e, Out.ok_bind]
    · simp only [OVal.reach]; grind
  | fields m =>
    unfold serialH
    obtain ⟨st, acc, h3, L, e, g3, hle, hL⟩ := serFieldsH_grew M m .nil h h0 (a :: X) [] (by
      simpa [OMem.reach] using g)
    refine ⟨st, .obj a acc, h3, L, ?_, g3.perm ?_, by omega, fun hs he => hL hs (by omega) rfl⟩
    · simp only [e, Out.ok_bind]
    · simp only [OVal.reach]; grind

theorem serElemsH_grew (M : Mem) (l : DatL) (acc : OList D) (h h0 : Heap) (X L0 : List Nat)
    (g : Grew h0 h (acc.reach ++ (L0 ++ X))) :
    ∃ st acc' h' L, serElemsH M l acc h = .ok (st, acc', h') ∧ Grew h0 h' (acc'.reach ++ (L ++ X)) ∧
      h.refused ≤ h'.refused ∧ (SlotOk M → h'.refused = h.refused → L0 = [] → L = []) := by
  cases l with
  | nil => exact ⟨_, acc, h, L0, rfl, g, Nat.le_refl _, fun _ _ e => e⟩
  | cons d l =>
    unfold serElemsH
    rcases newValue_grew g M .value with ⟨h1, e1, g1, hr1, -⟩ | ⟨b, h1, e1, g1, hr1⟩
    · rw [e1]
      exact ⟨_, acc, h1, L0, rfl, g1, by omega, fun _ _ e => e⟩
    · rw [e1]
      obtain ⟨st, v, h2, L, e2, g2, hle2, hL2⟩ := serialH_grew M d b h1 h0 _ g1
      simp only [e2, Out.ok_bind]
      by_cases hst : st = .kOk
      · rw [if_neg (by simpa using hst)]
        obtain ⟨st', acc', h3, L', e3, g3, hle3, hL3⟩ := serElemsH_grew M l (acc.snoc v) h2 h0 X (L ++ L0) (by
          refine g2.perm ?_
          rw [olist_reach_snoc]; grind)
        refine ⟨st', acc', h3, L', e3, g3, by omega, fun hs he h0 => hL3 hs (by omega) ?_⟩
        rw [hL2 hs (by omega), h0]; rfl
      · rw [if_pos hst]
        obtain ⟨h3, e3, g3, hr3⟩ := Grew.freeAll v.reach g2
        refine ⟨st, acc, h3, L ++ L0, by rw [delete, e3]; rfl, g3.perm (by grind), by omega, fun hs he h0 => ?_⟩
        rw [hL2 hs (by omega), h0]; rfl

theorem serMapH_grew (M : Mem) (l : DatM) (acc : OMem D) (h h0 : Heap) (X L0 : List Nat)
    (g : Grew h0 h (acc.reach ++ (L0 ++ X))) :
    ∃ st acc' h' L, serMapH M l acc h = .ok (st, acc', h') ∧ Grew h0 h' (acc'.reach ++ (L ++ X)) ∧
      h.refused ≤ h'.refused ∧ (SlotOk M → h'.refused = h.refused → L0 = [] → L = []) := by
  cases l with
  | nil => exact ⟨_, acc, h, L0, rfl, g, Nat.le_refl _, fun _ _ e => e⟩
  | cons name d l =>
    unfold serMapH
    rcases newValue_grew g M .value with ⟨h1, e1, g1, hr1, -⟩ | ⟨b, h1, e1, g1, hr1⟩
    · rw [e1]
      exact ⟨_, acc, h1, L0, rfl, g1, by omega, fun _ _ e => e⟩
    · rw [e1]
      simp only
      obtain ⟨gq, hrq⟩ := request_grew g1 M .slot
      cases hm : request M .slot h1 with
      | mk ok hq =>
      rw [hm] at gq hrq
      simp only at gq hrq
      cases ok with
      | false =>
        refine ⟨_, acc, hq, b :: L0, rfl, gq.perm (by grind), by omega, fun hs => ?_⟩
        have := congrArg Prod.fst hm
        simp [request, hs _] at this
      | true =>
        obtain ⟨st, v, h2, L, e2, g2, hle2, hL2⟩ := serialH_grew M d b hq h0 _ gq
        simp only [e2, Out.ok_bind]
        by_cases hst : st = .kOk
        · rw [if_neg (by simpa using hst)]
          obtain ⟨m', h3, L', e3, g3, hle3, hL3⟩ := offer_grew acc name v g2
          rw [e3]
          obtain ⟨st', acc', h4, L4, e4, g4, hle4, hL4⟩ := serMapH_grew M l m' h3 h0 X L' g3
          refine ⟨st', acc', h4, L4, e4, g4, by omega, fun hs he h0 => hL4 hs (by omega) (hL3 (by omega) ?_ h0)⟩
          exact hL2 hs (by omega)
        · rw [if_pos hst]
          obtain ⟨h3, e3, g3, hr3⟩ := Grew.freeAll v.reach g2
          refine ⟨st, acc, h3, L ++ L0, by rw [delete, e3]; rfl, g3.perm (by grind), by omega, fun hs he h0 => ?_⟩
          rw [hL2 hs (by omega), h0]; rfl

theorem serFieldsH_grew (M : Mem) (l : DatM) (acc : OMem D) (h h0 : Heap) (X L0 : List Nat)
    (g : Grew h0 h (acc.reach ++ (L0 ++ X))) :
    ∃ st acc' h' L, serFieldsH M l acc h = .ok (st, acc', h') ∧ Grew h0 h' (acc'.reach ++ (L ++ X)) ∧
      h.refused ≤ h'.refused ∧ (SlotOk M → h'.refused = h.refused → L0 = [] → L = []) := by
  cases l with
  | nil => exact ⟨_, acc, h, L0, rfl, g, Nat.le_refl _, fun _ _ e => e⟩
  | cons name d l =>
    unfold serFieldsH
    rcases newValue_grew g M .value with ⟨h1, e1, g1, hr1, -⟩ | ⟨b, h1, e1, g1, hr1⟩
    · rw [e1]
      exact ⟨_, acc, h1, L0, rfl, g1, by omega, fun _ _ e => e⟩
    · rw [e1]
      simp only
      obtain ⟨gq, hrq⟩ := request_grew g1 M .text
      cases hm : request M .text h1 with
      | mk ok hq =>
      rw [hm] at gq hrq
      simp only at gq hrq
      cases ok with
      | false =>
        obtain ⟨h3, e3, g3, hr3⟩ := Grew.freeAll [b] gq
        have : Own.freeAll [b] hq = free b hq := by
          rw [Own.freeAll]
          cases free b hq <;> rfl
        rw [this] at e3
        refine ⟨.kException, acc, h3, L0, by simp only [e3, Out.ok_bind], g3, by omega, fun _ _ e => e⟩
      | true =>
        obtain ⟨st, v, h2, L, e2, g2, hle2, hL2⟩ := serialH_grew M d b hq h0 _ gq
        simp only [e2, Out.ok_bind]
        obtain ⟨gr, hrr⟩ := request_grew g2 M .text
        cases hm2 : request M .text h2 with
        | mk ok hq2 =>
        rw [hm2] at gr hrr
        simp only at gr hrr
        cases ok with
        | true =>
          simp only
          obtain ⟨m', h3, L', e3, g3, hle3, hL3⟩ := offer_grew acc name v gr
          rw [e3]
          obtain ⟨st', acc', h4, L4, e4, g4, hle4, hL4⟩ := serFieldsH_grew M l m' h3 h0 X L' g3
          refine ⟨st', acc', h4, L4, e4, g4, by omega, fun hs he h0 => hL4 hs (by omega) (hL3 (by omega) ?_ h0)⟩
          exact hL2 hs (by omega)
        | false =>
          obtain ⟨h3, e3, g3, hr3⟩ := Grew.freeAll v.reach gr
          refine ⟨_, acc, h3, L ++ L0, by simp only; rw [delete, e3]; rfl, g3.perm (by grind), by omega, fun hs he h0 => ?_⟩
          rw [hL2 hs (by omega), h0]; rfl

end

/-- `SerializeFrom`: a new document is owned, or nothing was created and the old document is gone. -/
theorem serializeFromH_total (M : Mem) (root : Option (OVal D)) (d : Dat) {h0 h : Heap} {X : List Nat}
    (g : Grew h0 h (rootReach root ++ X)) :
    (∃ h', serializeFromH M root d h = .ok (.kException, root, h') ∧ Grew h0 h' X ∧ h'.refused = h.refused ∧
      ∃ k, M .root k = false) ∨
    (∃ st v h' L, serializeFromH M root d h = .ok (st, some v, h') ∧ Grew h0 h' (v.reach ++ (L ++ X)) ∧
      h.refused ≤ h'.refused ∧ (SlotOk M → h'.refused = h.refused → L = [])) := by
  unfold serializeFromH
  obtain ⟨h1, e1, g1, hr1⟩ := delete_root root g
  simp only [e1, Out.ok_bind]
  rcases newValue_grew g1 M .root with ⟨h2, e2, g2, hr2, hM⟩ | ⟨a, h2, e2, g2, hr2⟩
  · left
    rw [e2]
    exact ⟨h2, rfl, g2, hr2.trans hr1, _, hM⟩
  · right
    rw [e2]
    obtain ⟨st, v, h3, L, e3, g3, hle, hL⟩ := serialH_grew (D := D) M d a h2 h0 X g2
    exact ⟨st, v, h3, L, by simp only [e3, Out.ok_bind], g3, by omega, fun hs he => hL hs (by omega)⟩

end Verif.Own
