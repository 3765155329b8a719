import Verif.Lemmas.HeapSize
import Verif.Lemmas.HeapStatus
import Verif.Props.Parser

/-!
# Ownership of value objects: C51, C52, C60

`M : Mem` says which requests for memory succeed; it is universally quantified throughout. An outcome `.ok` means
in particular that no object was destroyed twice and none used after its destruction.
-/

namespace Verif.Props

open Verif Verif.Text Verif.Number Verif.Spec Verif.Parser Verif.Doc Verif.Own

variable {D : Type}

/-- All requests succeed. -/
def plenty : Mem := fun _ _ => true

/-- All requests succeed except the one of a kind with a number. -/
def failing (q : Req) (k : Nat) : Mem := fun q' k' => !(decide (q' = q) && decide (k' = k))

/-- The objects alive are exactly those of the document. -/
def Owned (root : Option (OVal D)) (h : Heap) : Prop := ∀ a, a ∈ h.live ↔ a ∈ rootReach root

/-- What an outcome shows: the status, the objects of the document, those alive, and the number of refused names. -/
def view : Out (Status × Option (OVal D) × Heap) → Option (Status × List Nat × List Nat × Nat)
  | .ok (st, root, h) => some (st, rootReach root, h.live, h.refused)
  | _ => none

theorem view_some {o : Out (Status × Option (OVal D) × Heap)} {st : Status} {r l : List Nat} {n : Nat}
    (h : view o = some (st, r, l, n)) :
    ∃ root h, o = .ok (st, root, h) ∧ rootReach root = r ∧ h.live = l ∧ h.refused = n := by
  match o with
  | .ok (st, root, h') =>
    simp only [view, Option.some.injEq, Prod.mk.injEq] at h
    obtain ⟨rfl, rfl, rfl, rfl⟩ := h
    exact ⟨root, h', rfl, rfl, rfl, rfl⟩
  | .ub | .fuel => cases h

/-! ## C51: parsing leaks no values -/

/-- Every object made by a `Parse` on a new `StructuredData` is part of the document or destroyed when it
returns. -/
def C51_statement : Prop :=
  ∀ (D : Type) (N : NumOps D), NegLaw N → ∀ (M : Mem) (buf : Bytes), ∃ st root h, parseBufferH M N none buf Heap.start = .ok (st, root, h) ∧ Owned root h

/-- The text `{"a":[],"a":[]}`. -/
def twiceText : Bytes := [123, 34, 97, 34, 58, 91, 93, 44, 34, 97, 34, 58, 91, 93, 125, 0]

/-- The text `[[]]`. -/
def nestText : Bytes := [91, 91, 93, 93, 0]

/-- The code violates C51 without any failure: the second value of a repeated name is leaked. -/
theorem C51_violated : ¬ C51_statement := by
  intro h
  obtain ⟨st, root, h', e, ho⟩ := h Dec decOps decOps_neg plenty twiceText
  have e' : view (parseBufferH plenty decOps none twiceText Heap.start) = some (.kOk, [5, 10], [15, 10, 5], 1) := by
    decide +kernel
  rw [e] at e'
  simp only [view, Option.some.injEq, Prod.mk.injEq] at e'
  have := ho 15
  rw [e'.2.1, e'.2.2.1] at this
  simp at this

/-- And without repeated names if no place for an element can be had: the element is leaked. -/
theorem C51_violated_memory :
    ∃ h, parseBufferH (failing .slot 10) decOps none nestText Heap.start = .ok (.kException, none, h) ∧ h.live = [9] := by
  have e : view (parseBufferH (failing .slot 10) decOps none nestText Heap.start) = some (.kException, [], [9], 0) := by
    decide +kernel
  obtain ⟨root, h, e, hr, hl, -⟩ := view_some e
  cases root with
  | none => exact ⟨h, e, hl⟩
  | some v => exact absurd hr (oval_reach_ne v)

theorem start_grew : Grew Heap.start Heap.start (rootReach (none : Option (OVal D)) ++ []) :=
  Grew.refl (by intro a ha; cases ha)

theorem grew_start_live {h : Heap} {r : List Nat} (g : Grew Heap.start h r) (a : Nat) : a ∈ h.live ↔ a ∈ r := by
  rw [g.live a]
  simp [Heap.start]

/-- `Parse` on any buffer, with any failures: no object is destroyed twice; if places for elements and members can be
had and no name is refused by a map then nothing leaks, whether the text is accepted or not. -/
theorem C51_partial (M : Mem) (N : NumOps D) (hN : NegLaw N) (buf : Bytes) :
    ∃ st root h, parseBufferH M N none buf Heap.start = .ok (st, root, h) ∧
      (∀ a ∈ rootReach root, a ∈ h.live) ∧ (rootReach root).Nodup ∧
      ((∀ k, M .slot k = true) → h.refused = 0 → Owned root h) := by
  by_cases h3 : buf.length < 3
  · refine ⟨.kTextBufferContentsInvalid, none, Heap.start, ?_, ?_, ?_, ?_⟩
    · unfold parseBufferH; rw [if_pos h3]
    · intro a ha; cases ha
    · exact List.nodup_nil
    · intro _ _ a; exact Iff.rfl
  have h3 : 3 ≤ buf.length := by omega
  by_cases hl : buf.getLast? = some 0
  · rcases parseBufferH_total M N hN none buf h3 hl start_grew with
      ⟨j, v, h', -, e, -, g, -, hr⟩ | ⟨v, h', e, g, -, hr⟩ | ⟨st, h', L, e, -, g, -, hr⟩
    · refine ⟨_, _, _, e, ?_, ?_, ?_⟩
      · intro a ha
        rw [grew_start_live g]; exact List.mem_append_left _ ha
      · exact (List.nodup_append.1 g.nodup).1
      · intro _ h0 a
        rw [grew_start_live g, hr h0]; simp [rootReach]
    · refine ⟨_, _, _, e, ?_, ?_, ?_⟩
      · intro a ha
        rw [grew_start_live g]; exact List.mem_append_left _ ha
      · exact (List.nodup_append.1 g.nodup).1
      · intro _ h0 a
        rw [grew_start_live g, hr h0]; simp [rootReach]
    · refine ⟨_, _, _, e, ?_, ?_, ?_⟩
      · intro a ha; cases ha
      · exact List.nodup_nil
      · intro hM h0 a
        rw [grew_start_live g, hr hM h0]; simp [rootReach]
  · refine ⟨.kUnterminatedTextBuffer, none, Heap.start, ?_, ?_, ?_, ?_⟩
    · unfold parseBufferH
      obtain ⟨c, hne, hc⟩ := rd_last h3
      rw [if_neg (by omega), hc]
      simp only [Out.ok_bind]
      rw [if_pos (by rintro rfl; exact hl hne)]
    · intro a ha; cases ha
    · exact List.nodup_nil
    · intro _ _ a; exact Iff.rfl

/-- `Parse` accepted the buffer and the document is `v`. -/
def ParsedTo (M : Mem) (N : NumOps D) (buf : Bytes) (v : OVal D) (h : Heap) : Prop :=
  parseBufferH M N none buf Heap.start = .ok (.kOk, some v, h)

theorem parsed_cases {M : Mem} {N : NumOps D} (hN : NegLaw N) {buf : Bytes} {v : OVal D} {h : Heap}
    (hp : ParsedTo M N buf v h) :
    ∃ j, DialText (cstr buf) j ∧ Rep N v j ∧ Grew Heap.start h (v.reach ++ (v.lost ++ [])) := by
  unfold ParsedTo at hp
  by_cases h3 : buf.length < 3
  · unfold parseBufferH at hp; rw [if_pos h3] at hp; simp at hp
  have h3 : 3 ≤ buf.length := by omega
  by_cases hl : buf.getLast? = some 0
  · rcases parseBufferH_total M N hN none buf h3 hl start_grew with
      ⟨j, v', h', hj, e, hrep, g, -, hr⟩ | ⟨v', h', e, g, -, hr⟩ | ⟨st, h', L, e, -, g, -, hr⟩ <;> rw [e] at hp <;>
      simp only [Out.ok.injEq, Prod.mk.injEq, Option.some.injEq, reduceCtorEq, false_and, and_false] at hp
    obtain ⟨-, rfl, rfl⟩ := hp
    exact ⟨j, hj, hrep, g⟩
  · unfold parseBufferH at hp
    obtain ⟨c, hne, hc⟩ := rd_last h3
    rw [if_neg (by omega), hc] at hp
    simp only [Out.ok_bind] at hp
    rw [if_pos (by rintro rfl; exact hl hne)] at hp
    simp at hp

/-- For accepted texts exactly: there are as many objects as the text has values, and nothing leaks if and only if no
object of the text repeats a name. This holds for every success, however many requests failed. -/
theorem C51_accepted_partial (M : Mem) (N : NumOps D) (hN : NegLaw N) (buf : Bytes) (v : OVal D) (h : Heap)
    (hp : ParsedTo M N buf v h) :
    ∃ j, DialText (cstr buf) j ∧ (∃ all : List Nat, all.Nodup ∧ all.length = j.size ∧ ∀ a, a ∈ h.live ↔ a ∈ all) ∧
      (Owned (some v) h ↔ j.Distinct) := by
  obtain ⟨j, hj, hrep, g⟩ := parsed_cases hN hp
  simp only [List.append_nil] at g
  refine ⟨j, hj, ⟨_, g.nodup, ?_, grew_start_live g⟩, ?_⟩
  · rw [List.length_append]; exact rep_size N v j hrep
  · rw [← rep_lost N v j hrep]
    constructor
    · intro ho
      cases hlost : v.lost with
      | nil => rfl
      | cons a l =>
        have h1 := (ho a).1 ((grew_start_live g a).2 (by simp [hlost]))
        have h2 := (List.nodup_append.1 g.nodup).2.2 a h1 a (by simp [hlost])
        exact absurd rfl h2
    · intro hlost a
      rw [grew_start_live g, hlost]; simp [rootReach]

/-- `{"a":[],"a":[]}` has three values, all alive after parsing, but the document owns two. -/
example : view (parseBufferH plenty decOps none twiceText Heap.start) = some (.kOk, [5, 10], [15, 10, 5], 1) := by
  decide +kernel

/-- Two values, nothing lost. -/
example : view (parseBufferH plenty decOps none nestText Heap.start) = some (.kOk, [4, 9], [9, 4], 0) := by
  decide +kernel

/-- A malformed text, `[[]`: everything is destroyed. -/
example : view (parseBufferH plenty decOps none [91, 91, 93, 0] Heap.start) =
    some (.kExpectedClosingSquareBracketsOrComma, [], [], 0) := by decide +kernel

/-- The second value of `[[],[]]` cannot be made: everything is destroyed. -/
example : view (parseBufferH (failing .value 11) decOps none [91, 91, 93, 44, 91, 93, 93, 0] Heap.start) =
    some (.kException, [], [], 0) := by decide +kernel

/-! ## C52: a `StructuredData` always owns a usable document -/

/-- A new `StructuredData`. -/
def freshSd : Sd D := ⟨none, Heap.start⟩

/-- Every history of calls is free of undefined behaviour, whatever requests fail; afterwards the document is alive
and can be destroyed. -/
def C52_statement : Prop :=
  ∀ (D : Type) (N : NumOps D), NegLaw N → ∀ (M : Mem) (calls : List SdCall), ∃ s h, freshSd.run M N calls = .ok s ∧ (∀ a ∈ rootReach s.root, a ∈ s.heap.live) ∧
    s.destroy = .ok h

/-- The code violates C52: if the second `SerializeFrom` cannot make its root object, the pointer to the destroyed
document stays, and the destructor destroys it again. -/
theorem C52_violated : ¬ C52_statement := by
  intro h
  obtain ⟨s, h', e, -, hd⟩ := h Dec decOps decOps_neg (failing .root 1) [.serialize .plain, .serialize .plain]
  have e' : (freshSd : Sd Dec).run (failing .root 1) decOps [.serialize .plain, .serialize .plain] =
      .ok ⟨some (.leaf 0 .null), ⟨[], 1, 2, 0⟩⟩ := rfl
  rw [e'] at e
  simp only [Out.ok.injEq] at e
  subst e
  have hd' : (⟨some (.leaf 0 .null), ⟨[], 1, 2, 0⟩⟩ : Sd Dec).destroy = .ub := rfl
  rw [hd'] at hd
  cases hd

/-- What holds between calls: everything alive is the document or was leaked (`L`). -/
def Sound (s : Sd D) (L : List Nat) : Prop := Grew Heap.start s.heap (rootReach s.root ++ L)

/-- The root object of no `SerializeFrom` fails to be made while there is a document. -/
def RootOk (M : Mem) : Prop := ∀ k, M .root k = true

theorem sound_alive {s : Sd D} {L : List Nat} (h : Sound s L) : ∀ a ∈ rootReach s.root, a ∈ s.heap.live := by
  intro a ha
  rw [grew_start_live h]
  exact List.mem_append_left _ ha

theorem sound_call (M : Mem) (hM : RootOk M) (N : NumOps D) (hN : NegLaw N) (s : Sd D) (L : List Nat) (h : Sound s L)
    (c : SdCall) :
    ∃ s' L', s.call M N c = .ok s' ∧ Sound s' L' ∧ s.heap.refused ≤ s'.heap.refused ∧
      (SlotOk M → s'.heap.refused = s.heap.refused → L = [] → L' = []) := by
  cases c with
  | parse buf =>
    simp only [Sd.call]
    by_cases h3 : buf.length < 3
    · refine ⟨s, L, ?_, h, Nat.le_refl _, fun _ _ h => h⟩
      unfold parseBufferH; rw [if_pos h3]; rfl
    have h3 : 3 ≤ buf.length := by omega
    by_cases hl : buf.getLast? = some 0
    · rcases parseBufferH_total M N hN s.root buf h3 hl h with
        ⟨j, v', h', hj, e, hrep, g, hle, hr⟩ | ⟨v', h', e, g, hle, hr⟩ | ⟨st, h', L', e, -, g, hle, hr⟩ <;> rw [e]
      · exact ⟨⟨some v', h'⟩, v'.lost ++ L, rfl, g, hle, fun _ h0 hL => by rw [hr h0, hL]; rfl⟩
      · exact ⟨⟨some v', h'⟩, v'.lost ++ L, rfl, g, hle, fun _ h0 hL => by rw [hr h0, hL]; rfl⟩
      · exact ⟨⟨none, h'⟩, L' ++ L, rfl, g, hle, fun hs h0 hL => by rw [hr hs h0, hL]; rfl⟩
    · refine ⟨s, L, ?_, h, Nat.le_refl _, fun _ _ h => h⟩
      unfold parseBufferH
      obtain ⟨c, hne, hc⟩ := rd_last h3
      rw [if_neg (by omega), hc]
      simp only [Out.ok_bind]
      rw [if_pos (by rintro rfl; exact hl hne)]
      rfl
  | serialize d =>
    simp only [Sd.call]
    rcases serializeFromH_total M s.root d h with ⟨h', e, -, -, k, hk⟩ | ⟨st, v, h', L', e, g, hle, hr⟩
    · rw [hM k] at hk; cases hk
    · rw [e]
      exact ⟨⟨some v, h'⟩, L' ++ L, rfl, g, hle, fun hs h0 hL => by rw [hr hs h0, hL]; rfl⟩
  | use =>
    refine ⟨s, L, ?_, h, Nat.le_refl _, fun _ _ h => h⟩
    simp only [Sd.call]
    have ha := sound_alive h
    split
    · rfl
    · rename_i v hv
      rw [hv] at ha
      exact if_pos ha

theorem sound_run (M : Mem) (hM : RootOk M) (N : NumOps D) (hN : NegLaw N) (calls : List SdCall) (s : Sd D)
    (L : List Nat) (h : Sound s L) :
    ∃ s' L', s.run M N calls = .ok s' ∧ Sound s' L' ∧ s.heap.refused ≤ s'.heap.refused ∧
      (SlotOk M → s'.heap.refused = s.heap.refused → L = [] → L' = []) := by
  induction calls generalizing s L with
  | nil => exact ⟨s, L, rfl, h, Nat.le_refl _, fun _ _ h => h⟩
  | cons c cs ih =>
    obtain ⟨s1, L1, e1, h1, hle1, hL1⟩ := sound_call M hM N hN s L h c
    obtain ⟨s2, L2, e2, h2, hle2, hL2⟩ := ih s1 L1 h1
    refine ⟨s2, L2, ?_, h2, Nat.le_trans hle1 hle2, fun hs h0 hL => hL2 hs (by omega) (hL1 hs (by omega) hL)⟩
    simp only [Sd.run, e1, Out.ok_bind, e2]

/-- If the root objects of `SerializeFrom` can be made, whatever else fails: every history of `Parse`, `SerializeFrom` and
reading calls is free of undefined behaviour, the document is alive after it, and the destructor destroys each of its
objects once. If moreover places can be had and no name is refused, nothing is left after the destructor. -/
theorem C52_partial (M : Mem) (hM : ∀ k, M .root k = true) (N : NumOps D) (hN : NegLaw N) (calls : List SdCall) :
    ∃ s h, freshSd.run M N calls = .ok s ∧ (∀ a ∈ rootReach s.root, a ∈ s.heap.live) ∧ s.destroy = .ok h ∧
      (∀ a ∈ h.live, a ∉ rootReach s.root) ∧
      ((∀ k, M .slot k = true) → h.refused = 0 → ∀ a, a ∉ h.live) := by
  obtain ⟨s, L, e, hs, -, hL⟩ := sound_run M hM N hN calls (freshSd : Sd D) [] start_grew
  obtain ⟨h, e2, g, hr⟩ := delete_root s.root hs
  refine ⟨s, h, e, sound_alive hs, e2, ?_, ?_⟩
  · intro a ha hr
    have h1 := (grew_start_live g a).1 ha
    exact (List.nodup_append.1 hs.nodup).2.2 a hr a h1 rfl
  · intro hM h0 a ha
    rw [grew_start_live g, hL hM (by rw [← hr, h0]; rfl) rfl] at ha
    cases ha

/-- Every history that runs before the first failing root request is harmless; with a failing one while there is a
document, every later call that touches the document, and the destructor, is undefined. -/
theorem C52_dangling_partial (M : Mem) (N : NumOps D) (s : Sd D) (L : List Nat) (hs : Sound s L)
    (v : OVal D) (hv : s.root = some v) (d : Dat) (hfail : M .root s.heap.tick = false) :
    ∃ s', s.call M N (.serialize d) = .ok s' ∧ s'.root = some v ∧ s'.destroy = .ub ∧ s'.call M N .use = .ub ∧
      (∀ d', s'.call M N (.serialize d') = .ub) ∧
      ∀ buf, 3 ≤ buf.length → buf.getLast? = some 0 → s'.call M N (.parse buf) = .ub := by
  have hs' : Grew Heap.start s.heap (v.reach ++ L) := by
    have := hs
    unfold Sound at this
    rw [hv] at this
    exact this
  obtain ⟨h1, e1, g1, -⟩ := Grew.freeAll v.reach hs'
  have htick : ∀ (l : List Nat) (h h' : Heap), freeAll l h = .ok h' → h'.tick = h.tick := by
    intro l
    induction l with
    | nil => intro h h' e; injection e with e; rw [e]
    | cons a l ih =>
      intro h h' e
      simp only [freeAll, free] at e
      split at e
      · have := ih _ _ e
        exact this
      · cases e
  have ht := htick _ _ _ e1
  have hne : ∃ a l, v.reach = a :: l ∧ a ∉ h1.live := by
    cases hr : v.reach with
    | nil => exact absurd hr (oval_reach_ne v)
    | cons a l =>
      refine ⟨a, l, rfl, fun ha => ?_⟩
      have h1 := (grew_start_live g1 a).1 ha
      rw [hr] at hs'
      exact (List.nodup_append.1 hs'.nodup).2.2 a (by simp) a h1 rfl
  obtain ⟨a, l, hr, ha⟩ := hne
  have hdel : ∀ h2 : Heap, h2.live = h1.live → deleteRoot (some v) h2 = .ub := by
    intro h2 e2
    simp only [deleteRoot, delete, hr, freeAll, free]
    rw [if_neg (by rw [e2]; exact ha)]
    rfl
  refine ⟨⟨some v, { h1 with tick := h1.tick + 1 }⟩, ?_, rfl, hdel _ rfl, ?_, ?_, ?_⟩
  · simp only [Sd.call, serializeFromH, hv, deleteRoot, delete, e1, Out.ok_bind, newValue]
    rw [if_neg (by rw [ht, hfail]; decide)]
    rfl
  · simp only [Sd.call]
    rw [if_neg (fun h => ha (h a (by simp [hr])))]
  · intro d'
    simp only [Sd.call, serializeFromH]
    rw [hdel { h1 with tick := h1.tick + 1 } rfl]; rfl
  · intro buf h3 hl
    simp only [Sd.call]
    unfold parseBufferH
    rw [if_neg (by omega), (last_zero hl).2]
    simp only [Out.ok_bind, ne_eq, not_true_eq_false, if_false]
    rw [hdel { h1 with tick := h1.tick + 1 } rfl]; rfl

/-- Number of objects of the document and number of objects alive. -/
def counts : Out (Sd D) → Option (Nat × Nat)
  | .ok s => some ((rootReach s.root).length, s.heap.live.length)
  | _ => none

/-- Parsing twice and serialising: the documents are replaced and destroyed. -/
example : counts ((freshSd : Sd Dec).run plenty decOps [.parse nestText, .use, .parse [116, 114, 117, 101, 0], .use,
    .serialize (.array (.cons .plain (.cons .text .nil))), .use]) = some (3, 3) := by decide +kernel

/-- After the destructor nothing is left. -/
example : ((freshSd : Sd Dec).run plenty decOps [.parse nestText, .serialize (.array (.cons .plain .nil))] >>=
    fun s => s.destroy >>= fun h => .ok h.live) = .ok [] := by decide +kernel

/-- A failing element leaves a usable document. -/
example : counts ((freshSd : Sd Dec).run (failing .value 3) decOps
    [.serialize (.array (.cons .plain (.cons .text .nil))), .use]) = some (2, 2) := by decide +kernel

/-- A failing second root: the next use is undefined. -/
example : counts ((freshSd : Sd Dec).run (failing .root 1) decOps [.serialize .plain, .serialize .plain, .use]) = none := by
  decide +kernel

/-! ## C60: running out of memory is reported as such -/

/-- Whatever requests fail, `Parse` reports `kException` or what it reports with enough memory. -/
def C60_statement : Prop :=
  ∀ (D : Type) (N : NumOps D), NegLaw N → ∀ (M : Mem) (buf : Bytes), ∃ st root h res root', parseBufferH M N none buf Heap.start = .ok (st, root, h) ∧
    parseBuffer N none buf = .ok (res, root') ∧ (st = .kException ∨ st = res.status)

/-- The text `true`. -/
def trueText : Bytes := [116, 114, 117, 101, 0]

/-- The code violates C60: if the object for `true` cannot be made, the text is said to be malformed. -/
theorem C60_violated : ¬ C60_statement := by
  intro h
  obtain ⟨st, root, h', res, root', e, e', hc⟩ := h Dec decOps decOps_neg (failing .value 2) trueText
  have h1 : view (parseBufferH (failing .value 2) decOps none trueText Heap.start) =
      some (.kExpectedJsonValue, [], [], 0) := by decide +kernel
  have h2 : (parseBuffer decOps none trueText >>= fun r => .ok r.1.status) = .ok .kOk := by decide +kernel
  rw [e] at h1
  rw [e'] at h2
  simp only [view, Option.some.injEq, Prod.mk.injEq] at h1
  simp only [Out.ok_bind, Out.ok.injEq] at h2
  rw [h1.1, h2] at hc
  rcases hc with hc | hc <;> cases hc

theorem parseBuffer_returns (N : NumOps D) (hN : NegLaw N) (buf : Bytes) :
    ∃ res root, parseBuffer N none buf = .ok (res, root) := by
  rcases parseBuffer_cases N hN buf with h | h | ⟨-, -, j, -, h⟩ | ⟨-, -, -, res, -, h⟩
  · exact ⟨_, _, (h none).2⟩
  · exact ⟨_, _, (h none).2.2⟩
  · exact ⟨_, _, h none⟩
  · exact ⟨_, _, h none⟩

/-- Whatever requests fail, `Parse` reports `kException`, `kExpectedJsonValue` or what it reports with enough memory. In
particular a malformed text is never accepted, and a text is never accepted as something else. -/
theorem C60_partial (M : Mem) (N : NumOps D) (hN : NegLaw N) (buf : Bytes) :
    ∃ st root h res root', parseBufferH M N none buf Heap.start = .ok (st, root, h) ∧
      parseBuffer N none buf = .ok (res, root') ∧
      (st = .kException ∨ st = .kExpectedJsonValue ∨ st = res.status) ∧
      ((∀ q k, M q k = true) → st = res.status) := by
  obtain ⟨st, root, h, e, -⟩ := C51_partial M N hN buf
  obtain ⟨res, root', e'⟩ := parseBuffer_returns N hN buf
  refine ⟨st, root, h, res, root', e, e', ?_, fun hM => parseBufferH_same hM N none none buf Heap.start _ _ e e'⟩
  rcases parseBufferH_mild M N none none buf Heap.start _ _ e e' with (h | h) | h
  · exact .inl h
  · exact .inr (.inl h)
  · exact .inr (.inr h)

/-- A success with scarce memory gives the same document as with enough memory. -/
theorem C60_document_partial (M : Mem) (N : NumOps D) (hN : NegLaw N) (buf : Bytes) (v : OVal D) (h : Heap)
    (hp : ParsedTo M N buf v h) :
    ∃ w, parseBuffer N none buf = .ok (⟨.kOk, 0, 0⟩, some w) ∧ v.Stands w := by
  obtain ⟨j, hj, hrep, -⟩ := parsed_cases hN hp
  refine ⟨interp N j, ?_, rep_stands N v j hrep⟩
  have hb : 3 ≤ buf.length ∧ buf.getLast? = some 0 := by
    unfold ParsedTo at hp
    by_cases h3 : buf.length < 3
    · unfold parseBufferH at hp; rw [if_pos h3] at hp; simp at hp
    have h3 : 3 ≤ buf.length := by omega
    refine ⟨h3, ?_⟩
    apply Classical.byContradiction
    intro hl
    unfold parseBufferH at hp
    obtain ⟨c, hne, hc⟩ := rd_last h3
    rw [if_neg (by omega), hc] at hp
    simp only [Out.ok_bind] at hp
    rw [if_pos (by rintro rfl; exact hl hne)] at hp
    simp at hp
  exact (accepts_iff N hN buf _).2 ⟨hb.1, hb.2, j, hj, rfl⟩ none

/-- With half of the requests for strings failing the text `[true]` is still read. -/
example : view (parseBufferH (fun q k => !(decide (q = .text) && decide (k % 2 = 0))) decOps none
    [91, 116, 114, 117, 101, 93, 0] Heap.start) = some (.kOk, [4, 7], [7, 4], 0) := by decide +kernel

/-- `{"a":}` is malformed and is reported as such even if an unneeded request fails. -/
example : view (parseBufferH (failing .slot 0) decOps none [123, 34, 97, 34, 58, 125, 0] Heap.start) =
    some (.kExpectedJsonValue, [], [], 0) := by decide +kernel

end Verif.Props
