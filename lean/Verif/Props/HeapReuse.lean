import Verif.Lemmas.HeapReuse
import Verif.Props.Heap

/-!
# Ownership when data are serialized onto existing values: C167

Histories of `Parse`, `SerializeFrom`, reading calls, and `Serialize` on the document or any value inside it.
-/

namespace Verif.Props

open Verif Verif.Text Verif.Number Verif.Parser Verif.Spec Verif.Own

variable {D : Type}

/-- The full statement of C167: with enough memory every history of calls is free of undefined behaviour, and the destructor
destroys everything. -/
def C167_statement : Prop :=
  ∀ (D : Type) (N : NumOps D), NegLaw N → ∀ calls : List DocCall, ∃ s h, freshSd.runOn plenty N calls = .ok s ∧
    s.destroy = .ok h ∧ ∀ a, a ∉ h.live

/-- What a history leaves: the objects of the document, those alive, and those alive after the destructor. -/
def viewSd : Out (Sd D) → Option (List Nat × List Nat × List Nat)
  | .ok s =>
      match s.destroy with
      | .ok h => some (rootReach s.root, s.heap.live, h.live)
      | _ => none
  | _ => none

/-- Serializing a type with a field `"x"`, and then again onto the same document. -/
def fieldTwice : List DocCall :=
  [.sd (.serialize (.fields (.cons [0x78] .plain .nil))), .onto [] (.data (.fields (.cons [0x78] .plain .nil)))]

/-- **C167 is violated**: the value made by the second call is never destroyed. -/
theorem C167_violated : ¬ C167_statement := by
  intro H
  obtain ⟨s, h, e, e', hl⟩ := H Dec decOps decOps_neg fieldTwice
  have hv : viewSd ((freshSd : Sd Dec).runOn plenty decOps fieldTwice) = some ([0, 1], [2, 1, 0], [2]) := by decide +kernel
  rw [e] at hv
  simp only [viewSd, e', Option.some.injEq, Prod.mk.injEq] at hv
  exact hl 2 (by rw [hv.2.2]; simp)

/-- Serializing a map onto an object: all objects below it that were reachable stay alive and are no longer reachable,
whatever the map holds and whichever requests fail. -/
theorem C167_map_forgets (M : Mem) (m : DatM) (a : Nat) (old : OMem D) (L : List Nat) (h : Heap)
    (hs : Sound ⟨some (.obj a old), h⟩ L) :
    ∃ st v h', ontoH M (.data (.map m)) (.obj a old) h = .ok (st, v, h') ∧
      ∀ b ∈ old.reach, b ∈ h'.live ∧ b ∉ v.reach := by
  obtain ⟨st, acc, h', L', e, g, -, -⟩ := serMapH_grew M m (.nil : OMem D) h Heap.start (a :: (old.reach ++ L)) [] (by
    simpa [OMem.reach, Sound, rootReach, OVal.reach] using hs)
  refine ⟨st, .obj a acc, h', by simp only [ontoH, e, Out.ok_bind], fun b hb => ⟨?_, ?_⟩⟩
  · exact (grew_start_live g b).2 (by simp [hb])
  · have hn := g.nodup
    simp only [OVal.reach, List.mem_cons, not_or]
    constructor
    · rintro rfl
      have := (List.nodup_append.1 (List.nodup_append.1 hn).2.1).2.1
      exact (List.nodup_cons.1 this).1 (by simp [hb])
    · intro hc
      exact (List.nodup_append.1 hn).2.2 b hc b (by simp [hb]) rfl

/-- An empty map onto an object with a member: object 1 stays. -/
example : viewSd ((freshSd : Sd Dec).runOn plenty decOps
      [.sd (.serialize (.fields (.cons [0x78] .plain .nil))), .onto [] (.data (.map .nil))]) =
    some ([0], [1, 0], [1]) := by decide +kernel

/-- No call of the history serializes a map onto a value. -/
def NoMapOnto (calls : List DocCall) : Prop := ∀ c ∈ calls, ∀ path m, c ≠ .onto path (.data (.map m))

theorem sound_callOn (M : Mem) (hM : RootOk M) (N : NumOps D) (hN : NegLaw N) (s : Sd D) (L : List Nat) (h : Sound s L)
    (c : DocCall) :
    ∃ s' L', s.callOn M N c = .ok s' ∧ Sound s' L' ∧ s.heap.refused ≤ s'.heap.refused ∧
      ((∀ path m, c ≠ .onto path (.data (.map m))) → SlotOk M → s'.heap.refused = s.heap.refused → L = [] → L' = []) := by
  cases c with
  | sd c =>
    obtain ⟨s', L', e, h', hle, hL⟩ := sound_call M hM N hN s L h c
    exact ⟨s', L', e, h', hle, fun _ => hL⟩
  | onto path o =>
    obtain ⟨root, heap⟩ := s
    cases root with
    | none => exact ⟨_, L, rfl, h, Nat.le_refl _, fun _ _ _ h => h⟩
    | some v =>
      obtain ⟨st, v', h', L', e, g, hle, hL⟩ := ontoAtH_accounted M o path v h
      refine ⟨⟨some v', h'⟩, L' ++ L, by simp only [Sd.callOn, e, Out.ok_bind], g, hle, fun hk hs he h0 => ?_⟩
      have : o.Kind := by
        unfold Onto.Kind
        split
        · rename_i m; exact absurd rfl (hk path m)
        · trivial
      rw [hL this hs he, h0]; rfl

theorem sound_runOn (M : Mem) (hM : RootOk M) (N : NumOps D) (hN : NegLaw N) (calls : List DocCall) (s : Sd D)
    (L : List Nat) (h : Sound s L) :
    ∃ s' L', s.runOn M N calls = .ok s' ∧ Sound s' L' ∧ s.heap.refused ≤ s'.heap.refused ∧
      (NoMapOnto calls → SlotOk M → s'.heap.refused = s.heap.refused → L = [] → L' = []) := by
  induction calls generalizing s L with
  | nil => exact ⟨s, L, rfl, h, Nat.le_refl _, fun _ _ _ h => h⟩
  | cons c cs ih =>
    obtain ⟨s1, L1, e1, h1, hle1, hL1⟩ := sound_callOn M hM N hN s L h c
    obtain ⟨s2, L2, e2, h2, hle2, hL2⟩ := ih s1 L1 h1
    refine ⟨s2, L2, ?_, h2, Nat.le_trans hle1 hle2, fun hn hs h0 hL => hL2 (fun c hc => hn c (by simp [hc])) hs (by omega)
      (hL1 (hn c (by simp)) hs (by omega) hL)⟩
    simp only [Sd.runOn, e1, Out.ok_bind, e2]

/-- **C167, the part that holds**: if the root objects of `SerializeFrom` can be made, whatever else fails, every history is free
of undefined behaviour, all objects of the document are alive after it, and the destructor destroys each of them once.
If moreover places can be had, no name is refused and no map is serialized onto a value, nothing is left after
the destructor.
Missing: histories with refused names or maps serialized onto a value, where objects leak. -/
theorem C167_owned_partial (M : Mem) (hM : ∀ k, M .root k = true) (N : NumOps D) (hN : NegLaw N) (calls : List DocCall) :
    ∃ s h, freshSd.runOn M N calls = .ok s ∧ (∀ a ∈ rootReach s.root, a ∈ s.heap.live) ∧ s.destroy = .ok h ∧
      (∀ a ∈ h.live, a ∉ rootReach s.root) ∧
      (NoMapOnto calls → (∀ k, M .slot k = true) → h.refused = 0 → ∀ a, a ∉ h.live) := by
  obtain ⟨s, L, e, hs, -, hL⟩ := sound_runOn M hM N hN calls (freshSd : Sd D) [] start_grew
  obtain ⟨h, e2, g, hr⟩ := delete_root s.root hs
  refine ⟨s, h, e, sound_alive hs, e2, ?_, ?_⟩
  · intro a ha hr
    have h1 := (grew_start_live g a).1 ha
    exact (List.nodup_append.1 hs.nodup).2.2 a hr a h1 rfl
  · intro hn hM h0 a ha
    rw [grew_start_live g, hL hn hM (by rw [← hr, h0]; rfl) rfl] at ha
    cases ha

/-- An array of an array is replaced by two scalars, inside an object: nothing is lost. -/
example : viewSd ((freshSd : Sd Dec).runOn plenty decOps
      [.sd (.serialize (.fields (.cons [0x78] (.array (.cons (.array (.cons .plain .nil)) .nil)) .nil))),
        .onto [0] (.data (.array (.cons .plain (.cons .plain .nil))))]) =
    some ([0, 1, 4, 5], [5, 4, 1, 0], []) := by decide +kernel

end Verif.Props
