import Verif.Lemmas.Kept
import Verif.Props.Workflow
import Verif.Props.Layers
import Verif.Spec.Meaning

/-!
# What saving keeps (C174), texts that mean the same (C175)
-/

namespace Verif.Props

open Verif Verif.Map Verif.Text Verif.Number Verif.Parser Verif.File Verif.Doc Verif.Write Verif.Serial Verif.Spec Verif.B64

/-- **C174.** Saving data of a user type without vectors and loading the file succeeds and loses the entries of all maps, at every depth, and
nothing else. -/
theorem C174_kept (dflt : (t : Ty) → t.Den Dbl) (hd : ∀ t : Ty, t.Fresh (dflt t)) (id : Nat) (fs : Fields)
    (hp : (Ty.struct id fs).Plain) (hn : fs.NamesOk) (d : fs.Den Dbl) (hs : fs.Storable d) (il : Nat) (ic : Byte)
    (hic : il = 0 ∨ Ws [ic]) : SavedAs dflt (.struct id fs) d (fs.emptied d) il ic := by
  have hsav := storable_emptiedF fs hp.1 hn d hs
  obtain ⟨m', o', h1, -, -, hr⟩ := serProto_readable ops (B64.conv false 0 0) fs hp.1 hp.2 (fs.emptied d) hsav .nil [] treeOk_nil
    (by intro n _; rfl) ⟨by simp [findMapElement], by simp, by simp [findMapElement]⟩
  have hser : serializeFrom (B64.conv false 0 0) (.struct id fs) (fs.emptied d) = .ok (.kOk, .obj m' o') := h1
  obtain ⟨w, e1, e2⟩ := C27_round_trip_partial (B64.conv false 0 0) dflt hd (.struct id fs) hp (fs.emptied d)
    (savable_wf ops (.struct id fs) (fs.emptied d) hsav)
  have : w = .obj m' o' := by
    rw [hser] at e1
    simp only [Out.ok.injEq, Prod.mk.injEq, true_and] at e1
    exact e1.symm
  subst this
  obtain ⟨out, j, hem, e3, e4⟩ := written_dial il ic hr.doc hic
  have hlen : 2 ≤ out.length := by
    apply Nat.le_of_not_lt
    intro hl
    obtain ⟨x, rfl⟩ := val_short e3 hl
    exact (Serial.sameDoc_alike e4).elim
  have hdeep : Deep False (.obj m' o' : Value Dbl) := by
    obtain ⟨st, v', e, -, hd'⟩ := serialize_done (full := False) (B64.conv false 0 0) (.struct id fs) (fs.emptied d)
      (createValueFor (B64.conv false 0 0) (.struct id fs)) (deep_create _ _) False.elim
    have : v' = .obj m' o' := by
      have := e.symm.trans hser
      simp only [Out.ok.injEq, Prod.mk.injEq] at this
      exact this.2
    exact this ▸ hd'
  have hdes : ∀ old : fs.Den Dbl, fs.Fresh old → deserialize dflt (.struct id fs) (interp ops j) old = (.kOk, fs.emptied d) := by
    intro old ho
    rw [← des_same_deep dflt (.struct id fs) _ _ old hdeep (interp_deep ops j) (similar_of_sameDoc e4)]
    exact e2 old ho
  obtain ⟨x, x', f1, f2, f3⟩ := ser_emptied ops il ic (B64.conv false 0 0) (.struct id fs) hp d (storable_wf (.struct id fs) hp d hs)
  have : x' = .obj m' o' := by
    have := f2.symm.trans hser
    simp only [Out.ok.injEq, Prod.mk.injEq, true_and] at this
    exact this
  subst this
  obtain ⟨n, r, g1, g2, g3⟩ := hem
  refine ⟨x, out, _, f1, ⟨n, r, (f3 n []).trans g1, g2, g3⟩, accepts_of_dial ops b64_neg ⟨[], out, [], Ws.nil, e3, Ws.nil, by simp⟩ hlen, ?_, hdes⟩
  have := des_status dflt (.struct id fs) (interp ops j) (dflt (.struct id fs))
  rw [hdes _ (hd (.struct id fs))] at this
  exact this.symm

theorem savedAs_unique {dflt : (t : Ty) → t.Den Dbl} {t : Ty} (hd : t.Fresh (dflt t)) {d k k' : t.Den Dbl} {il : Nat} {ic : Byte}
    (h : SavedAs dflt t d k il ic) (h' : SavedAs dflt t d k' il ic) : k = k' := by
  obtain ⟨w, out, v, h1, h2, h3, -, h5⟩ := h
  obtain ⟨w', out', v', g1, g2, g3, -, g5⟩ := h'
  have : w = w' := by
    have := h1.symm.trans g1
    simp only [Out.ok.injEq, Prod.mk.injEq, true_and] at this
    exact this
  subst this
  have := emits_det h2 g2
  subst this
  have := accepts_det h3 g3
  subst this
  have := (h5 _ hd).symm.trans (g5 _ hd)
  simp only [Prod.mk.injEq, true_and] at this
  exact this

/-- What is saved is found again exactly if all maps are empty. -/
theorem C174_exact (dflt : (t : Ty) → t.Den Dbl) (hd : ∀ t : Ty, t.Fresh (dflt t)) (id : Nat) (fs : Fields)
    (hp : (Ty.struct id fs).Plain) (hn : fs.NamesOk) (d : fs.Den Dbl) (hs : fs.Storable d) (il : Nat) (ic : Byte)
    (hic : il = 0 ∨ Ws [ic]) : SavedAndLoaded dflt (.struct id fs) d il ic ↔ fs.emptied d = d := by
  have h := C174_kept dflt hd id fs hp hn d hs il ic hic
  constructor
  · intro h'
    exact savedAs_unique (t := .struct id fs) (hd (.struct id fs)) h h'
  · intro e
    rw [e] at h
    exact h

/-- The files of data that differ in the entries of maps only are equal. -/
theorem C174_same_file (id : Nat) (fs : Fields) (hp : (Ty.struct id fs).Plain) (d d' : fs.Den Dbl) (hs : fs.Storable d)
    (hs' : fs.Storable d') (h : fs.emptied d = fs.emptied d') (il : Nat) (ic : Byte) (w w' : Value Dbl) (out out' : Bytes)
    (h1 : serializeFrom (B64.conv false 0 0) (.struct id fs) d = .ok (.kOk, w)) (h2 : Emits ops il ic w out)
    (h1' : serializeFrom (B64.conv false 0 0) (.struct id fs) d' = .ok (.kOk, w')) (h2' : Emits ops il ic w' out') : out = out' := by
  obtain ⟨x, y, f1, f2, f3⟩ := ser_emptied ops il ic (B64.conv false 0 0) (.struct id fs) hp d (storable_wf (.struct id fs) hp d hs)
  obtain ⟨x', y', f1', f2', f3'⟩ := ser_emptied ops il ic (B64.conv false 0 0) (.struct id fs) hp d' (storable_wf (.struct id fs) hp d' hs')
  have e1 : x = w := by
    have := f1.symm.trans h1
    simp only [Out.ok.injEq, Prod.mk.injEq, true_and] at this
    exact this
  have e1' : x' = w' := by
    have := f1'.symm.trans h1'
    simp only [Out.ok.injEq, Prod.mk.injEq, true_and] at this
    exact this
  have e2 : y = y' := by
    have e : (Ty.struct id fs).emptied d = (Ty.struct id fs).emptied d' := h
    rw [e] at f2
    have := f2.symm.trans f2'
    simp only [Out.ok.injEq, Prod.mk.injEq, true_and] at this
    exact this
  subst e1 e1' e2
  obtain ⟨n, r, g1, g2, g3⟩ := h2
  exact emits_det ⟨n, r, (f3' n []).trans ((f3 n []).symm.trans g1), g2, g3⟩ h2'

/-- The files are equal exactly if the data differ in the entries of maps only. -/
theorem C174_files (dflt : (t : Ty) → t.Den Dbl) (hd : ∀ t : Ty, t.Fresh (dflt t)) (id : Nat) (fs : Fields)
    (hp : (Ty.struct id fs).Plain) (hn : fs.NamesOk) (d d' : fs.Den Dbl) (hs : fs.Storable d) (hs' : fs.Storable d') (il : Nat) (ic : Byte)
    (hic : il = 0 ∨ Ws [ic]) (w w' : Value Dbl) (out out' : Bytes)
    (h1 : serializeFrom (B64.conv false 0 0) (.struct id fs) d = .ok (.kOk, w)) (h2 : Emits ops il ic w out)
    (h1' : serializeFrom (B64.conv false 0 0) (.struct id fs) d' = .ok (.kOk, w')) (h2' : Emits ops il ic w' out') :
    out = out' ↔ fs.emptied d = fs.emptied d' := by
  constructor
  · rintro rfl
    obtain ⟨x, o, v, a1, a2, a3, -, a5⟩ := C174_kept dflt hd id fs hp hn d hs il ic hic
    obtain ⟨x', o', v', b1, b2, b3, -, b5⟩ := C174_kept dflt hd id fs hp hn d' hs' il ic hic
    have ex : x = w := by
      have := a1.symm.trans h1
      simp only [Out.ok.injEq, Prod.mk.injEq, true_and] at this
      exact this
    have ex' : x' = w' := by
      have := b1.symm.trans h1'
      simp only [Out.ok.injEq, Prod.mk.injEq, true_and] at this
      exact this
    subst ex ex'
    have := emits_det a2 h2
    subst this
    have := emits_det b2 h2'
    subst this
    have := accepts_det a3 b3
    subst this
    have := (a5 _ (hd (.struct id fs))).symm.trans (b5 _ (hd (.struct id fs)))
    simp only [Prod.mk.injEq, true_and] at this
    exact this
  · intro h
    exact C174_same_file id fs hp d d' hs hs' h il ic w w' out out' h1 h2 h1' h2'

/-- C174 with the file: `Write(fileName)` and `Parse(fileName)` on a disk on which every call transfers what it is asked for, if the text has
at most 65534 bytes. -/
theorem C174_on_disk (os : Sched) (hos : ∀ i, ∃ k, os i = .done k ∧ 65536 ≤ k) (dflt : (t : Ty) → t.Den Dbl) (hd : ∀ t : Ty, t.Fresh (dflt t))
    (id : Nat) (fs : Fields) (hp : (Ty.struct id fs).Plain) (hn : fs.NamesOk) (d : fs.Den Dbl) (hs : fs.Storable d) (il : Nat) (ic : Byte)
    (hic : il = 0 ∨ Ws [ic]) :
    ∃ w n f, serializeFrom (B64.conv false 0 0) (.struct id fs) d = .ok (.kOk, w) ∧ writeDoc ops os n true [] (some w) il ic = .ok (.kOk, some f) ∧
      (f.content.length ≤ 65534 → ∀ root, ∃ v, parseFile ops os n root (some f.content) f.content.length = .ok (⟨.kOk, 0, 0⟩, some v) ∧
        ∀ old : fs.Den Dbl, fs.Fresh old → deserializeTo dflt (some v) (.struct id fs) old = .ok (.kOk, fs.emptied d)) := by
  obtain ⟨w, out, v, h1, h2, h3, -, h5⟩ := C174_kept dflt hd id fs hp hn d hs il ic hic
  have hprog : ∀ i, os i ≠ .done 0 := by
    intro i hi
    obtain ⟨k, hk, hk'⟩ := hos i
    rw [hi] at hk
    simp only [Call.done.injEq] at hk
    omega
  have hnf : NoFailure os := by
    intro i hi
    obtain ⟨k, hk, -⟩ := hos i
    rw [hi] at hk
    cases hk
  obtain ⟨n0, r, he, hst, e⟩ := h2
  obtain ⟨f, hf⟩ := writeChunks_total os hprog (n0 + r.chunks.flatten.length + 1) r.chunks (openCreate [])
    (fun c hc => by have := length_le_flatten r.chunks c hc; omega)
  have hw : writeDoc ops os (n0 + r.chunks.flatten.length + 1) true [] (some w) il ic = .ok (.kOk, some f) := by
    unfold writeDoc
    have := writeValue_mono ops il ic (m := n0 + r.chunks.flatten.length + 1) (by omega) w [] r he
    simp only [Bool.true_eq_false, if_false, this, Out.ok_bind, hf, hst]
  have hc : f.content = out := by
    have := writeDoc_content ops hnf ⟨n0, r, he, hst, e⟩ hw
    simpa using this
  refine ⟨w, _, f, h1, hw, fun hl root => ?_⟩
  obtain ⟨k, hk, hk'⟩ := hos 0
  rw [parseFile_small ops os _ (by omega) k hk root f.content (by omega) hl, hc]
  exact ⟨v, h3 root, fun old ho => by simp only [deserializeTo]; rw [h5 old ho]⟩

/-- `struct { bool b; ObjectMap<bool> m; }` -/
def flagsTy : Fields := .named false [0x62] .bool (.named false [0x6D] (.map .bool) .nil)

/-- `b = true` and an entry `x` with `false`: the entry is lost, the rest is found again. -/
example (z : Dbl) : SavedAs (blank z) (.struct 0 flagsTy) (true, [([0x78], false)], ()) (true, [], ()) 1 0x09 ∧
    ¬ SavedAndLoaded (blank z) (.struct 0 flagsTy) (true, [([0x78], false)], ()) 1 0x09 := by
  have rt : ∀ b : Nat, 0x61 ≤ b → b < 0x7F → ReadableText (utf8s [b]) := fun b h1 h2 =>
    ⟨[b], by intro cp hcp; simp only [List.mem_singleton] at hcp; subst hcp; omega, rfl⟩
  have hp : (Ty.struct 0 flagsTy).Plain := by simp [flagsTy, Ty.Plain, Fields.Plain, Fields.names]
  have hn : flagsTy.NamesOk := ⟨rt 0x62 (by decide) (by decide), trivial, rt 0x6D (by decide) (by decide), trivial, trivial⟩
  have hs : flagsTy.Storable (true, [([0x78], false)], ()) := by
    refine ⟨trivial, ⟨by simp [Sorted], ?_⟩, trivial⟩
    intro e he
    simp only [List.mem_singleton] at he
    subst he
    exact ⟨rt 0x78 (by decide) (by decide), trivial⟩
  have hw : (1 : Nat) = 0 ∨ Ws [0x09] := .inr (by intro c hc; simp only [List.mem_singleton] at hc; simp [hc])
  refine ⟨C174_kept (blank z) (blank_fresh z) 0 flagsTy hp hn _ hs 1 0x09 hw, ?_⟩
  rw [C174_exact (blank z) (blank_fresh z) 0 flagsTy hp hn _ hs 1 0x09 hw]
  simp [flagsTy, Fields.emptied, Ty.emptied]

/-! ## C175 -/

variable {D : Type}

theorem similar_of_meaning {N : NumOps D} {j j' : J} {v v' : Value D} (h : SameMeaning N j j') (hv : Denotes N j v) (hv' : Denotes N j' v') :
    Similar v v' := by
  intro path
  rcases h path with ⟨h1, h2⟩ | ⟨x, x', h1, h2, h3⟩
  · left
    constructor
    · rcases hv path with ⟨-, e⟩ | ⟨y, w, e1, -⟩
      · exact e
      · rw [h1] at e1; cases e1
    · rcases hv' path with ⟨-, e⟩ | ⟨y, w, e1, -⟩
      · exact e
      · rw [h2] at e1; cases e1
  · right
    rcases hv path with ⟨e, -⟩ | ⟨y, w, e1, e2, e3⟩
    · rw [h1] at e; cases e
    · rcases hv' path with ⟨e, -⟩ | ⟨y', w', e1', e2', e3'⟩
      · rw [h2] at e; cases e
      · rw [h1] at e1; cases e1
        rw [h2] at e1'; cases e1'
        refine ⟨w, w', e2, e2', ?_⟩
        cases x <;> cases x' <;> first | exact h3.elim | skip
        all_goals (cases w <;> first | exact e3.elim | skip)
        all_goals (cases w' <;> first | exact e3'.elim | skip)
        all_goals simp only [MeanAlike, Shows, Like] at *
        all_goals simp_all

/-- **C175.** Two accepted texts that mean the same are deserialized to the same data with the same status, for every type and whatever the
target holds: neither spaces nor the order of members nor repeated members nor the spelling of texts and numbers matter. -/
theorem C175_same_data (N : NumOps D) (hN : NegLaw N) {buf buf' : Bytes} {v v' : Value D} (hv : Accepts N buf v) (hv' : Accepts N buf' v')
    (h : SameText N buf buf') (dflt : (t : Ty) → t.Den D) (t : Ty) (old : t.Den D) :
    deserialize dflt t v old = deserialize dflt t v' old := by
  obtain ⟨j, j', h1, h2, h3⟩ := h
  exact des_same_deep dflt t v v' old (accepts_below N hN hv).1 (accepts_below N hN hv').1
    (similar_of_meaning h3 (C05_unambiguous N hN buf v hv j h1) (C05_unambiguous N hN buf' v' hv' j' h2))

/-- `Validate` returns the same for both. -/
theorem C175_same_status (N : NumOps D) (hN : NegLaw N) {buf buf' : Bytes} {v v' : Value D} (hv : Accepts N buf v) (hv' : Accepts N buf' v')
    (h : SameText N buf buf') (t : Ty) : validate t v = validate t v' := by
  have := C175_same_data N hN hv hv' h (blank (N.conv false 0 0)) t (blank (N.conv false 0 0) t)
  rw [← des_status (blank (N.conv false 0 0)) t v (blank (N.conv false 0 0) t), this, des_status]

theorem meanAlike_refl (N : NumOps D) (j : J) : MeanAlike N j j := by cases j <;> simp [MeanAlike]

theorem meaning_refl (N : NumOps D) (j : J) : SameMeaning N j j := by
  intro path
  cases h : j.walk path with
  | none => exact .inl ⟨rfl, rfl⟩
  | some x => exact .inr ⟨x, x, rfl, rfl, meanAlike_refl N x⟩

/-- Objects whose first members under every name mean the same mean the same. -/
theorem C175_members (N : NumOps D) (m m' : JM) (h : ∀ k, (m.first k = none ∧ m'.first k = none) ∨
    ∃ x x', m.first k = some x ∧ m'.first k = some x' ∧ SameMeaning N x x') : SameMeaning N (.obj m) (.obj m') := by
  intro path
  cases path with
  | nil => exact .inr ⟨_, _, rfl, rfl, trivial⟩
  | cons s p =>
    cases s with
    | index i => exact .inl ⟨by simp [J.walk, J.step], by simp [J.walk, J.step]⟩
    | member k =>
      rcases h k with ⟨h1, h2⟩ | ⟨x, x', h1, h2, h3⟩
      · exact .inl ⟨by simp [J.walk, J.step, h1], by simp [J.walk, J.step, h2]⟩
      · have := h3 p
        simpa [J.walk, J.step, h1, h2] using this

/-- Arrays of the same length whose elements mean the same mean the same. -/
theorem C175_elements (N : NumOps D) (l l' : JL) (hl : l'.length = l.length) (h : ∀ i, (l.get i = none ∧ l'.get i = none) ∨
    ∃ x x', l.get i = some x ∧ l'.get i = some x' ∧ SameMeaning N x x') : SameMeaning N (.arr l) (.arr l') := by
  intro path
  cases path with
  | nil => exact .inr ⟨_, _, rfl, rfl, hl⟩
  | cons s p =>
    cases s with
    | member k => exact .inl ⟨by simp [J.walk, J.step], by simp [J.walk, J.step]⟩
    | index i =>
      rcases h i with ⟨h1, h2⟩ | ⟨x, x', h1, h2, h3⟩
      · exact .inl ⟨by simp [J.walk, J.step, h1], by simp [J.walk, J.step, h2]⟩
      · have := h3 p
        simpa [J.walk, J.step, h1, h2] using this

/-- `{"a":1,"b":[]}` and `{"b":[],"a":1,"a":null}` mean the same. -/
example : SameMeaning decOps (.obj (.cons [0x61] (.num ⟨false, 1, 0⟩) (.cons [0x62] (.arr .nil) .nil)))
    (.obj (.cons [0x62] (.arr .nil) (.cons [0x61] (.num ⟨false, 1, 0⟩) (.cons [0x61] .null .nil)))) := by
  apply C175_members
  intro k
  by_cases ha : [0x61] = k
  · subst ha
    exact .inr ⟨_, _, rfl, rfl, meaning_refl _ _⟩
  · by_cases hb : [0x62] = k
    · subst hb
      exact .inr ⟨_, _, rfl, rfl, meaning_refl _ _⟩
    · exact .inl ⟨by simp [JM.first, ha, hb], by simp [JM.first, ha, hb]⟩

/-- `{"x":true,"a":false}` and `{"a" : false, "x":true}` give the same map. -/
example : (do
    let (_, v) ← parseBuffer decOps none [0x7B, 0x22, 0x78, 0x22, 0x3A, 0x74, 0x72, 0x75, 0x65, 0x2C, 0x22, 0x61, 0x22, 0x3A, 0x66, 0x61, 0x6C, 0x73, 0x65, 0x7D, 0]
    deserializeTo (blank (⟨false, 0, 0⟩ : Dec)) v (.map .bool) []) = .ok (.kOk, [([0x61], false), ([0x78], true)]) ∧ (do
    let (_, v) ← parseBuffer decOps none
      [0x7B, 0x22, 0x61, 0x22, 0x20, 0x3A, 0x20, 0x66, 0x61, 0x6C, 0x73, 0x65, 0x2C, 0x20, 0x22, 0x78, 0x22, 0x3A, 0x74, 0x72, 0x75, 0x65, 0x7D, 0]
    deserializeTo (blank (⟨false, 0, 0⟩ : Dec)) v (.map .bool) []) = .ok (.kOk, [([0x61], false), ([0x78], true)]) := ⟨rfl, rfl⟩

end Verif.Props
