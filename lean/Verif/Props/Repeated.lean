import Verif.Props.Filed

/-!
# Fields with the same name (C183)
-/

namespace Verif.Props

open Verif Verif.Map Verif.Text Verif.Number Verif.Parser Verif.File Verif.Doc Verif.Write Verif.Serial Verif.Spec Verif.B64

variable {D : Type}

/-- `k` fields of the type `t`, all called `n`. -/
def same (n : Bytes) (t : Ty) : Nat → Fields
  | 0 => .nil
  | k + 1 => .named false n t (same n t k)

/-- `x` in each of the fields. -/
def fill (n : Bytes) (t : Ty) (x : t.Den D) : (k : Nat) → (same n t k).Den D
  | 0 => ()
  | k + 1 => (x, fill n t x k)

/-- The fields after the first one leave the members as they are and list the name again. -/
theorem same_kept (dflt : (t : Ty) → t.Den Dbl) (hd : ∀ t : Ty, t.Fresh (dflt t)) (init : Dbl) (n : Bytes) (t : Ty) (hl : t.Listed)
    (hn : t.NamesOk) (m : Tree Bytes (Value Dbl)) (hm : (findMapElement nameLt n m).isSome) : ∀ (k : Nat) (d : (same n t k).Den Dbl),
    (same n t k).Ordered d → (same n t k).Writable d → ∀ o, serProto init (same n t k) d (.obj m o) =
      .ok (.kOk, .obj m (o ++ List.replicate k n))
  | 0, _, _, _, o => by simp [same, serProto]
  | k + 1, d, ho, hw, o => by
    obtain ⟨w, w', e, -⟩ := ser_file dflt 0 0x20 init hd t hl hn d.1 ho.1 hw.1
    have ih := same_kept dflt hd init n t hl hn m hm k d.2 ho.2 hw.2 (o ++ [n])
    simp only [same, serProto, serNamed, e, Out.ok_bind, insertAccounted, insert_present w hm]
    rw [if_neg (by simp), ih]
    simp [List.replicate_succ]

/-- Each of the fields is loaded from the one member there is. -/
theorem same_loaded (dflt : (t : Ty) → t.Den Dbl) (n : Bytes) (t : Ty) (m : Tree Bytes (Value Dbl)) (o : List Bytes) (x : Bytes × Value Dbl)
    (hx : findMapElement nameLt n m = some x) (c : t.Den Dbl) (h : ∀ old, t.Fresh old → deserialize dflt t x.2 old = (.kOk, c)) :
    ∀ (k : Nat) (old : (same n t k).Den Dbl), (same n t k).Fresh old →
      desProto dflt (same n t k) (.obj m o) old = (.kOk, fill n t c k)
  | 0, _, _ => rfl
  | k + 1, old, hf => by
    simp [same, fill, desProto, desNamed, hx, h old.1 hf.1, same_loaded dflt n t m o x hx c h k old.2 hf.2]

/-- The file of an object with one member, whose name may be listed repeatedly. -/
theorem one_member (dflt : (t : Ty) → t.Den Dbl) (il : Nat) (ic : Byte) (hic : il = 0 ∨ Ws [ic]) {w w' : Value Dbl}
    (s1 : WrittenAlike ops il ic w w') (s2 : ReadableDoc ops w') (s3 : Deep False w') (n : Bytes) (h1 : ReadableText n) (o : List Bytes)
    (ho : ∀ j, j ∈ o ↔ j = n) (m : Tree Bytes (Value Dbl)) (f1 : findMapElement nameLt n m = some (n, w))
    (g1 : ∀ j, j ≠ n → findMapElement nameLt j m = none) :
    ∃ out v m', Emits ops il ic (.obj m o) out ∧ Accepts ops (out ++ [0]) v ∧ findMapElement nameLt n m' = some (n, w') ∧
      ∀ (t : Ty) old, deserialize dflt t v old = deserialize dflt t (.obj m' o) old := by
  obtain ⟨m', -, t1', f1', g1'⟩ := find_insert treeOk_nil n w' rfl
  have only : ∀ k x, findMapElement nameLt k m' = some x → k = n ∧ x = (n, w') := by
    intro k x hx
    by_cases hk : k = n
    · subst hk; rw [f1'] at hx; injection hx with hx; exact ⟨rfl, hx.symm⟩
    · rw [g1' k hk] at hx; exact nomatch hx
  have halike : MembersAlike ops il ic m m' := by
    intro k
    by_cases hk : k = n
    · subst hk; exact .inr ⟨_, _, f1, f1', s1⟩
    · exact .inl ⟨g1 k hk, by rw [g1' k hk]; rfl⟩
  have hr : ObjReadable ops m' o := by
    refine ⟨fun j => ?_, fun j hj => ?_, fun j x hx => ?_⟩
    · constructor
      · intro h
        obtain ⟨x, hx⟩ := Option.isSome_iff_exists.1 h
        exact (ho j).2 (only j x hx).1
      · intro h
        rw [(ho j).1 h, f1']; rfl
    · rw [(ho j).1 hj]; exact h1
    · rw [(only j x hx).2]; exact s2
  obtain ⟨out, j, hem, e3, e4⟩ := written_dial il ic hr.doc hic
  have hlen : 2 ≤ out.length := by
    apply Nat.le_of_not_lt
    intro hl
    obtain ⟨x, rfl⟩ := val_short e3 hl
    exact (Serial.sameDoc_alike e4).elim
  obtain ⟨N, r, g1, g2, g3⟩ := hem
  have hdp : Deep False (.obj m' o) := deep_obj.2 ⟨t1', fun h => h.elim, fun j x hx => by rw [(only j x hx).2]; exact s3⟩
  exact ⟨out, _, m', ⟨N, r, (obj_alike halike _ N []).trans g1, g2, g3⟩,
    accepts_of_dial ops b64_neg ⟨[], out, [], Ws.nil, e3, Ws.nil, by simp⟩ hlen, f1', fun t old =>
    (des_same_deep dflt t _ _ old hdp (interp_deep ops j) (similar_of_sameDoc e4)).symm⟩

/-- **C183**: data of a user type comes back from a file as C178 says, also if names of fields are repeated. -/
def C183_statement : Prop :=
  ∀ (dflt : (t : Ty) → t.Den Dbl), (∀ t : Ty, t.Fresh (dflt t)) → ∀ (id : Nat) (fs : Fields), fs.Listed → fs.NamesOk →
    ∀ (d k : fs.Den Dbl), fs.Ordered d → fs.Writable d → fs.fileBack d = some k → ∀ il ic, (il = 0 ∨ Ws [ic]) → ∀ w out v,
    serializeFrom (B64.conv false 0 0) (.struct id fs) d = .ok (.kOk, w) → Emits ops il ic w out → Accepts ops (out ++ [0]) v →
    ∀ old, fs.Fresh old → deserialize dflt (.struct id fs) v old = (.kOk, k)

/-- **C183, the code does otherwise.** Data with fields of the same name and type is saved and loaded with success, and all of the fields have
what came back of the first one. Its member is listed, and so written, once for each of them. -/
theorem C183_repeated (dflt : (t : Ty) → t.Den Dbl) (hd : ∀ t : Ty, t.Fresh (dflt t)) (id : Nat) (n : Bytes) (h1 : ReadableText n) (t : Ty)
    (hl : t.Listed) (hn : t.NamesOk) (k : Nat) (d : (same n t (k + 1)).Den Dbl) (c : t.Den Dbl) (ho : (same n t (k + 1)).Ordered d)
    (hw : (same n t (k + 1)).Writable d) (hc : t.fileBack d.1 = some c) (il : Nat) (ic : Byte) (hic : il = 0 ∨ Ws [ic]) :
    ∃ m out v, serializeFrom (B64.conv false 0 0) (.struct id (same n t (k + 1))) d = .ok (.kOk, .obj m (List.replicate (k + 1) n)) ∧
      Emits ops il ic (.obj m (List.replicate (k + 1) n)) out ∧ Accepts ops (out ++ [0]) v ∧ ∀ old, (same n t (k + 1)).Fresh old →
        deserialize dflt (.struct id (same n t (k + 1))) v old = (.kOk, fill n t c (k + 1)) := by
  obtain ⟨w, w', e, s1, s2, s3, s4⟩ := ser_file dflt il ic (B64.conv false 0 0) hd t hl hn d.1 ho.1 hw.1
  obtain ⟨m, e1, -, f1, g1⟩ := find_insert treeOk_nil n w rfl
  have hser : serializeFrom (B64.conv false 0 0) (.struct id (same n t (k + 1))) d = .ok (.kOk, .obj m (List.replicate (k + 1) n)) := by
    show serProto (B64.conv false 0 0) (same n t (k + 1)) d (.obj .nil []) = _
    simp only [same, serProto, serNamed, e, Out.ok_bind, insertAccounted, e1]
    rw [if_neg (by simp), same_kept dflt hd _ n t hl hn m (by rw [f1]; rfl) k d.2 ho.2 hw.2]
    simp [List.replicate_succ]
  obtain ⟨out, v, m', h2, h3, h4, h5⟩ := one_member dflt il ic hic s1 s2 s3 n h1 (List.replicate (k + 1) n) (by simp) m f1
    (fun j hj => (g1 j hj).trans rfl)
  refine ⟨m, out, v, hser, h2, h3, fun old hf => ?_⟩
  rw [h5]
  refine same_loaded dflt n t m' _ _ h4 c (fun o hfo => ?_) (k + 1) old hf
  have := s4 o hfo
  rw [hc] at this
  exact this

/-- If the first one is a text and the second one neither a text nor of a user type, saving succeeds, but the file cannot be loaded. -/
theorem C183_kinds (dflt : (t : Ty) → t.Den Dbl) (hd : ∀ t : Ty, t.Fresh (dflt t)) (id : Nat) (n : Bytes) (h1 : ReadableText n) (t : Ty)
    (hl : t.Listed) (hn : t.NamesOk) (ht : t ≠ .str ∧ t ≠ .stdString ∧ ∀ i fs, t ≠ .struct i fs) (s : Bytes) (hs : ReadableText s)
    (d : t.Den Dbl) (ho : t.Ordered d) (hw : t.Writable d) (il : Nat) (ic : Byte) (hic : il = 0 ∨ Ws [ic]) :
    ∃ w out v, serializeFrom (B64.conv false 0 0) (.struct id (.named false n .str (.named false n t .nil))) (s, d, ()) = .ok (.kOk, w) ∧
      Emits ops il ic w out ∧ Accepts ops (out ++ [0]) v ∧ ∀ old,
        deserialize dflt (.struct id (.named false n .str (.named false n t .nil))) v old = (.kInvalidValueType, (s, old.2)) := by
  obtain ⟨y, y', e, -⟩ := ser_file dflt il ic (B64.conv false 0 0) hd t hl hn d ho hw
  obtain ⟨m, e1, -, f1, g1⟩ := find_insert treeOk_nil n (.str s : Value Dbl) rfl
  have e2 := insert_present (m := m) (k := n) y (by rw [f1]; rfl)
  have hc : ∀ fs, createValueFor (B64.conv false 0 0) (.struct id fs) = .obj .nil [] := fun _ => rfl
  have hc' : createValueFor (B64.conv false 0 0) .str = .str [] := rfl
  obtain ⟨out, v, m', h2, h3, h4, h5⟩ := one_member dflt il ic hic (WrittenAlike.refl ops il ic (.str s))
    (readable_leaf (v := .str s) hs (by intro s; cases s <;> rfl)) (deep_leaf trivial fun s => rfl) n h1 [n, n] (by simp) m f1
    (fun j hj => (g1 j hj).trans rfl)
  refine ⟨.obj m [n, n], out, v, ?_, h2, h3, fun old => ?_⟩
  · simp [serializeFrom, serialize, serProto, serNamed, hc, hc', insertAccounted, e1, e2, e]
  · have hbad : ∀ o, deserialize dflt t (.str s) o = (.kInvalidValueType, o) := by
      intro o
      cases t with
      | str => exact absurd rfl ht.1
      | stdString => exact absurd rfl ht.2.1
      | struct i fs => exact absurd rfl (ht.2.2 i fs)
      | _ => rfl
    rw [h5]
    simp [deserialize, desProto, desNamed, h4, hbad]

/-- **C183, the part that holds**: without repeated names. Missing: field lists with repeated names, for which `C183_repeated` and `C183_kinds`
tell what happens. -/
theorem C183_partial (dflt : (t : Ty) → t.Den Dbl) (hd : ∀ t : Ty, t.Fresh (dflt t)) (id : Nat) (fs : Fields) (hl : fs.Listed)
    (hnd : fs.names.Nodup) (hn : fs.NamesOk) (d k : fs.Den Dbl) (ho : fs.Ordered d) (hw : fs.Writable d) (hk : fs.fileBack d = some k)
    (il : Nat) (ic : Byte) (hic : il = 0 ∨ Ws [ic]) (w : Value Dbl) (out : Bytes) (v : Value Dbl)
    (hs : serializeFrom (B64.conv false 0 0) (.struct id fs) d = .ok (.kOk, w)) (he : Emits ops il ic w out) (ha : Accepts ops (out ++ [0]) v)
    (old : fs.Den Dbl) (hf : fs.Fresh old) : deserialize dflt (.struct id fs) v old = (.kOk, k) := by
  obtain ⟨w', out', v', a, b, c, e⟩ := C178_file dflt hd id fs ⟨hl, hnd⟩ hn d ho hw il ic hic
  rw [hs] at a
  injection a with a
  injection a with _ a
  subst a
  have := emits_det he b
  subst this
  have := (ha none).symm.trans (c none)
  injection this with this
  injection this with _ this
  injection this with this
  subst this
  exact (e old hf).1 _ hk

theorem C183_violated : ¬ C183_statement := by
  intro h
  have ha : ReadableText (utf8s [0x61]) :=
    ⟨[0x61], by intro cp hcp; simp only [List.mem_singleton] at hcp; subst hcp; omega, rfl⟩
  let z : Dbl := B64.conv false 0 0
  obtain ⟨w, out, v, a, b, c, e⟩ := C183_repeated (blank z) (blank_fresh z) 0 _ ha .bool trivial trivial 1 (true, false, ()) true
    ⟨trivial, trivial, trivial⟩ ⟨trivial, trivial, trivial⟩ rfl 0 0x20 (.inl rfl)
  have hold : (same (utf8s [0x61]) .bool 2).Fresh (D := Dbl) (false, false, ()) := ⟨trivial, trivial, trivial⟩
  have := h (blank z) (blank_fresh z) 0 (same (utf8s [0x61]) .bool 2) (by simp [same, Fields.Listed, Ty.Listed]) ⟨ha, trivial, ha, trivial, trivial⟩ (true, false, ())
    (true, false, ()) ⟨trivial, trivial, trivial⟩ ⟨trivial, trivial, trivial⟩ rfl 0 0x20 (.inl rfl) _ out v a b c _ hold
  rw [e _ hold] at this
  exact absurd (congrArg (fun x : Status × Bool × Bool × Unit => x.2.2.1) this) (by decide)

/-- The flags `true` and `false`, both called `"a"`, with an indentation of one tab: the file has the first one twice, and both are loaded as
`true`. -/
example : ∃ w v, serializeFrom (D := Dec) ⟨false, 0, 0⟩ (.struct 0 (same [0x61] .bool 2)) (true, false, ()) = .ok (.kOk, w) ∧
    Emits natOps 1 0x09 w ([0x7B, 0x0A, 0x09, 0x22, 0x61, 0x22, 0x20, 0x3A, 0x20, 0x74, 0x72, 0x75, 0x65, 0x2C, 0x0A,
      0x09, 0x22, 0x61, 0x22, 0x20, 0x3A, 0x20, 0x74, 0x72, 0x75, 0x65, 0x0A, 0x7D]) ∧
    Accepts natOps ([0x7B, 0x0A, 0x09, 0x22, 0x61, 0x22, 0x20, 0x3A, 0x20, 0x74, 0x72, 0x75, 0x65, 0x2C, 0x0A,
      0x09, 0x22, 0x61, 0x22, 0x20, 0x3A, 0x20, 0x74, 0x72, 0x75, 0x65, 0x0A, 0x7D] ++ [0]) v ∧
    ∀ dflt, deserialize dflt (.struct 0 (same [0x61] .bool 2)) v (false, false, ()) = (.kOk, (true, true, ())) :=
  ⟨_, _, rfl, ⟨3, _, rfl, rfl, rfl⟩, fun _ => rfl, fun _ => rfl⟩

/-- The text `x` and the flag `true`, both called `"a"`: the file has the text twice, and the flag cannot be loaded. -/
example : ∃ w out v, serializeFrom (D := Dec) ⟨false, 0, 0⟩ (.struct 0 (.named false [0x61] .str (.named false [0x61] .bool .nil)))
      ([0x78], true, ()) = .ok (.kOk, w) ∧ Emits natOps 0 0x20 w out ∧ Accepts natOps (out ++ [0]) v ∧
    ∀ dflt, deserialize dflt (.struct 0 (.named false [0x61] .str (.named false [0x61] .bool .nil))) v ([], false, ()) =
      (.kInvalidValueType, ([0x78], false, ())) :=
  ⟨_, _, _, rfl, ⟨3, _, rfl, rfl, rfl⟩, fun _ => rfl, fun _ => rfl⟩

end Verif.Props
