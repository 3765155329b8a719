import Verif.Props.Filed
import Verif.Props.NotFinite
import Verif.Lemmas.NoQuote

/-!
# Texts that forge other fields (C182)
-/

namespace Verif.Props

open Verif Verif.Map Verif.Text Verif.Number Verif.Parser Verif.File Verif.Doc Verif.Write Verif.Serial Verif.Spec Verif.B64

variable {D : Type}

/-- The fields of a user type with a text called `n1` and some data called `n2`. -/
def textAnd (n1 n2 : Bytes) (t : Ty) : Fields := .named false n1 .str (.named false n2 t .nil)

theorem readable_nil : ReadableText [] := ⟨[], by simp, rfl⟩

/-- Serializing a text and data whose names differ. -/
theorem textAnd_saved (init : Dbl) (n1 n2 : Bytes) (hne : n1 ≠ n2) (t : Ty) (p : Bytes) (d : t.Den Dbl) (w : Value Dbl) (st : Status)
    (h : serialize init t d (createValueFor init t) = .ok (st, w)) (id : Nat) :
    ∃ m, serializeFrom init (.struct id (textAnd n1 n2 t)) (p, d, ()) = .ok (.kOk, .obj m [n1, n2]) ∧
      findMapElement nameLt n1 m = some (n1, .str p) ∧ findMapElement nameLt n2 m = some (n2, w) := by
  obtain ⟨m1, e1, t1, f1, g1⟩ := find_insert treeOk_nil n1 (.str p : Value Dbl) rfl
  obtain ⟨m2, e2, t2, f2, g2⟩ := find_insert t1 n2 w (by rw [g1 n2 (Ne.symm hne)]; rfl)
  refine ⟨m2, ?_, by rw [g2 n1 hne, f1], f2⟩
  have hc : ∀ fs, createValueFor init (.struct id fs) = .obj .nil [] := fun _ => rfl
  have hc' : createValueFor init .str = .str [] := rfl
  simp [serializeFrom, serialize, textAnd, serProto, serNamed, hc, hc', insertAccounted, e1, e2, h]

/-- How they are written. -/
theorem textAnd_written (il : Nat) (ic : Byte) (m : Tree Bytes (Value Dbl)) (n1 n2 p : Bytes) (y : Value Dbl) (z1 : (0 : Byte) ∉ n1)
    (z2 : (0 : Byte) ∉ n2) (zp : (0 : Byte) ∉ p) (f1 : findMapElement nameLt n1 m = some (n1, .str p))
    (f2 : findMapElement nameLt n2 m = some (n2, y)) (n : Nat) (c : List Bytes)
    (wy : writeValue ops il ic (n + 1) (List.replicate il ic) y = .ok ⟨.kOk, c, List.replicate il ic⟩) :
    writeValue ops il ic (n + 2) [] (.obj m [n1, n2]) = .ok ⟨.kOk, [[0x7B, 0x0A], List.replicate il ic, [0x22], n1,
      [0x22, 0x20, 0x3A, 0x20], [0x22], p, [0x22], [0x2C], [0x0A],
      List.replicate il ic, [0x22], n2, [0x22, 0x20, 0x3A, 0x20]] ++ c ++ [[], [0x0A], [], [0x7D]], []⟩ := by
  have ws : ∀ ind q, writeValue ops il ic (n + 1) ind (.str q) = .ok ⟨.kOk, [[0x22], cText q, [0x22]], ind⟩ := fun _ _ => rfl
  rw [writeValue]
  simp only [List.nil_append, writeMembers, f1, f2, ws, wy, Out.ok_bind, cText_nul_free z1, cText_nul_free z2, cText_nul_free zp]
  simp

theorem readable_plain {s : Bytes} (h : ReadableText s) : (0x22 : Byte) ∉ s ∧ (0x5C : Byte) ∉ s := by
  obtain ⟨cps, hc, rfl⟩ := h
  constructor <;>
  · intro hm
    simp only [utf8s, List.mem_flatten, List.mem_map] at hm
    obtain ⟨_, ⟨cp, hcp, rfl⟩, hm⟩ := hm
    have := utf8_byte (hc cp hcp).1 (by decide) hm
    have h' := hc cp hcp
    revert this
    simp only [UInt8.reduceToNat]
    omega

/-- **C182**: when a text and other data are saved and loaded with success, the text, whatever it is, has no influence on the data that come
back (which C178 tells). -/
def C182_statement : Prop :=
  ∀ (dflt : (t : Ty) → t.Den Dbl), (∀ t : Ty, t.Fresh (dflt t)) → ∀ (id : Nat) (n1 n2 : Bytes), ReadableText n1 → ReadableText n2 → n1 ≠ n2 →
    ∀ (t : Ty), t.Listed → t.NamesOk → ∀ (p : Bytes) (d k : t.Den Dbl), (0 : Byte) ∉ p → t.Ordered d → t.Writable d → t.fileBack d = some k →
    ∀ il ic, (il = 0 ∨ Ws [ic]) → ∀ w out v, serializeFrom (B64.conv false 0 0) (.struct id (textAnd n1 n2 t)) (p, d, ()) = .ok (.kOk, w) →
    Emits ops il ic w out → Accepts ops (out ++ [0]) v → ∀ old, (textAnd n1 n2 t).Fresh old →
    (deserialize dflt (.struct id (textAnd n1 n2 t)) v old).1 = .kOk → (deserialize dflt (.struct id (textAnd n1 n2 t)) v old).2.2.1 = k

/-- **C182, the part that holds**: texts without quotation marks, backslashes and control characters have none. Missing: all other texts, which
are written as they are. -/
theorem C182_partial (dflt : (t : Ty) → t.Den Dbl) (hd : ∀ t : Ty, t.Fresh (dflt t)) (id : Nat) (n1 n2 : Bytes) (h1 : ReadableText n1)
    (h2 : ReadableText n2) (hne : n1 ≠ n2) (t : Ty) (hl : t.Listed) (hn : t.NamesOk) (p : Bytes) (hp : ReadableText p) (d k : t.Den Dbl)
    (ho : t.Ordered d) (hw : t.Writable d) (hk : t.fileBack d = some k) (il : Nat) (ic : Byte) (hic : il = 0 ∨ Ws [ic]) (w : Value Dbl)
    (out : Bytes) (v : Value Dbl) (hs : serializeFrom (B64.conv false 0 0) (.struct id (textAnd n1 n2 t)) (p, d, ()) = .ok (.kOk, w))
    (he : Emits ops il ic w out) (ha : Accepts ops (out ++ [0]) v) (old : (textAnd n1 n2 t).Den Dbl) (hf : (textAnd n1 n2 t).Fresh old) :
    deserialize dflt (.struct id (textAnd n1 n2 t)) v old = (.kOk, (p, k, ())) := by
  obtain ⟨w', out', v', a, b, c, e⟩ := C178_file dflt hd id (textAnd n1 n2 t)
    (by simp [textAnd, Ty.Listed, Fields.Listed, Fields.names, hl, hne]) ⟨h1, trivial, h2, hn, trivial⟩ (p, d, ())
    ⟨trivial, ho, trivial⟩ ⟨hp, hw, trivial⟩ il ic hic
  rw [hs] at a
  injection a with a
  injection a with _ a
  subst a
  have := emits_det he b
  subst this
  have := (ha none).symm.trans (c none)
  injection this with this
  injection this with _ this
  injection this with this
  subst this
  exact (e old hf).1 _ (by simp [textAnd, Fields.fileBack, Ty.fileBack, hk])

/-- **C182 for all texts without quotation marks**, with backslashes and control characters: if the file is accepted at all, the other data
come back as C178 says. Missing: the texts with quotation marks, of which `C182_forged` shows what they can do. -/
theorem C182_quotes_partial (dflt : (t : Ty) → t.Den Dbl) (hd : ∀ t : Ty, t.Fresh (dflt t)) (id : Nat) (n1 n2 : Bytes) (h1 : ReadableText n1)
    (h2 : ReadableText n2) (hne : n1 ≠ n2) (t : Ty) (hl : t.Listed) (hn : t.NamesOk) (p : Bytes) (hz : (0 : Byte) ∉ p)
    (hp : (0x22 : Byte) ∉ p) (d k : t.Den Dbl) (ho : t.Ordered d) (hw : t.Writable d) (hk : t.fileBack d = some k) (il : Nat) (ic : Byte)
    (hic : il = 0 ∨ Ws [ic]) (w : Value Dbl) (out : Bytes) (v : Value Dbl)
    (hs : serializeFrom (B64.conv false 0 0) (.struct id (textAnd n1 n2 t)) (p, d, ()) = .ok (.kOk, w)) (he : Emits ops il ic w out)
    (ha : Accepts ops (out ++ [0]) v) (old : (textAnd n1 n2 t).Den Dbl) (hf : (textAnd n1 n2 t).Fresh old) :
    ∃ s, DialStr (0x22 :: (p ++ [0x22])) s ∧ deserialize dflt (.struct id (textAnd n1 n2 t)) v old = (.kOk, (s, k, ())) := by
  obtain ⟨y, y', ey, ay, ry, dy, gy⟩ := ser_file dflt il ic (B64.conv false 0 0) hd t hl hn d ho hw
  obtain ⟨m, e1, f1, f2⟩ := textAnd_saved (B64.conv false 0 0) n1 n2 hne t p d y _ ey id
  rw [hs] at e1
  injection e1 with e1
  injection e1 with _ e1
  subst e1
  have hi : Ws (List.replicate il ic) := ws_replicate hic
  have hnl : Ws [0x0A] := by simp [Ws]
  have hsp : Ws [0x20] := by simp [Ws]
  obtain ⟨n, hy⟩ : ∃ n, Yields ops DialNum DialStr (writeValue ops il ic (n + 1)) y' :=
    ⟨_, writeValue_good ops il ic hic _ y' (Nat.le_succ _) (readable_good ry)⟩
  obtain ⟨c, j, wy, vy, sy⟩ := hy _ hi
  rw [← ay] at wy
  have z1 := h1.nul_free
  have z2 := h2.nul_free
  have hwr := textAnd_written il ic m n1 n2 p y z1 z2 hz f1 f2 n c wy
  have hout := emits_det he ⟨_, _, hwr, rfl, rfl⟩
  subst hout
  have zout : (0 : Byte) ∉ ([[0x7B, 0x0A], List.replicate il ic, [0x22], n1, [0x22, 0x20, 0x3A, 0x20], [0x22], p, [0x22], [0x2C], [0x0A],
      List.replicate il ic, [0x22], n2, [0x22, 0x20, 0x3A, 0x20]] ++ c ++ [[], [0x0A], [], [0x7D]]).flatten := by
    have := hi.nul_free
    have := val_nul_free vy
    simp [*] at *
  obtain ⟨-, -, j0, hj0, -⟩ := (accepts_iff ops b64_neg _ v).1 ha
  rw [cstr_append zout] at hj0
  obtain ⟨s, hs'⟩ := first_member (w0 := 0x0A :: List.replicate il ic) (n := n1) (p := p) (more := List.replicate il ic ++ 0x22 :: (n2 ++
      0x22 :: 0x20 :: 0x3A :: 0x20 :: (c.flatten ++ [0x0A, 0x7D]))) (j := j0) (hnl.append hi) (readable_plain h1).1 (readable_plain h1).2 hp
    (by simpa using hj0)
  have q1 := readable_token h1
  have q2 := readable_token h2
  rw [cText_nul_free z1] at q1
  rw [cText_nul_free z2] at q2
  have doc := Val.obj (Members.cons (hnl.append hi) q1 hsp hsp (Val.str (numTok := DialNum) hs') Ws.nil
    (Members.one (hnl.append hi) q2 hsp hsp vy hnl))
  have hv := accepts_det ha (accepts_of_dial ops b64_neg ⟨[], _, [], Ws.nil, doc, Ws.nil, by simp⟩ (by simp))
  subst hv
  refine ⟨s, hs', ?_⟩
  have g := gy old.2.1 hf.2.1
  rw [hk] at g
  rw [des_same_deep dflt t _ _ old.2.1 dy (interp_deep ops j) (similar_of_sameDoc sy)] at g
  have g : deserialize dflt t (interp ops j) old.2.1 = (.kOk, k) := g
  simp [deserialize, textAnd, desProto, desNamed, interp, find_interpM, JM.first, hne, g]

/-- **C182, the code does otherwise.** For each text `s` and all data `d'` there is a text `p` so that whatever data `d` are saved beside `p`,
saving and loading succeed, and `s` and the data `d'` come back. -/
theorem C182_forged (dflt : (t : Ty) → t.Den Dbl) (hd : ∀ t : Ty, t.Fresh (dflt t)) (id : Nat) (n1 n2 : Bytes) (h1 : ReadableText n1)
    (h2 : ReadableText n2) (hne : n1 ≠ n2) (t : Ty) (hl : t.Listed) (hn : t.NamesOk) (s : Bytes) (hs : ReadableText s)
    (d' k : t.Den Dbl) (ho' : t.Ordered d') (hw' : t.Writable d') (hk : t.fileBack d' = some k) :
    ∃ p, (0 : Byte) ∉ p ∧ ∀ (d : t.Den Dbl), t.Ordered d → t.Writable d → ∀ il ic, (il = 0 ∨ Ws [ic]) →
      ∃ w out v, serializeFrom (B64.conv false 0 0) (.struct id (textAnd n1 n2 t)) (p, d, ()) = .ok (.kOk, w) ∧ Emits ops il ic w out ∧
        Accepts ops (out ++ [0]) v ∧
        ∀ old, (textAnd n1 n2 t).Fresh old → deserialize dflt (.struct id (textAnd n1 n2 t)) v old = (.kOk, (s, k, ())) := by
  obtain ⟨x, x', -, -, rx, dx, gx⟩ := ser_file dflt 0 0x20 (B64.conv false 0 0) hd t hl hn d' ho' hw'
  obtain ⟨c', j', -, v', s'⟩ := writeValue_good ops 0 0x20 (.inl rfl) _ x' (Nat.le_refl _) (readable_good rx) [] Ws.nil
  have z1 := h1.nul_free
  have z2 := h2.nul_free
  have zs := hs.nul_free
  have zv := val_nul_free v'
  have q1 := readable_token h1
  have q2 := readable_token h2
  have qs := readable_token hs
  have q0 := readable_token readable_nil
  rw [cText_nul_free z1] at q1
  rw [cText_nul_free z2] at q2
  rw [cText_nul_free zs] at qs
  rw [cText_nul_free (by simp)] at q0
  have zp : (0 : Byte) ∉ s ++ ([0x22, 0x2C, 0x22] ++ (n2 ++ ([0x22, 0x3A] ++ (c'.flatten ++ [0x2C, 0x22, 0x22, 0x3A, 0x22])))) := by
    simp only [List.mem_append, not_or]
    exact ⟨zs, by decide, z2, by decide, zv, by decide⟩
  refine ⟨_, zp, fun d ho hw il ic hic => ?_⟩
  obtain ⟨y, y', ey, ay, ry, -, -⟩ := ser_file dflt il ic (B64.conv false 0 0) hd t hl hn d ho hw
  obtain ⟨m, e1, f1, f2⟩ := textAnd_saved (B64.conv false 0 0) n1 n2 hne t
    (s ++ ([0x22, 0x2C, 0x22] ++ (n2 ++ ([0x22, 0x3A] ++ (c'.flatten ++ [0x2C, 0x22, 0x22, 0x3A, 0x22]))))) d y _ ey id
  have hi : Ws (List.replicate il ic) := ws_replicate hic
  have hnl : Ws [0x0A] := by simp [Ws]
  have hsp : Ws [0x20] := by simp [Ws]
  obtain ⟨n, hy⟩ : ∃ n, Yields ops DialNum DialStr (writeValue ops il ic (n + 1)) y' :=
    ⟨_, writeValue_good ops il ic hic _ y' (Nat.le_succ _) (readable_good ry)⟩
  obtain ⟨c, j, wy, vy, -⟩ := hy _ hi
  rw [← ay] at wy
  have mem := Members.cons (hnl.append hi) q1 hsp hsp (Val.str (numTok := DialNum) qs) Ws.nil
    (Members.cons Ws.nil q2 Ws.nil Ws.nil v' Ws.nil
      (Members.cons Ws.nil q0 Ws.nil Ws.nil (Val.str q0) Ws.nil (Members.one (hnl.append hi) q2 hsp hsp vy hnl)))
  have doc := Val.obj mem
  have out := textAnd_written il ic m n1 n2 _ y z1 z2 zp f1 f2 n c wy
  refine ⟨_, _, _, e1, ⟨_, _, out, rfl, rfl⟩, accepts_of_dial ops b64_neg ⟨[], _, [], Ws.nil, doc, Ws.nil, ?_⟩ ?_, fun old hf => ?_⟩
  · simp
  · simp
  · have g := gx old.2.1 hf.2.1
    rw [hk] at g
    rw [des_same_deep dflt t _ _ old.2.1 dx (interp_deep ops j') (similar_of_sameDoc s')] at g
    have g : deserialize dflt t (interp ops j') old.2.1 = (.kOk, k) := g
    simp [deserialize, textAnd, desProto, desNamed, interp, find_interpM, JM.first, hne, g]

theorem C182_violated : ¬ C182_statement := by
  intro h
  have rt : ∀ b : Nat, 0x61 ≤ b → b < 0x7F → ReadableText (utf8s [b]) := fun b h1 h2 =>
    ⟨[b], by intro cp hcp; simp only [List.mem_singleton] at hcp; subst hcp; omega, rfl⟩
  have ha := rt 0x61 (by decide) (by decide)
  have hb := rt 0x62 (by decide) (by decide)
  let z : Dbl := B64.conv false 0 0
  obtain ⟨p, hp, hf⟩ := C182_forged (blank z) (blank_fresh z) 0 _ _ ha hb (by decide) .bool trivial trivial [] readable_nil true true trivial
    trivial rfl
  obtain ⟨w, out, v, a, b, c, e⟩ := hf false trivial trivial 0 0x20 (.inl rfl)
  have hold : (textAnd (utf8s [0x61]) (utf8s [0x62]) .bool).Fresh (D := Dbl) ([], false, ()) := ⟨trivial, trivial, trivial⟩
  have := h (blank z) (blank_fresh z) 0 _ _ ha hb (by decide) .bool trivial trivial p false false hp trivial trivial rfl 0 0x20 (.inl rfl)
    w out v a b c ([], false, ()) hold (by rw [e _ hold])
  rw [e _ hold] at this
  exact absurd this (by decide)

/-- The text `x","b":true,"":"` in the field `"a"`, saved beside the flag `false` in the field `"b"`: what is loaded is the text `x` and
`true`. -/
example : ∃ w out v, serializeFrom (D := Dec) ⟨false, 0, 0⟩ (.struct 0 (textAnd [0x61] [0x62] .bool))
      ([0x78, 0x22, 0x2C, 0x22, 0x62, 0x22, 0x3A, 0x74, 0x72, 0x75, 0x65, 0x2C, 0x22, 0x22, 0x3A, 0x22], false, ()) = .ok (.kOk, w) ∧
    Emits natOps 1 0x09 w out ∧ Accepts natOps (out ++ [0]) v ∧
    ∀ dflt, deserialize dflt (.struct 0 (textAnd [0x61] [0x62] .bool)) v ([], false, ()) = (.kOk, ([0x78], true, ())) :=
  ⟨_, _, _, rfl, ⟨3, _, rfl, rfl, rfl⟩, fun _ => rfl, fun _ => rfl⟩

/-- The text `\u0041`, with a backslash and without quotation marks, saved beside the flag `true`: the text changes to `A`, the flag stays. -/
example : ∃ w out v, serializeFrom (D := Dec) ⟨false, 0, 0⟩ (.struct 0 (textAnd [0x61] [0x62] .bool))
      ([0x5C, 0x75, 0x30, 0x30, 0x34, 0x31], true, ()) = .ok (.kOk, w) ∧
    Emits natOps 1 0x09 w out ∧ Accepts natOps (out ++ [0]) v ∧
    ∀ dflt, deserialize dflt (.struct 0 (textAnd [0x61] [0x62] .bool)) v ([], false, ()) = (.kOk, ([0x41], true, ())) :=
  ⟨_, _, _, rfl, ⟨3, _, rfl, rfl, rfl⟩, fun _ => rfl, fun _ => rfl⟩

end Verif.Props
