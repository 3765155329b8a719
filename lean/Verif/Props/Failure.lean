import Verif.Props.Serial

/-!
# Properties of failing calls: C56 - C58
-/

namespace Verif.Props

open Verif Verif.Text Verif.Number Verif.Map Verif.Spec Verif.Parser Verif.Doc Verif.Write Verif.File Verif.Serial

variable {D : Type}

/-! ## C56 -/

/-- Somewhere in the part of the tree that is written there is an object that lists a name for which it has no
member. -/
inductive Lacks : Value D → Prop
  | elem {l : List (Value D)} {x : Value D} : x ∈ l → Lacks x → Lacks (.arr l)
  | here {m : Tree Bytes (Value D)} {order : List Bytes} {name : Bytes} :
      name ∈ order → findMapElement nameLt name m = none → Lacks (.obj m order)
  | under {m : Tree Bytes (Value D)} {order : List Bytes} {name : Bytes} {e : Bytes × Value D} :
      name ∈ order → findMapElement nameLt name m = some e → Lacks e.2 → Lacks (.obj m order)

/-- The status `Write` should return for a tree. -/
def Verdict (v : Value D) (st : Status) : Prop :=
  (Lacks v ∧ st = .kMissingObjectElement) ∨ (¬ Lacks v ∧ st = .kOk)

theorem writeElems_verdict (w : Bytes → Value D → Out WRes)
    (hw : ∀ ind x r, w ind x = .ok r → Verdict x r.status) (l : List (Value D)) :
    ∀ ind r, writeElems w l ind = .ok r →
      ((∃ x ∈ l, Lacks x) ∧ r.status = .kMissingObjectElement) ∨ ((∀ x ∈ l, ¬ Lacks x) ∧ r.status = .kOk) := by
  induction l with
  | nil =>
    intro ind r h
    simp only [writeElems, Out.ok.injEq] at h
    subst h; exact .inr ⟨by simp, rfl⟩
  | cons v vs ih =>
    intro ind r h
    simp only [writeElems, Out.bind_eq_ok] at h
    obtain ⟨a, ha, h⟩ := h
    rcases hw _ _ _ ha with ⟨hl, hs⟩ | ⟨hl, hs⟩
    · rw [if_pos (by rw [hs]; decide)] at h
      simp only [Out.ok.injEq] at h
      subst h
      exact .inl ⟨⟨v, by simp, hl⟩, hs⟩
    · rw [if_neg (by rw [hs]; decide)] at h
      simp only [Out.bind_eq_ok] at h
      obtain ⟨b, hb, h⟩ := h
      simp only [Out.ok.injEq] at h
      subst h
      rcases ih _ _ hb with ⟨⟨x, hx, hlx⟩, hs'⟩ | ⟨hall, hs'⟩
      · exact .inl ⟨⟨x, by simp [hx], hlx⟩, hs'⟩
      · refine .inr ⟨?_, hs'⟩
        intro x hx
        rcases List.mem_cons.1 hx with rfl | hx
        · exact hl
        · exact hall x hx

theorem writeMembers_verdict (w : Bytes → Value D → Out WRes)
    (hw : ∀ ind x r, w ind x = .ok r → Verdict x r.status) (m : Tree Bytes (Value D)) (order names : List Bytes)
    (hsub : ∀ n ∈ names, n ∈ order) :
    ∀ ind r, writeMembers w m names ind = .ok r →
      (Lacks (.obj m order) ∧ r.status = .kMissingObjectElement) ∨
      ((∀ n ∈ names, ∃ e, findMapElement nameLt n m = some e ∧ ¬ Lacks e.2) ∧ r.status = .kOk) := by
  induction names with
  | nil =>
    intro ind r h
    simp only [writeMembers, Out.ok.injEq] at h
    subst h; exact .inr ⟨by simp, rfl⟩
  | cons name names ih =>
    intro ind r h
    simp only [writeMembers] at h
    cases hf : findMapElement nameLt name m with
    | none =>
      rw [hf] at h
      simp only [Out.ok.injEq] at h
      subst h
      exact .inl ⟨.here (hsub name (by simp)) hf, rfl⟩
    | some e =>
      rw [hf] at h
      simp only [Out.bind_eq_ok] at h
      obtain ⟨a, ha, h⟩ := h
      rcases hw _ _ _ ha with ⟨hl, hs⟩ | ⟨hl, hs⟩
      · rw [if_pos (by rw [hs]; decide)] at h
        simp only [Out.ok.injEq] at h
        subst h
        exact .inl ⟨.under (hsub name (by simp)) hf hl, hs⟩
      · rw [if_neg (by rw [hs]; decide)] at h
        simp only [Out.bind_eq_ok] at h
        obtain ⟨b, hb, h⟩ := h
        simp only [Out.ok.injEq] at h
        subst h
        rcases ih (fun n hn => hsub n (by simp [hn])) _ _ hb with ⟨hlx, hs'⟩ | ⟨hall, hs'⟩
        · exact .inl ⟨hlx, hs'⟩
        · refine .inr ⟨?_, hs'⟩
          intro n hn
          rcases List.mem_cons.1 hn with rfl | hn
          · exact ⟨e, hf, hl⟩
          · exact hall n hn

theorem writeValue_verdict (N : NumOps D) (il : Nat) (ic : Byte) (n : Nat) :
    ∀ ind v r, writeValue N il ic n ind v = .ok r → Verdict v r.status := by
  induction n with
  | zero => intro ind v r h; simp [writeValue] at h
  | succ n ih =>
    intro ind v r h
    cases v with
    | str s => simp only [writeValue, Out.ok.injEq] at h; subst h; exact .inr ⟨(fun hl => nomatch hl), rfl⟩
    | num s => simp only [writeValue, Out.ok.injEq] at h; subst h; exact .inr ⟨(fun hl => nomatch hl), rfl⟩
    | bool b =>
      cases b <;> (simp only [writeValue, Out.ok.injEq] at h; subst h; exact .inr ⟨(fun hl => nomatch hl), rfl⟩)
    | null => simp only [writeValue, Out.ok.injEq] at h; subst h; exact .inr ⟨(fun hl => nomatch hl), rfl⟩
    | arr l =>
      simp only [writeValue, Out.bind_eq_ok] at h
      obtain ⟨a, ha, h⟩ := h
      rcases writeElems_verdict _ ih l _ _ ha with ⟨⟨x, hx, hl⟩, hs⟩ | ⟨hall, hs⟩
      · rw [if_pos (by rw [hs]; decide)] at h
        simp only [Out.ok.injEq] at h; subst h
        exact .inl ⟨.elem hx hl, hs⟩
      · rw [if_neg (by rw [hs]; decide)] at h
        simp only [Out.ok.injEq] at h; subst h
        refine .inr ⟨?_, rfl⟩
        intro hl
        cases hl with
        | elem hx hl => exact hall _ hx hl
    | obj m order =>
      simp only [writeValue, Out.bind_eq_ok] at h
      obtain ⟨a, ha, h⟩ := h
      rcases writeMembers_verdict _ ih m order order (fun _ h => h) _ _ ha with ⟨hl, hs⟩ | ⟨hall, hs⟩
      · rw [if_pos (by rw [hs]; decide)] at h
        simp only [Out.ok.injEq] at h; subst h
        exact .inl ⟨hl, hs⟩
      · rw [if_neg (by rw [hs]; decide)] at h
        simp only [Out.ok.injEq] at h; subst h
        refine .inr ⟨?_, rfl⟩
        intro hl
        cases hl with
        | here hn hf =>
          obtain ⟨e, he, -⟩ := hall _ hn
          rw [hf] at he; exact nomatch he
        | under hn hf hl =>
          obtain ⟨e, he, hne⟩ := hall _ hn
          rw [hf] at he
          simp only [Option.some.injEq] at he
          subst he; exact hne hl

/-- **C56.** For every tree, disk and file, if the file can be opened then `Write` returns `kMissingObjectElement` if an
object that is written lists a name for which it has no member, and `kOk` otherwise; it returns nothing else. -/
theorem C56_missing_member (N : NumOps D) (os : Sched) (n : Nat) (old : Bytes) (v : Value D) (il : Nat) (ic : Byte)
    (st : Status) (f : Option WFile) (h : writeDoc N os n true old (some v) il ic = .ok (st, f)) :
    (st = .kMissingObjectElement ↔ Lacks v) ∧ (st = .kOk ↔ ¬ Lacks v) := by
  simp only [writeDoc, Bool.true_eq_false, if_false, Out.bind_eq_ok] at h
  obtain ⟨r, hr, f', -, h⟩ := h
  simp only [Out.ok.injEq, Prod.mk.injEq] at h
  obtain ⟨rfl, -⟩ := h
  rcases writeValue_verdict N il ic n _ _ _ hr with ⟨hl, hs⟩ | ⟨hl, hs⟩ <;> simp [hl, hs]

/-- An object listing `"b"` without having it, inside an array. -/
example : ∃ f, writeDoc natOps (fun _ => .done 65536) 3 true []
      (some (.arr [.obj (.node 0 .nil [0x61] .null .nil) [[0x61], [0x62]]])) 0 0x20 = .ok (.kMissingObjectElement, some f) ∧
    f.content = [0x5B, 0x0A, 0x7B, 0x0A, 0x22, 0x61, 0x22, 0x20, 0x3A, 0x20, 0x6E, 0x75, 0x6C, 0x6C, 0x2C, 0x0A] :=
  ⟨_, rfl, rfl⟩

/-! ## C57 -/

/-- The full statement of C57: a failing `Deserialize` leaves its target as it was. -/
def C57_statement (D : Type) : Prop :=
  ∀ (dflt : (t : Ty) → t.Den D) (t : Ty) (v : Value D) (old : t.Den D),
    (deserialize dflt t v old).1 ≠ .kOk → (deserialize dflt t v old).2 = old

/-- **C57 is violated**: reading `[true, null]` into an array of booleans that held `[false]` fails and leaves `[true]`. -/
theorem C57_violated (z : D) : ¬ C57_statement D := by
  intro H
  have h : deserialize (blank z) (.arr .bool) (.arr [.bool true, .null]) [false] = (.kInvalidValueType, [true]) := rfl
  have := H (blank z) (.arr .bool) (.arr [.bool true, .null]) [false] (by rw [h]; simp)
  rw [h] at this
  simp at this

/-- A user type with a vector field `"a"` and a boolean field `"b"`. -/
def pairTy : Ty := .struct 3 (.named false [0x61] (.vec .bool) (.named false [0x62] .bool .nil))

/-- The same happens in a field: the field that fails has been overwritten in part, the fields before it in full. -/
theorem C57_violated_field (z : D) :
    deserialize (blank z) pairTy (.obj (.node 0 .nil [0x61] (.arr [.bool true, .null]) .nil) [[0x61]]) ([], false, ()) =
      (.kInvalidValueType, ([true], false, ())) ∧
    deserialize (blank z) pairTy (.obj (.node 0 .nil [0x61] (.arr [.bool true]) .nil) [[0x61]]) ([], false, ()) =
      (.kNameNotPresent, ([true], false, ())) := ⟨rfl, rfl⟩

/-- Reading an object into a map keeps the entries read before the failure. -/
theorem C57_violated_map (z : D) :
    deserialize (blank z) (.map .bool)
      (.obj (.node 1 .nil [0x61] (.bool true) (.node 0 .nil [0x62] .null .nil)) [[0x61], [0x62]]) [([0x63], false)] =
      (.kInvalidValueType, [([0x61], true), ([0x63], false)]) := rfl

/-- **C57, the part that holds**: scalars are only written on success; a value of the wrong kind leaves every target
unchanged; and in a field list the fields behind the first one that fails are unchanged.
Missing: containers and field lists with an earlier field. -/
theorem C57_target_partial (dflt : (t : Ty) → t.Den D) :
    (∀ (t : Ty) (v : Value D) (old : t.Den D), (t = .str ∨ t = .num ∨ t = .bool ∨ t = .null ∨ t = .stdString) →
      (deserialize dflt t v old).1 ≠ .kOk → (deserialize dflt t v old).2 = old) ∧
    (∀ (t : Ty) (old : List (t.Den D)), ∀ v : Value D, (∀ l, v ≠ .arr l) →
      deserialize dflt (.arr t) v old = (.kInvalidValueType, old) ∧
      deserialize dflt (.vec t) v old = (.kInvalidValueType, old)) ∧
    (∀ (t : Ty) (old : List (Bytes × t.Den D)), ∀ v : Value D, (∀ m o, v ≠ .obj m o) →
      deserialize dflt (.map t) v old = (.kInvalidValueType, old) ∧
      deserialize dflt (.stdMap t) v old = (.kInvalidValueType, old)) ∧
    (∀ (id : Nat) (opt : Bool) (name : Bytes) (t : Ty) (rest : Fields) (v : Value D) (x : t.Den D) (old : rest.Den D),
      let st := validate (.struct id (.named opt name t .nil)) v
      let r := deserialize dflt (.struct id (.named opt name t rest)) v (x, old)
      st ≠ .kOk → r.1 = st ∧ r.2.2 = old) := by
  refine ⟨?_, ?_, ?_, ?_⟩
  · intro t v old ht h
    rcases ht with rfl | rfl | rfl | rfl | rfl <;> cases v <;> simp_all [deserialize]
  · intro t old v hv
    cases v <;> simp_all [deserialize]
  · intro t old v hv
    cases v <;> simp_all [deserialize]
  · intro id opt name t rest v x old st r hst
    have key : (desNamed (deserialize dflt t) v name x).1 = validateNamed (validate t) v name := by
      cases v <;> simp only [desNamed, validateNamed]
      case obj m o =>
        cases findMapElement nameLt name m with
        | none => rfl
        | some e => exact C26_validate_agrees dflt t e.2 x
    have h1 : st = if validateNamed (validate t) v name ≠ .kOk ∧
        (opt = false ∨ validateNamed (validate t) v name ≠ .kNameNotPresent) then
        validateNamed (validate t) v name else .kOk := rfl
    have h2 : r = if (desNamed (deserialize dflt t) v name x).1 ≠ .kOk ∧
        (opt = false ∨ (desNamed (deserialize dflt t) v name x).1 ≠ .kNameNotPresent) then
        ((desNamed (deserialize dflt t) v name x).1, ((desNamed (deserialize dflt t) v name x).2, old)) else
        ((desProto dflt rest v old).1, ((desNamed (deserialize dflt t) v name x).2, (desProto dflt rest v old).2)) := rfl
    rw [h1] at hst ⊢
    rw [h2, key]
    split at hst
    · next hc => rw [if_pos hc, if_pos hc]; exact ⟨rfl, rfl⟩
    · exact absurd rfl hst

/-- A missing field `"b"` behind a good field `"a"`. -/
example : validate (.struct 3 (.named false [0x62] .bool .nil))
    (.obj (.node 0 .nil [0x61] (.arr [.bool true]) .nil) [[0x61]] : Value Dec) = .kNameNotPresent := rfl

/-! ## C58 -/

/-- The number of bytes the first `j` calls are willing to transfer. -/
def granted (os : Sched) (from_ : Nat) : Nat → Nat
  | 0 => 0
  | j + 1 => (match os from_ with | .done k => k | .fail => 0) + granted os (from_ + 1) j

theorem readLoop_fails (os : Sched) (file : Bytes) (j : Nat) :
    ∀ (n left : Nat) (buffer : Bytes) (offset calls : Nat), j < n →
      (∀ i < j, os (calls + i) ≠ .fail) → os (calls + j) = .fail → granted os calls j < left → left ≤ buffer.length →
      ∃ b, readLoop os file n left buffer offset calls = .ok (false, b) := by
  induction j with
  | zero =>
    intro n left buffer offset calls hn _ hf hg _
    cases n with
    | zero => omega
    | succ n =>
      cases left with
      | zero => omega
      | succ left =>
        simp only [Nat.add_zero] at hf
        simp only [readLoop, hf]
        exact ⟨_, rfl⟩
  | succ j ih =>
    intro n left buffer offset calls hn hok hf hg hb
    cases n with
    | zero => omega
    | succ n =>
      cases left with
      | zero => omega
      | succ left =>
        cases hc : os calls with
        | fail => exact absurd hc (by simpa using hok 0 (by omega))
        | done k =>
          simp only [granted, hc] at hg
          simp only [readLoop, hc]
          have hlen : ((file.drop offset).take (min k (left + 1))).length ≤ k := by
            rw [List.length_take]; omega
          have hlen' : ((file.drop offset).take (min k (left + 1))).length ≤ left + 1 := by
            rw [List.length_take]; omega
          rw [if_neg (by omega)]
          refine ih n _ _ _ (calls + 1) (by omega) ?_ ?_ (by omega) ?_
          · intro i hi
            have := hok (i + 1) (by omega)
            rwa [show calls + (i + 1) = calls + 1 + i by omega] at this
          · rwa [show calls + (j + 1) = calls + 1 + j by omega] at hf
          · rw [List.length_append, List.length_drop]
            omega

/-- **C58.** If a `read` fails before the file has been delivered, `Parse(fileName)` returns `KFileReadError` and
leaves the document as it was. (`n` only bounds the number of calls.) -/
theorem C58_read_error (N : NumOps D) (os : Sched) (n j : Nat) (hn : j < n) (root : Option (Value D)) (file : Bytes)
    (stat : Nat) (hs : stat ≤ 65534) (hok : ∀ i < j, os i ≠ .fail) (hf : os j = .fail) (hg : granted os 0 j < stat) :
    parseFile N os n root (some file) stat = .ok (⟨.KFileReadError, 0, 0⟩, root) := by
  obtain ⟨b, hb⟩ := readLoop_fails os file j n stat (List.replicate (stat + 1) 0) 0 0 hn
    (by simpa using hok) (by simpa using hf) hg (by simp)
  unfold parseFile
  simp only
  rw [if_neg (by simp [maxFileSize]; omega)]
  unfold readFile
  rw [if_neg (by simp [maxFileSize]; omega), hb]
  simp

/-- A file that cannot be opened is reported, too. -/
theorem C58_open_error (N : NumOps D) (os : Sched) (n : Nat) (root : Option (Value D)) (stat : Nat) :
    parseFile N os n root none stat = .ok (⟨.KFileOpenError, 0, 0⟩, root) := rfl

/-- The second call fails after two of four bytes. -/
example : parseFile natOps (fun i => if i = 1 then .fail else .done 2) 5 none (some [0x5B, 0x31, 0x31, 0x5D]) 4 =
    .ok (⟨.KFileReadError, 0, 0⟩, none) :=
  C58_read_error natOps _ 5 1 (by decide) none _ 4 (by decide) (by decide) rfl (by decide)

end Verif.Props
