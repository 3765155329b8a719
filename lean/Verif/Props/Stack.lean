import Verif.Lemmas.Stack
import Verif.Lemmas.Write
import Verif.Props.Document

/-!
# C108: the depth of the recursion
-/

namespace Verif.Props

open Verif Verif.Text Verif.Map Verif.Number Verif.Parser Verif.Doc Verif.Spec Verif.Write

variable {D : Type}

/-- The full statement of C108: there is a size of the stack with which every buffer is parsed. -/
def C108_statement (N : NumOps D) : Prop :=
  ∃ d, ∀ root buf, Stack.parseBuffer N d root buf ≠ .ub

theorem lim_root (N : NumOps D) (e : Prop) (fuel d : Nat) (buf : Bytes)
    (h : ∀ start, start <:+ buf → Stack.Lim e (Stack.parseAny N fuel d start) (parseAny N fuel start)) :
    Stack.Lim e (Stack.parseRoot N fuel d buf) (parseRoot N fuel buf) := by
  unfold Stack.parseRoot parseRoot
  refine Stack.Lim.ite (fun _ => .rfl) fun _ => .same fun last _ => .ite (fun _ => .rfl) fun _ => ?_
  exact .same fun start hs => .bind (h start (Stack.skipWs_suffix hs)) fun r _ => .rfl

theorem lim_buffer (N : NumOps D) (e : Prop) (d : Nat) (root : Option (Value D)) (buf : Bytes)
    (h : ∀ start, start <:+ buf → Stack.Lim e (Stack.parseAny N (parseFuel buf) d start) (parseAny N (parseFuel buf) start)) :
    Stack.Lim e (Stack.parseBuffer N d root buf) (parseBuffer N root buf) := by
  unfold Stack.parseBuffer parseBuffer
  refine Stack.Lim.ite (fun _ => .rfl) fun _ => .same fun last _ => .ite (fun _ => .rfl) fun _ => ?_
  exact .bind (lim_root N e _ d buf h) fun r _ => .rfl

/-- **C108 for texts with few brackets**: if the stack has more levels than the buffer has opening brackets, counting those in
strings and behind the first NUL, parsing is the same as with an unlimited stack. In particular nothing is undefined. Missing:
deeper texts. -/
theorem C108_brackets_partial (N : NumOps D) (hN : NegLaw N) (d : Nat) (root : Option (Value D)) (buf : Bytes)
    (h : opens buf < d) :
    Stack.parseBuffer N d root buf = parseBuffer N root buf ∧ Stack.parseBuffer N d root buf ≠ .ub := by
  have : Stack.parseBuffer N d root buf = parseBuffer N root buf := by
    refine (lim_buffer N (opens buf < d) d root buf fun start hs => ?_).resolve_right fun x => x.2 h
    exact ((Stack.all_enough N _).1 d start).mono fun _ => Nat.lt_of_le_of_lt (Stack.opens_suffix hs) h
  exact ⟨this, this ▸ C01_no_undefined_behaviour N hN root buf⟩

/-- **C108 for a limited stack**: the only effect of the limit is an overflow; a parse that does not overflow is the parse with an
unlimited stack. -/
theorem C108_nothing_else (N : NumOps D) (d : Nat) (root : Option (Value D)) (buf : Bytes) :
    Stack.parseBuffer N d root buf = parseBuffer N root buf ∨ Stack.parseBuffer N d root buf = .ub := by
  refine (lim_buffer N (opens buf < d) d root buf fun start hs => ?_).imp id (·.1)
  exact ((Stack.all_enough N _).1 d start).mono fun h => Nat.lt_of_le_of_lt (Stack.opens_suffix hs) h

/-- **C108 for accepted texts**: exactly as many levels are needed as values are inside one another in the text. -/
theorem C108_depth_partial (N : NumOps D) (hN : NegLaw N) (d : Nat) (root : Option (Value D)) (buf : Bytes)
    (h3 : 3 ≤ buf.length) (hl : buf.getLast? = some 0) (j : J) (hj : DialText (cstr buf) j) :
    Stack.parseBuffer N d root buf = if depth j ≤ d then parseBuffer N root buf else .ub := by
  obtain ⟨c, hc, hr⟩ := rd_last h3
  rw [hl] at hc
  injection hc with hc
  subst hc
  obtain ⟨s, hb, h0⟩ := cstr_split (last_zero hl).1
  obtain ⟨w1, tok, w2, hw1, hv, hw2, e⟩ := hj
  have hlen := congrArg List.length hb
  rw [e] at hb hlen
  have hb' : buf = w1 ++ (tok ++ (w2 ++ 0 :: s)) := by rw [hb]; simp
  obtain ⟨c, u, hcu, hcn, hct, hcs⟩ :=
    after_token (c := 0) (s := s) hw2 (by simp [NumChar, Digit]) (by decide) (by simp [Term])
  obtain ⟨rest, hp, hrest⟩ := Stack.any_exact N hN hv (parseFuel buf) d c u _ (by
    unfold parseFuel
    simp only [List.length_append] at hlen
    omega) (.inl hcn) hct hcs
  obtain ⟨a, x, hax, haw, -⟩ := val_head hv
  have h1 : skipWs buf = .ok (tok ++ c :: u) := by
    rw [hb', skipWs_append hw1, hcu, hax, List.cons_append, skipWs_stop haw]
  have key : Stack.parseBuffer N d root buf =
      if depth j ≤ d then .ok (⟨.kOk, 0, 0⟩, some (interp N j)) else .ub := by
    unfold Stack.parseBuffer Stack.parseRoot
    rw [if_neg (by omega), hr]
    simp only [Out.ok_bind, ne_eq, not_true_eq_false, if_false]
    rw [if_neg (by omega), h1]
    simp only [Out.ok_bind]
    rw [hp]
    by_cases hd : depth j ≤ d
    · simp [if_pos hd, hrest, rd_cons_zero]
    · rw [if_neg hd, if_neg hd]; rfl
  by_cases hd : depth j ≤ d
  · rw [if_pos hd]
    rw [if_pos hd] at key
    exact (C108_nothing_else N d root buf).resolve_right (by rw [key]; simp)
  · rw [key, if_neg hd, if_neg hd]

/-- `k` arrays inside one another, around an empty one. -/
def nested : Nat → Bytes
  | 0 => [0x5B, 0x5D]
  | k + 1 => 0x5B :: (nested k ++ [0x5D])

/-- Their value. -/
def nestedJ : Nat → J
  | 0 => .arr .nil
  | k + 1 => .arr (.cons (nestedJ k) .nil)

theorem nested_val (num : Bytes → Dec → Prop) (str : Bytes → Bytes → Prop) (k : Nat) :
    Val num str (nested k) (nestedJ k) := by
  induction k with
  | zero => exact .arrEmpty (w := []) (by simp [Ws])
  | succ k ih =>
    have := Elems.one (w1 := []) (w2 := []) (by simp [Ws]) ih (by simp [Ws])
    simp only [List.nil_append, List.append_nil] at this
    exact .arr this

theorem nested_depth (k : Nat) : depth (nestedJ k) = k + 1 := by
  induction k with
  | zero => rfl
  | succ k ih => simp only [nestedJ, depth, depthL, ih]; omega

theorem nested_nul (k : Nat) : (0 : Byte) ∉ nested k ∧ 2 ≤ (nested k).length := by
  induction k with
  | zero => decide
  | succ k ih => simp [nested, ih.1]

/-- **C108 is violated**: whatever the size of the stack, there is a JSON text as in RFC 8259 that overflows it. -/
theorem C108_violated (N : NumOps D) (hN : NegLaw N) : ¬ C108_statement N := by
  rintro ⟨d, H⟩
  obtain ⟨h0, h2⟩ := nested_nul d
  refine H none (nested d ++ [0]) ?_
  rw [C108_depth_partial N hN d none (nested d ++ [0]) (by simp; omega) (by simp) (nestedJ d)
    ⟨[], nested d, [], by simp [Ws], nested_val _ _ d, by simp [Ws], by rw [cstr_append h0]; simp⟩,
    if_neg (by rw [nested_depth]; omega)]

/-- Such a text of `2 d + 2` bytes is JSON. -/
theorem C108_violated_json (N : NumOps D) (hN : NegLaw N) (d : Nat) : ∃ t j, RfcText t j ∧ t.length = 2 * d + 2 ∧
    ∀ root, Stack.parseBuffer N d root (t ++ [0]) = .ub := by
  obtain ⟨h0, h2⟩ := nested_nul d
  refine ⟨nested d, nestedJ d, ⟨[], nested d, [], by simp [Ws], nested_val _ _ d, by simp [Ws], by simp⟩, ?_, fun root => ?_⟩
  · clear h0 h2
    induction d with
    | zero => rfl
    | succ d ih => simp [nested, ih]; omega
  · rw [C108_depth_partial N hN d root (nested d ++ [0]) (by simp; omega) (by simp) (nestedJ d)
      ⟨[], nested d, [], by simp [Ws], nested_val _ _ d, by simp [Ws], by rw [cstr_append h0]; simp⟩,
      if_neg (by rw [nested_depth]; omega)]

theorem readLoop_length (os : File.Sched) (file : Bytes) (n left : Nat) (buffer : Bytes) (offset calls : Nat) (okay : Bool)
    (b : Bytes) (h : File.readLoop os file n left buffer offset calls = .ok (okay, b)) : b.length = buffer.length := by
  induction n generalizing left buffer offset calls with
  | zero =>
    cases left with
    | zero => simp only [File.readLoop, Out.ok.injEq, Prod.mk.injEq] at h; rw [h.2]
    | succ left => simp [File.readLoop] at h
  | succ n ih =>
    cases left with
    | zero => simp only [File.readLoop, Out.ok.injEq, Prod.mk.injEq] at h; rw [h.2]
    | succ left =>
      rw [File.readLoop] at h
      split at h
      · simp only [Out.ok.injEq, Prod.mk.injEq] at h; rw [h.2]
      · simp only at h
        split at h
        · exact absurd h (by simp)
        · rw [ih _ _ _ _ h]
          simp only [List.length_append, List.length_drop]
          omega

/-- **C108 for files**: files have at most 65534 bytes, so 65536 levels suffice for all of them. -/
theorem C108_files_partial (N : NumOps D) (hN : NegLaw N) (os : File.Sched) (n : Nat) (root : Option (Value D))
    (file : Option Bytes) (stat d : Nat) (hd : 65536 ≤ d) :
    Stack.parseFile N d os n root file stat = File.parseFile N os n root file stat := by
  unfold Stack.parseFile File.parseFile
  cases file with
  | none => rfl
  | some content =>
    simp only
    split
    · rfl
    · rename_i hs
      cases hr : File.readFile os content n (List.replicate (stat + 1) 0) stat with
      | ub => rfl
      | fuel => rfl
      | ok x =>
        obtain ⟨okay, b⟩ := x
        simp only [Out.ok_bind]
        split
        · rfl
        · refine (C108_brackets_partial N hN d root b ?_).1
          unfold File.readFile at hr
          rw [if_neg hs] at hr
          have := readLoop_length _ _ _ _ _ _ _ _ _ hr
          simp only [List.length_replicate, File.maxFileSize] at this hs
          have h1 : opens b ≤ b.length := by
            clear hr this
            induction b with
            | nil => exact Nat.le_refl _
            | cons c b ih =>
              simp only [opens, List.count_cons, List.length_cons, beq_iff_eq] at ih ⊢
              by_cases h1 : c = 91
              · subst h1; simp; omega
              · by_cases h2 : c = 123
                · subst h2; simp; omega
                · simp [h1, h2]; omega
          omega

theorem depth_get {l : JL} {i : Nat} {j : J} (h : l.get i = some j) : depth j ≤ depthL l := by
  induction l using jl_ind generalizing i with
  | nil => exact absurd h (by simp [JL.get])
  | cons j' l ih =>
    cases i with
    | zero => simp only [JL.get, Option.some.injEq] at h; subst h; simp only [depthL]; omega
    | succ i => have := ih (i := i) h; simp only [depthL]; omega

theorem depth_first {m : JM} {k : Bytes} {j : J} (h : m.first k = some j) : depth j ≤ depthM m := by
  induction m using jm_ind with
  | nil => exact absurd h (by simp [JM.first])
  | cons k' j' m ih =>
    simp only [JM.first] at h
    simp only [depthM]
    split at h
    · injection h with h; subst h; omega
    · have := ih h; omega

/-- **C108 for writing**: a document that came from a text is written with as many nested calls of `Write` as the text is deep. -/
theorem C108_write (N : NumOps D) (il : Nat) (ic : Byte) (n : Nat) (j : J) (h : depth j ≤ n) (ind : Bytes) :
    ∃ r, writeValue N il ic n ind (interp N j) = .ok r := by
  induction n generalizing j ind with
  | zero => cases j <;> simp [depth] at h
  | succ n ih =>
    cases j with
    | null => exact ⟨_, rfl⟩
    | bool b => cases b <;> exact ⟨_, rfl⟩
    | num x => exact ⟨_, rfl⟩
    | str s => exact ⟨_, rfl⟩
    | arr l =>
      simp only [depth] at h
      obtain ⟨r, hr⟩ := writeElems_total (writeValue N il ic n) (interpL N l) (fun v hv ind => by
        obtain ⟨i, hi⟩ := List.getElem?_of_mem hv
        rw [interpL_get] at hi
        obtain ⟨j, hj, rfl⟩ := Option.map_eq_some_iff.1 hi
        exact ih j (by have := depth_get hj; omega) ind) (ind ++ List.replicate il ic)
      simp only [interp, writeValue, hr, Out.ok_bind]
      split <;> exact ⟨_, rfl⟩
    | obj m =>
      simp only [depth] at h
      obtain ⟨r, hr⟩ := writeMembers_total (writeValue N il ic n) (interpM N m .nil) m.names (fun k x hx ind => by
        rw [find_interpM] at hx
        obtain ⟨j, hj, rfl⟩ := Option.map_eq_some_iff.1 hx
        exact ih j (by have := depth_first hj; omega) ind) (ind ++ List.replicate il ic)
      simp only [interp, writeValue, hr, Out.ok_bind]
      split <;> exact ⟨_, rfl⟩

/-- `[{"a":[]},[[` : three levels do not suffice for this text, four do; it is not accepted. -/
example : Stack.parseBuffer decOps 2 none [91, 123, 34, 97, 34, 58, 91, 93, 125, 44, 91, 91, 0] = .ub ∧
    Stack.parseBuffer decOps 3 none [91, 123, 34, 97, 34, 58, 91, 93, 125, 44, 91, 91, 0] = .ub ∧
    Stack.parseBuffer decOps 4 none [91, 123, 34, 97, 34, 58, 91, 93, 125, 44, 91, 91, 0] =
      .ok (⟨.kExpectedJsonValue, 1, 13⟩, none) := ⟨rfl, rfl, rfl⟩

/-- `[[1],2]` has depth 3, `"[[["` depth 1 although it has three brackets. -/
example : Stack.parseBuffer decOps 3 none [91, 91, 49, 93, 44, 50, 93, 0] =
      .ok (⟨.kOk, 0, 0⟩, some (.arr [.arr [.num ⟨false, 1, 0⟩], .num ⟨false, 2, 0⟩])) ∧
    Stack.parseBuffer decOps 2 none [91, 91, 49, 93, 44, 50, 93, 0] = .ub ∧
    Stack.parseBuffer decOps 1 none [34, 91, 91, 91, 34, 0] = .ok (⟨.kOk, 0, 0⟩, some (.str [91, 91, 91])) :=
  ⟨rfl, rfl, rfl⟩

end Verif.Props
