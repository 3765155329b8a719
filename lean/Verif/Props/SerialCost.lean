import Verif.Model.SerialCost
import Verif.Lemmas.MapCost
import Verif.Lemmas.Reserial
import Verif.Props.WriteCost
import Verif.Props.Serial

/-!
# The time `Validate` takes (C177)
-/

namespace Verif.SerialCost

open Verif Verif.Text Verif.Number Verif.Map Verif.Spec Verif.Parser Verif.Doc Verif.Write Verif.ParserCost Verif.Serial Verif.Props

variable {D : Type}

mutual
/-- The size of a type: the number of types and fields in it, and two for each byte of a name. -/
def weight : Ty → Nat
  | .arr t => 1 + weight t
  | .map t => 1 + weight t
  | .vec t => 1 + weight t
  | .stdMap t => 1 + weight t
  | .struct _ fs => 1 + weightF fs
  | _ => 1
/-- The same for field lists. -/
def weightF : Fields → Nat
  | .nil => 1
  | .here t rest => 1 + weight t + weightF rest
  | .named _ name t rest => 2 * name.length + 3 + weight t + weightF rest
end

theorem find_meets {α : Type} (k : Bytes) (t : Tree Bytes α) :
    Meets (WriteCost.findMapElement k t) (.ok (Map.findMapElement Text.nameLt k t)) fun _ n =>
      n ≤ height t * (2 * k.length + 3) := by
  induction t with
  | nil => exact meets_pure (by simp)
  | node b l nk nv r ihl ihr =>
    rw [WriteCost.findMapElement, Map.findMapElement]
    have hle : height l * (2 * k.length + 3) ≤ max (height l) (height r) * (2 * k.length + 3) :=
      Nat.mul_le_mul_right _ (by omega)
    have hre : height r * (2 * k.length + 3) ≤ max (height l) (height r) * (2 * k.length + 3) :=
      Nat.mul_le_mul_right _ (by omega)
    have he : height (.node b l nk nv r) * (2 * k.length + 3) =
        max (height l) (height r) * (2 * k.length + 3) + (2 * k.length + 3) := by
      rw [height, Nat.add_comm, Nat.succ_mul]
    obtain ⟨m, h1, h2, -⟩ := nameLt_meets k nk
    obtain ⟨m', h1', -, h2'⟩ := nameLt_meets nk k
    obtain ⟨nl, gl, bl⟩ := ihl
    obtain ⟨nr, gr, br⟩ := ihr
    by_cases hc : Text.nameLt k nk = true
    · rw [if_pos hc]
      exact ⟨_, WriteCost.run_steps (WriteCost.run_bind h1 (by rw [if_pos hc]; exact gl)), by omega⟩
    · rw [if_neg hc]
      by_cases hc' : Text.nameLt nk k = true
      · rw [if_pos hc']
        exact ⟨_, WriteCost.run_steps (WriteCost.run_bind h1 (by
          rw [if_neg hc]; exact WriteCost.run_bind h1' (by rw [if_pos hc']; exact gr))), by omega⟩
      · rw [if_neg hc']
        exact ⟨_, WriteCost.run_steps (WriteCost.run_bind h1 (by
          rw [if_neg hc]; exact WriteCost.run_bind h1' (by rw [if_neg hc']; rfl))), by omega⟩

theorem count_pos (v : Value D) : 1 ≤ Value.count v := by
  cases v <;> simp [Value.count]

/-- One value is validated in at most `A` steps for each value in it. -/
def Within (A : Nat) (f : Value D → T Status) (g : Value D → Status) (v : Value D) : Prop :=
  ∃ n, (f v).run = .ok (g v, n) ∧ n ≤ A * Value.count v

theorem elements_run {A : Nat} (f : Value D → T Status) (g : Value D → Status) (l : List (Value D))
    (h : ∀ v ∈ l, Within A f g v) :
    ∃ n, (elements f l).run = .ok (firstBad g l, n) ∧ n ≤ (A + 1) * countL l := by
  induction l with
  | nil => exact ⟨0, rfl, by simp⟩
  | cons v l ih =>
    obtain ⟨n, h1, h2⟩ := h v (by simp)
    obtain ⟨n', g1, g2⟩ := ih (fun x hx => h x (by simp [hx]))
    have hp := count_pos v
    have e : (A + 1) * countL (v :: l) = A * Value.count v + Value.count v + (A + 1) * countL l := by
      simp only [countL]; rw [Nat.mul_add, Nat.succ_mul]
    simp only [elements, firstBad]
    by_cases hc : g v ≠ .kOk
    · rw [if_pos hc]
      refine ⟨_, WriteCost.run_steps (WriteCost.run_bind h1 (b := g v) (n := 0) ?_), by omega⟩
      rw [if_pos hc]; rfl
    · rw [if_neg hc]
      refine ⟨_, WriteCost.run_steps (WriteCost.run_bind h1 (b := firstBad g l) (n := n') ?_), by omega⟩
      rw [if_neg hc]; exact g1

/-- The number of values under a list of members. -/
def countM : List (Bytes × Value D) → Nat
  | [] => 0
  | e :: l => Value.count e.2 + countM l

theorem countM_append (a b : List (Bytes × Value D)) : countM (a ++ b) = countM a + countM b := by
  induction a with
  | nil => simp [countM]
  | cons e a ih => simp only [List.cons_append, countM, ih]; omega

theorem countM_toList (m : Tree Bytes (Value D)) : countM (toList m) = countT m := by
  induction m with
  | nil => rfl
  | node b l k v r ihl ihr => simp only [toList, countM_append, countM, ihl, ihr, countT]; omega

theorem size_le_count (m : Tree Bytes (Value D)) : size m ≤ countT m := by
  induction m with
  | nil => simp [size]
  | node b l k v r ihl ihr => have := count_pos v; simp only [size, countT]; omega

theorem members_run {A : Nat} (f : Value D → T Status) (g : Value D → Status) (n : Nat) (z : Option (Pos Bytes (Value D)))
    (hn : (fromPos z).length ≤ n) (h : ∀ e ∈ fromPos z, Within A f g e.2) :
    ∃ k, (members f n z).run = .ok (firstBad (fun e => g e.2) (fromPos z), k) ∧
      k ≤ MapCost.toGo z + A * countM (fromPos z) := by
  induction n generalizing z with
  | zero =>
    cases z with
    | none => exact ⟨0, by simp only [members, fromPos, firstBad]; rfl, by simp⟩
    | some z => simp [fromPos] at hn
  | succ n ih =>
    cases z with
    | none => exact ⟨0, by simp only [members, fromPos, firstBad]; rfl, by simp⟩
    | some z =>
      have hfrom : fromPos (some z) = (z.key, z.val) :: fromPos (MapCost.nextPos z).1 := by
        rw [MapCost.nextPos_fst, fromPos_nextPos]; rfl
      have hs := MapCost.nextPos_steps z
      rw [hfrom] at hn h ⊢
      obtain ⟨k, h1, h2⟩ := h (z.key, z.val) (by simp)
      obtain ⟨k', g1, g2⟩ := ih (MapCost.nextPos z).1 (by simpa using hn) (fun e he => h e (by simp [he]))
      simp only [members, firstBad, countM]
      simp only at h1 h2
      rw [Nat.mul_add]
      by_cases hc : g z.val ≠ .kOk
      · rw [if_pos hc]
        refine ⟨_, WriteCost.run_bind h1 (b := g z.val) (n := 0) ?_, by omega⟩
        rw [if_pos hc]; rfl
      · rw [if_neg hc]
        refine ⟨_, WriteCost.run_bind h1 (b := firstBad (fun e => g e.2) (fromPos (MapCost.nextPos z).1))
          (n := (MapCost.nextPos z).2 + k') ?_, by omega⟩
        rw [if_neg hc]
        exact WriteCost.run_bind (a := (MapCost.nextPos z).1) (m := (MapCost.nextPos z).2) rfl g1

theorem allMembers_run {A : Nat} (f : Value D → T Status) (g : Value D → Status) (m : Tree Bytes (Value D))
    (h : ∀ e ∈ toList m, Within A f g e.2) :
    ∃ k, (allMembers f m).run = .ok (firstBad (fun e => g e.2) (toList m), k) ∧ k ≤ (A + 2) * countT m := by
  have e0 : fromPos (MapCost.firstPos m []).1 = toList m := by rw [MapCost.firstPos_fst, fromPos_first]
  obtain ⟨k, h1, h2⟩ := members_run f g (size m) (MapCost.firstPos m []).1 (by rw [e0, size_eq]; exact Nat.le_refl _) (by rwa [e0])
  rw [e0] at h1 h2
  refine ⟨(MapCost.firstPos m []).2 + k, WriteCost.run_bind (a := (MapCost.firstPos m []).1) rfl h1, ?_⟩
  rw [countM_toList] at h2
  have h3 := size_le_count m
  have h4 : (A + 2) * countT m = A * countT m + 2 * countT m := Nat.add_mul ..
  cases m with
  | nil => simp only [MapCost.firstPos, MapCost.toGo] at h2 ⊢; omega
  | node b l x v r =>
    have h5 := MapCost.firstPos_steps (.node b l x v r) [] (by simp)
    simp only [MapCost.restNext] at h5
    omega

/-- The conditions on the document: its maps are search trees of at most this height. -/
def Low (hb : Nat) (v : Value D) : Prop := Deep False v ∧ WriteCost.Fit hb v

theorem Low.elem {hb : Nat} {l : List (Value D)} (h : Low hb (.arr l)) {v : Value D} (hv : v ∈ l) : Low hb v := by
  obtain ⟨i, hi⟩ := List.getElem?_of_mem hv
  exact ⟨h.1.child (s := .index i) (by simp [step, hi]), h.2.step (s := .index i) (by simp [step, hi])⟩

theorem Low.found {hb : Nat} {m : Tree Bytes (Value D)} {o : List Bytes} (h : Low hb (.obj m o)) {k : Bytes} {x : Bytes × Value D}
    (hx : findMapElement nameLt k m = some x) : Low hb x.2 :=
  ⟨h.1.child (s := .member k) (by simp [step, hx]), h.2.step (s := .member k) (by simp [step, hx])⟩

theorem Low.mem {hb : Nat} {m : Tree Bytes (Value D)} {o : List Bytes} (h : Low hb (.obj m o)) {e : Bytes × Value D}
    (he : e ∈ toList m) : Low hb e.2 := by
  obtain ⟨⟨A, hA⟩, -⟩ := h.1.node
  exact h.found ((find_spec nameLt_strict e.1 m hA.sorted e).2 ⟨rfl, he⟩)

theorem count_found {m : Tree Bytes (Value D)} {k : Bytes} {x : Bytes × Value D}
    (hx : findMapElement nameLt k m = some x) : Value.count x.2 ≤ countT m := by
  induction m with
  | nil => simp [findMapElement] at hx
  | node b l nk nv r ihl ihr =>
    simp only [findMapElement] at hx
    simp only [countT]
    split at hx
    · have := ihl hx; omega
    · split at hx
      · have := ihr hx; omega
      · cases hx; simp only; omega

theorem named_run {hb A : Nat} (f : Value D → T Status) (g : Value D → Status) (v : Value D) (name : Bytes) (hl : Low hb v)
    (h : ∀ x, Low hb x → Within A f g x) :
    ∃ k, (named f v name).run = .ok (validateNamed g v name, k) ∧
      k ≤ 1 + hb * (2 * name.length + 3) + A * Value.count v := by
  cases v with
  | obj m o =>
    obtain ⟨n, h1, h2⟩ := find_meets name m
    have h3 : height m * (2 * name.length + 3) ≤ hb * (2 * name.length + 3) :=
      Nat.mul_le_mul_right _ (hl.2 [] m o rfl).1
    simp only [named, validateNamed]
    cases hf : findMapElement nameLt name m with
    | none =>
      rw [hf] at h1
      exact ⟨_, WriteCost.run_steps (WriteCost.run_bind h1 (b := Status.kNameNotPresent) (n := 0) rfl), by omega⟩
    | some x =>
      rw [hf] at h1
      obtain ⟨k, g1, g2⟩ := h x.2 (hl.found hf)
      have := count_found hf
      have h4 : A * Value.count x.2 ≤ A * Value.count (.obj m o) := Nat.mul_le_mul_left _ (by simp only [Value.count]; omega)
      exact ⟨_, WriteCost.run_steps (WriteCost.run_bind h1 (b := g x.2) (n := k) g1), by omega⟩
  | str _ => exact ⟨_, WriteCost.run_steps (b := Status.kInvalidValueType) (n := 0) rfl, by omega⟩
  | num _ => exact ⟨_, WriteCost.run_steps (b := Status.kInvalidValueType) (n := 0) rfl, by omega⟩
  | bool _ => exact ⟨_, WriteCost.run_steps (b := Status.kInvalidValueType) (n := 0) rfl, by omega⟩
  | null => exact ⟨_, WriteCost.run_steps (b := Status.kInvalidValueType) (n := 0) rfl, by omega⟩
  | arr _ => exact ⟨_, WriteCost.run_steps (b := Status.kInvalidValueType) (n := 0) rfl, by omega⟩

theorem leaf_run {W : Nat} (hW : 1 ≤ W) {x : T Status} {s : Status} (v : Value D) (h : x.run = .ok (s, 0)) :
    ∃ n, (steps 1 >>= fun _ => x).run = .ok (s, n) ∧ n ≤ W * Value.count v := by
  refine ⟨_, WriteCost.run_steps h, ?_⟩
  have := Nat.mul_le_mul hW (count_pos v)
  omega

theorem arr_run {hb W : Nat} (f : Value D → T Status) (g : Value D → Status) (v : Value D) (hl : Low hb v)
    (h : ∀ x, Low hb x → Within ((hb + 3) * W) f g x) :
    Within ((hb + 3) * (1 + W))
      (fun v => steps 1 >>= fun _ => match v with | .arr l => elements f l | _ => pure .kInvalidValueType)
      (fun v => match v with | .arr l => firstBad g l | _ => .kInvalidValueType) v := by
  have e : (hb + 3) * (1 + W) = (hb + 3) * W + hb + 3 := by rw [Nat.mul_add]; omega
  rw [e]
  cases v with
  | arr l =>
    obtain ⟨n, h1, h2⟩ := elements_run f g l (fun x hx => h x (hl.elem hx))
    refine ⟨_, WriteCost.run_steps h1, ?_⟩
    simp only [Value.count]
    have h3 : ((hb + 3) * W + 1) * countL l ≤ ((hb + 3) * W + hb + 3) * countL l := Nat.mul_le_mul_right _ (by omega)
    rw [Nat.mul_add]; omega
  | str _ => exact leaf_run (by omega) _ rfl
  | num _ => exact leaf_run (by omega) _ rfl
  | bool _ => exact leaf_run (by omega) _ rfl
  | null => exact leaf_run (by omega) _ rfl
  | obj _ _ => exact leaf_run (by omega) _ rfl

theorem map_run {hb W : Nat} (f : Value D → T Status) (g : Value D → Status) (v : Value D) (hl : Low hb v)
    (h : ∀ x, Low hb x → Within ((hb + 3) * W) f g x) :
    Within ((hb + 3) * (1 + W))
      (fun v => steps 1 >>= fun _ => match v with | .obj m _ => allMembers f m | _ => pure .kInvalidValueType)
      (fun v => match v with | .obj m _ => firstBad (fun e => g e.2) (toList m) | _ => .kInvalidValueType) v := by
  have e : (hb + 3) * (1 + W) = (hb + 3) * W + hb + 3 := by rw [Nat.mul_add]; omega
  rw [e]
  cases v with
  | obj m o =>
    obtain ⟨n, h1, h2⟩ := allMembers_run f g m (fun x hx => h x.2 (hl.mem hx))
    refine ⟨_, WriteCost.run_steps h1, ?_⟩
    simp only [Value.count]
    have h3 : ((hb + 3) * W + 2) * countT m ≤ ((hb + 3) * W + hb + 3) * countT m := Nat.mul_le_mul_right _ (by omega)
    rw [Nat.mul_add]; omega
  | str _ => exact leaf_run (by omega) _ rfl
  | num _ => exact leaf_run (by omega) _ rfl
  | bool _ => exact leaf_run (by omega) _ rfl
  | null => exact leaf_run (by omega) _ rfl
  | arr _ => exact leaf_run (by omega) _ rfl

mutual
theorem validate_run (hb : Nat) : ∀ (t : Ty) (v : Value D), Low hb v →
    Within ((hb + 3) * weight t) (validate t) (Serial.validate t) v
  | .str, v, _ => by cases v <;> exact leaf_run (by simp only [weight]; omega) _ rfl
  | .num, v, _ => by cases v <;> exact leaf_run (by simp only [weight]; omega) _ rfl
  | .bool, v, _ => by cases v <;> exact leaf_run (by simp only [weight]; omega) _ rfl
  | .null, v, _ => by cases v <;> exact leaf_run (by simp only [weight]; omega) _ rfl
  | .stdString, v, _ => by cases v <;> exact leaf_run (by simp only [weight]; omega) _ rfl
  | .arr t, v, hl => by
    obtain ⟨n, h1, h2⟩ := arr_run (validate t) (Serial.validate t) v hl (fun x hx => validate_run hb t x hx)
    exact ⟨n, by cases v <;> exact h1, by rw [weight]; exact h2⟩
  | .vec t, v, hl => by
    obtain ⟨n, h1, h2⟩ := arr_run (validate t) (Serial.validate t) v hl (fun x hx => validate_run hb t x hx)
    exact ⟨n, by cases v <;> exact h1, by rw [weight]; exact h2⟩
  | .map t, v, hl => by
    obtain ⟨n, h1, h2⟩ := map_run (validate t) (Serial.validate t) v hl (fun x hx => validate_run hb t x hx)
    exact ⟨n, by cases v <;> exact h1, by rw [weight]; exact h2⟩
  | .stdMap t, v, hl => by
    obtain ⟨n, h1, h2⟩ := map_run (validate t) (Serial.validate t) v hl (fun x hx => validate_run hb t x hx)
    exact ⟨n, by cases v <;> exact h1, by rw [weight]; exact h2⟩
  | .struct _ fs, v, hl => by
    obtain ⟨n, h1, h2⟩ := validateProto_run hb fs v hl
    refine ⟨1 + n, by rw [validate, Serial.validate]; exact WriteCost.run_steps h1, ?_⟩
    have h3 := Nat.mul_le_mul (show 1 ≤ hb + 3 by omega) (count_pos v)
    rw [weight, Nat.mul_add, Nat.add_mul, Nat.mul_one]; omega
theorem validateProto_run (hb : Nat) : ∀ (fs : Fields) (v : Value D), Low hb v →
    Within ((hb + 3) * weightF fs) (validateProto fs) (Serial.validateProto fs) v
  | .nil, v, _ => leaf_run (by simp only [weightF]; omega) _ rfl
  | .here t rest, v, hl => by
    obtain ⟨n, h1, h2⟩ := validate_run hb t v hl
    obtain ⟨n', g1, g2⟩ := validateProto_run hb rest v hl
    have h3 := Nat.mul_le_mul (show 1 ≤ hb + 3 by omega) (count_pos v)
    have e : (hb + 3) * weightF (.here t rest) * Value.count v =
        (hb + 3) * Value.count v + (hb + 3) * weight t * Value.count v + (hb + 3) * weightF rest * Value.count v := by
      simp only [weightF, Nat.mul_add, Nat.add_mul, Nat.mul_one]
    unfold Within
    rw [e, validateProto, Serial.validateProto]
    by_cases hc : Serial.validate t v ≠ .kOk
    · refine ⟨1 + (n + 0), WriteCost.run_steps (WriteCost.run_bind h1 (b := Serial.validate t v) (n := 0) ?_) |>.trans ?_, by omega⟩
      · rw [if_pos hc]; rfl
      · simp only [if_pos hc]
    · refine ⟨1 + (n + n'), WriteCost.run_steps (WriteCost.run_bind h1 (b := Serial.validateProto rest v) (n := n') ?_) |>.trans ?_, by omega⟩
      · rw [if_neg hc]; exact g1
      · simp only [if_neg hc]
  | .named opt name t rest, v, hl => by
    obtain ⟨n, h1, h2⟩ := named_run (validate t) (Serial.validate t) v name hl (fun x hx => validate_run hb t x hx)
    obtain ⟨n', g1, g2⟩ := validateProto_run hb rest v hl
    have h3 : (hb + 3) * (2 * name.length + 3) ≤ (hb + 3) * (2 * name.length + 3) * Value.count v :=
      Nat.le_mul_of_pos_right _ (count_pos v)
    have h4 : (hb + 3) * (2 * name.length + 3) = hb * (2 * name.length + 3) + 3 * (2 * name.length + 3) := Nat.add_mul ..
    have e : (hb + 3) * weightF (.named opt name t rest) * Value.count v =
        (hb + 3) * (2 * name.length + 3) * Value.count v + (hb + 3) * weight t * Value.count v +
          (hb + 3) * weightF rest * Value.count v := by
      simp only [weightF]
      rw [show 2 * name.length + 3 + weight t + weightF rest = (2 * name.length + 3) + (weight t + weightF rest) by omega,
        Nat.mul_add, Nat.mul_add (hb + 3) (weight t), Nat.add_mul, Nat.add_mul (_ * weight t), Nat.add_assoc]
    unfold Within
    rw [e, validateProto, Serial.validateProto]
    by_cases hc : validateNamed (Serial.validate t) v name ≠ .kOk ∧
        (opt = false ∨ validateNamed (Serial.validate t) v name ≠ .kNameNotPresent)
    · refine ⟨1 + (n + 0), WriteCost.run_steps (WriteCost.run_bind h1
        (b := validateNamed (Serial.validate t) v name) (n := 0) ?_) |>.trans ?_, by omega⟩
      · rw [if_pos hc]; rfl
      · simp only [if_pos hc]
    · refine ⟨1 + (n + n'), WriteCost.run_steps (WriteCost.run_bind h1 (b := Serial.validateProto rest v) (n := n') ?_) |>.trans ?_, by omega⟩
      · rw [if_neg hc]; exact g1
      · simp only [if_neg hc]
end

end Verif.SerialCost

namespace Verif.Props

open Verif Verif.Text Verif.Number Verif.Map Verif.Spec Verif.Parser Verif.Doc Verif.Serial

variable {D : Type}

/-- **C177.** `Validate` of a document read from a buffer of `n` bytes against a type: the result is that of the functions without steps, and the
number of steps is at most proportional to the size of the type, to the number of values of the document and to the logarithm of `n`. -/
theorem C177_time (N : NumOps D) (hN : NegLaw N) (buf : Bytes) (v : Value D) (h : Accepts N buf v) (t : Ty) :
    ∃ k, (SerialCost.validate t v).run = .ok (validate t v, k) ∧
      k ≤ (2 * Nat.log2 buf.length + 5) * SerialCost.weight t * Value.count v := by
  obtain ⟨h3, hl, j, hj, rfl⟩ := (accepts_iff N hN buf v).1 h
  obtain ⟨h1, -⟩ := text_light hj
  have hc : (cstr buf).length ≤ buf.length := (List.takeWhile_sublist _).length_le
  obtain ⟨w1, tok, w2, -, hv, -, -⟩ := hj
  have hf : WriteCost.Fit (2 * (Nat.log2 buf.length + 1)) (interp N j) := by
    have := WriteCost.fit_interp N (j := j) (n := buf.length - 1) (by omega) (by
      intro s hs
      obtain ⟨tok, items, hi, -, rfl⟩ := val_strs hv s hs
      simp only [utf8s, plainCodes, List.map_map, List.mem_flatten, List.mem_map, not_exists, not_and]
      rintro l ⟨i, hx, rfl⟩
      obtain ⟨c, e, h1, h2⟩ := (hi i hx).code
      simp only [Function.comp_apply, e, Option.getD_some]
      exact utf8_nul_free _ h1 h2)
    rwa [Nat.sub_add_cancel (by omega)] at this
  obtain ⟨k, g1, g2⟩ := SerialCost.validate_run _ t (interp N j) ⟨interp_deep N j, hf⟩
  exact ⟨k, g1, by rwa [show 2 * Nat.log2 buf.length + 5 = 2 * (Nat.log2 buf.length + 1) + 3 by omega]⟩

/-- In terms of the length of the text alone: `n log n` for a fixed type. -/
theorem C177_text (N : NumOps D) (hN : NegLaw N) (buf : Bytes) (v : Value D) (h : Accepts N buf v) (t : Ty) :
    ∃ k, (SerialCost.validate t v).run = .ok (validate t v, k) ∧
      k ≤ (2 * Nat.log2 buf.length + 5) * SerialCost.weight t * buf.length := by
  obtain ⟨k, h1, h2⟩ := C177_time N hN buf v h t
  have h3 := (C151_document N hN buf v h).1
  have h4 : (cstr buf).length ≤ buf.length := (List.takeWhile_sublist _).length_le
  have h6 := SerialCost.count_pos v
  refine ⟨k, h1, Nat.le_trans h2 (Nat.mul_le_mul_left _ ?_)⟩
  omega

/-- A field list that refers to the same array `m` times. -/
def repeated : Nat → Fields
  | 0 => .nil
  | m + 1 => .here (.arr .bool) (repeated m)

/-- **C177, the product is reached**: with `m` fields that look at the whole value and an array of `n` booleans, exactly
`m (2 n + 2) + 2` steps are taken. -/
theorem C177_product (m n : Nat) :
    (SerialCost.validate (.struct 0 (repeated m)) (.arr (List.replicate n (.bool true)) : Value D)).run =
      .ok (.kOk, m * (2 * n + 2) + 2) := by
  have h1 : (SerialCost.elements (SerialCost.validate .bool) (List.replicate n (.bool true) : List (Value D))).run = .ok (.kOk, 2 * n) := by
    induction n with
    | zero => rfl
    | succ n ih =>
      rw [List.replicate_succ, SerialCost.elements]
      have := WriteCost.run_steps (k := 1) (f := fun _ => SerialCost.validate .bool (.bool true : Value D) >>= fun status =>
        if status ≠ .kOk then pure status else
          SerialCost.elements (SerialCost.validate .bool) (List.replicate n (.bool true) : List (Value D)))
        (WriteCost.run_bind (a := Status.kOk) (m := 1) rfl ih)
      rw [this, show 2 * (n + 1) = 1 + (1 + 2 * n) by omega]
  have h2 : ∀ m, (SerialCost.validateProto (repeated m) (.arr (List.replicate n (.bool true)) : Value D)).run =
      .ok (.kOk, m * (2 * n + 2) + 1) := by
    intro m
    induction m with
    | zero => simp only [Nat.zero_mul, Nat.zero_add]; rfl
    | succ m ih =>
      have h3 : (SerialCost.validate (.arr .bool) (.arr (List.replicate n (.bool true)) : Value D)).run = .ok (.kOk, 1 + 2 * n) :=
        WriteCost.run_steps h1
      rw [repeated, SerialCost.validateProto]
      have := WriteCost.run_steps (k := 1) (f := fun _ => SerialCost.validate (.arr .bool) (.arr (List.replicate n (.bool true)) : Value D) >>=
        fun status => if status ≠ .kOk then pure status else
          SerialCost.validateProto (repeated m) (.arr (List.replicate n (.bool true)) : Value D))
        (WriteCost.run_bind h3 ih)
      rw [this, show (m + 1) * (2 * n + 2) + 1 = 1 + (1 + 2 * n + (m * (2 * n + 2) + 1)) by rw [Nat.succ_mul]; omega]
  have := WriteCost.run_steps (k := 1) (f := fun _ =>
    SerialCost.validateProto (repeated m) (.arr (List.replicate n (.bool true)) : Value D)) (h2 m)
  rw [show m * (2 * n + 2) + 2 = 1 + (m * (2 * n + 2) + 1) by omega]
  exact this

/-- The steps of a finished computation. -/
def stepsOf {α : Type} (x : ParserCost.T α) : Option (α × Nat) :=
  match x.run with
  | .ok r => some r
  | _ => none

/-- `{"a": 7, "l": [true]}` is validated against a type with three fields, one of which is missing, in 31 steps. The size of the type is
21, and the document has four values. -/
example : stepsOf (SerialCost.validate sampleTy sampleDoc) = some (.kOk, 31) ∧ SerialCost.weight sampleTy = 21 ∧
    Value.count sampleDoc = 4 := ⟨rfl, rfl, rfl⟩

/-- The same document as a map of arrays is refused at the first member, in three steps. -/
example : stepsOf (SerialCost.validate (.map (.arr .bool)) sampleDoc) = some (.kInvalidValueType, 3) := rfl

end Verif.Props
