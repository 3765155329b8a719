import Verif.Model.WriteCost
import Verif.Lemmas.ParserCost
import Verif.Props.Footprint

/-!
# The time `Write` takes (C160)
-/

namespace Verif.WriteCost

open Verif Verif.Text Verif.Number Verif.Map Verif.Spec Verif.Parser Verif.Doc Verif.Write Verif.ParserCost

variable {D : Type}

theorem run_bind {α β : Type} {x : T α} {f : α → T β} {a : α} {b : β} {m n : Nat} (h : x.run = .ok (a, m)) (h' : (f a).run = .ok (b, n)) :
    (x >>= f).run = .ok (b, m + n) := by
  change (x.run >>= _) = _
  rw [h]
  change ((f a).run >>= _) = _
  rw [h']
  rfl

theorem run_steps {β : Type} {k : Nat} {f : Unit → T β} {b : β} {n : Nat} (h' : (f ()).run = .ok (b, n)) : (steps k >>= f).run = .ok (b, k + n) :=
  run_bind (a := ()) (m := k) rfl h'

theorem run_put {β : Type} {c : Bytes} {f : Unit → T β} {b : β} {n : Nat} (h' : (f ()).run = .ok (b, n)) :
    (put c >>= f).run = .ok (b, 2 * c.length + 2 + n) :=
  run_steps h'

theorem append_run {count reserved : Nat} (h : count ≤ reserved) :
    ∃ r n, (append count reserved).run = .ok (r, n) ∧ n + 2 * reserved ≤ 2 * r + 2 ∧ count + 1 ≤ r ∧ reserved ≤ r ∧
      r ≤ max reserved (2 * (count + 1) + 8) := by
  unfold append
  by_cases hc : count ≥ reserved
  · rw [if_pos hc]
    refine ⟨_, _, run_steps (run_steps rfl), ?_⟩
    unfold newReserved
    have : reserved = count := by omega
    subst this
    have := Nat.le_max_left (max (reserved + 1) 4) (reserved + max ((reserved / 2 + 3) / 4 * 4) 4)
    have := Nat.le_max_right (max (reserved + 1) 4) (reserved + max ((reserved / 2 + 3) / 4 * 4) 4)
    have := Nat.le_max_left (reserved + 1) 4
    have := Nat.le_max_left ((reserved / 2 + 3) / 4 * 4) 4
    have := Nat.le_max_right ((reserved / 2 + 3) / 4 * 4) 4
    have h1 : max (max (reserved + 1) 4) (reserved + max ((reserved / 2 + 3) / 4 * 4) 4) ≤ 2 * (reserved + 1) + 8 := by
      simp only [Nat.max_le]; omega
    have := Nat.le_max_right reserved (2 * (reserved + 1) + 8)
    generalize max (max (reserved + 1) 4) (reserved + max ((reserved / 2 + 3) / 4 * 4) 4) = r at *
    omega
  · rw [if_neg hc]
    refine ⟨_, _, run_steps rfl, ?_⟩
    have := Nat.le_max_left reserved (2 * (count + 1) + 8)
    omega

theorem expand_run (c : Byte) (n : Nat) : ∀ (ind : Bytes) (res : Nat), ind.length ≤ res →
    ∃ res' k, (expandArray c n ind res).run = .ok ((ind ++ List.replicate n c, res'), k) ∧ ind.length + n ≤ res' ∧ res ≤ res' ∧
      res' ≤ max res (2 * (ind.length + n) + 8) ∧ k + 2 * res ≤ 2 * n + 2 * res' := by
  induction n with
  | zero =>
    intro ind res h
    refine ⟨res, 0, ?_, by omega, by omega, by omega, by omega⟩
    simp [expandArray]; rfl
  | succ n ih =>
    intro ind res h
    obtain ⟨r, m, h1, h2, h3, h4, h5⟩ := append_run h
    obtain ⟨res', k, g1, g2, g3, g4, g5⟩ := ih (ind ++ [c]) r (by simpa using h3)
    simp only [List.length_append, List.length_cons, List.length_nil] at g2 g4
    refine ⟨res', m + k, ?_, by omega, by omega, by omega, by omega⟩
    rw [expandArray]
    refine run_bind h1 ?_
    rw [g1, List.append_assoc]
    rfl

theorem find_run {α : Type} (k : Bytes) (t : Tree Bytes α) : ∀ x, Map.findMapElement Text.nameLt k t = some x →
    ∃ n, (findMapElement k t).run = .ok (some x, n) ∧ n ≤ height t * (2 * (k.length + 1) + 1) := by
  induction t with
  | nil => intro x h; simp [Map.findMapElement] at h
  | node b l nk nv r ihl ihr =>
    intro x h
    rw [Map.findMapElement] at h
    rw [findMapElement]
    obtain ⟨m, h1, h2, -⟩ := nameLt_meets k nk
    obtain ⟨m', h1', -, h2'⟩ := nameLt_meets nk k
    have hle : height l * (2 * (k.length + 1) + 1) ≤ max (height l) (height r) * (2 * (k.length + 1) + 1) := Nat.mul_le_mul_right _ (by omega)
    have hre : height r * (2 * (k.length + 1) + 1) ≤ max (height l) (height r) * (2 * (k.length + 1) + 1) := Nat.mul_le_mul_right _ (by omega)
    have he : height (.node b l nk nv r) * (2 * (k.length + 1) + 1) =
        max (height l) (height r) * (2 * (k.length + 1) + 1) + (2 * (k.length + 1) + 1) := by
      rw [height, Nat.add_comm, Nat.succ_mul]
    by_cases hc : Text.nameLt k nk = true
    · rw [if_pos hc] at h
      obtain ⟨n, g1, g2⟩ := ihl x h
      exact ⟨_, run_steps (run_bind h1 (by rw [if_pos hc]; exact g1)), by omega⟩
    · rw [if_neg hc] at h
      by_cases hc' : Text.nameLt nk k = true
      · rw [if_pos hc'] at h
        obtain ⟨n, g1, g2⟩ := ihr x h
        exact ⟨_, run_steps (run_bind h1 (by rw [if_neg hc]; exact run_bind h1' (by rw [if_pos hc']; exact g1))), by omega⟩
      · rw [if_neg hc'] at h
        cases h
        exact ⟨_, run_steps (run_bind h1 (by rw [if_neg hc]; exact run_bind h1' (by rw [if_neg hc']; rfl))), by omega⟩

/-- The maps of the document have at most this height, and its names contain no NUL. -/
def Fit (hb : Nat) (v : Value D) : Prop :=
  ∀ path m o, walk v path = some (.obj m o) → height m ≤ hb ∧ ∀ k x, Map.findMapElement nameLt k m = some x → (0 : Byte) ∉ k

theorem Fit.step {hb : Nat} {v v' : Value D} {s : Step} (h : Fit hb v) (hs : step v s = some v') : Fit hb v' := by
  intro path m o hx
  exact h (s :: path) m o (by simp [walk, hs, hx])

/-- What is shown for one value: the same result, and a bound. -/
def Runs (W il : Nat) (w : Bytes → Value D → Out WRes) (w' : Bytes → Nat → Value D → T (WRes × Nat)) (v : Value D) : Prop :=
  ∀ ind res r, ind.length ≤ res → w ind v = .ok r → r.status = .kOk →
    ∃ res' k, (w' ind res v).run = .ok ((r, res'), k) ∧ r.indent = ind ∧ res ≤ res' ∧
      res' ≤ max res (2 * (ind.length + il + r.chunks.flatten.length) + 8) ∧
      2 * r.chunks.flatten.length ≤ k ∧ k + 12 + 2 * res ≤ W * (r.chunks.flatten.length + 1) + 2 * res'

theorem elems_run {W il : Nat} (hW : 40 ≤ W) (w : Bytes → Value D → Out WRes) (w' : Bytes → Nat → Value D → T (WRes × Nat)) (l : List (Value D))
    (h : ∀ v ∈ l, Runs W il w w' v) : ∀ ind res r, ind.length ≤ res → Write.writeElems w l ind = .ok r → r.status = .kOk →
    ∃ res' k, (writeElems w' l ind res).run = .ok ((r, res'), k) ∧ r.indent = ind ∧ res ≤ res' ∧
      res' ≤ max res (2 * (il + r.chunks.flatten.length) + 8) ∧
      2 * r.chunks.flatten.length ≤ k ∧ k + 2 * res ≤ W * r.chunks.flatten.length + 2 * res' := by
  induction l with
  | nil =>
    intro ind res r hr e _
    cases e
    exact ⟨res, 0, rfl, rfl, by omega, by omega, by simp, by omega⟩
  | cons v vs ih =>
    intro ind res r hr e hs
    rw [Write.writeElems, Out.bind_eq_ok] at e
    obtain ⟨r1, e1, e2⟩ := e
    by_cases hc : r1.status ≠ .kOk
    · rw [if_pos hc] at e2
      cases e2
      exact absurd hs hc
    · rw [if_neg hc, Out.bind_eq_ok] at e2
      obtain ⟨r2, e2, e3⟩ := e2
      cases e3
      obtain ⟨res1, k1, g1, g2, g3, g4, g0, g5⟩ := h v (by simp) ind res r1 hr e1 (Classical.not_not.1 hc)
      rw [g2] at e2
      obtain ⟨res2, k2, f1, f2, f3, f4, f6, f5⟩ := ih (fun u hu => h u (by simp [hu])) ind res1 r2 (by omega) e2 hs
      refine ⟨res2, 2 * ind.length + 2 + (k1 + (2 * (if vs.isEmpty then ([] : Bytes) else [0x2C]).length + 2 + (2 * 1 + 2 + (k2 + 0)))), ?_, f2, by omega, ?_, ?_, ?_⟩
      · rw [writeElems]
        apply run_put
        apply run_bind g1
        simp only [if_neg hc]
        apply run_put
        apply run_put
        rw [g2]
        exact run_bind f1 rfl
      · simp only [List.flatten_cons, List.flatten_append, List.length_append, List.length_cons, List.length_nil]
        omega
      · simp only [List.flatten_cons, List.flatten_append, List.length_append, List.length_cons, List.length_nil]
        omega
      · simp only [List.flatten_cons, List.flatten_append, List.length_append, List.length_cons, List.length_nil]
        have hi : 40 * ind.length ≤ W * ind.length := Nat.mul_le_mul_right _ hW
        have hx : (if vs.isEmpty then ([] : Bytes) else [0x2C]).length ≤ 1 := by split <;> simp
        have hx' : 0 ≤ W * (if vs.isEmpty then ([] : Bytes) else [0x2C]).length := Nat.zero_le _
        generalize (if vs.isEmpty then ([] : Bytes) else [0x2C]).length = x at *
        simp only [Nat.mul_add, Nat.mul_one] at *
        omega

theorem members_run {W il hb : Nat} (hW : 40 + 2 * hb ≤ W) (w : Bytes → Value D → Out WRes) (w' : Bytes → Nat → Value D → T (WRes × Nat))
    (t : Tree Bytes (Value D)) (ht : height t ≤ hb) (hk : ∀ k x, Map.findMapElement nameLt k t = some x → (0 : Byte) ∉ k)
    (h : ∀ k x, Map.findMapElement nameLt k t = some x → Runs W il w w' x.2) (names : List Bytes) :
    ∀ ind res r, ind.length ≤ res → Write.writeMembers w t names ind = .ok r → r.status = .kOk →
    ∃ res' k, (writeMembers w' t names ind res).run = .ok ((r, res'), k) ∧ r.indent = ind ∧ res ≤ res' ∧
      res' ≤ max res (2 * (il + r.chunks.flatten.length) + 8) ∧
      2 * r.chunks.flatten.length ≤ k ∧ k + 2 * res ≤ W * r.chunks.flatten.length + 2 * res' := by
  induction names with
  | nil =>
    intro ind res r hr e _
    cases e
    exact ⟨res, 0, rfl, rfl, by omega, by omega, by simp, by omega⟩
  | cons name names ih =>
    intro ind res r hr e hs
    rw [Write.writeMembers] at e
    cases hf : Map.findMapElement nameLt name t with
    | none => rw [hf] at e; cases e; cases hs
    | some x =>
      obtain ⟨key, v⟩ := x
      have hkey : key = name := find_key hf
      subst hkey
      rw [hf] at e
      simp only at e
      rw [Out.bind_eq_ok] at e
      obtain ⟨r1, e1, e2⟩ := e
      by_cases hc : r1.status ≠ .kOk
      · rw [if_pos hc] at e2
        cases e2
        exact absurd hs hc
      · rw [if_neg hc, Out.bind_eq_ok] at e2
        obtain ⟨r2, e2, e3⟩ := e2
        cases e3
        obtain ⟨k0, f0, f0'⟩ := find_run key t _ hf
        obtain ⟨res1, k1, g1, g2, g3, g4, g0, g5⟩ := h key _ hf ind res r1 hr e1 (Classical.not_not.1 hc)
        rw [g2] at e2
        obtain ⟨res2, k2, f1, f2, f3, f4, f6, f5⟩ := ih ind res1 r2 (by omega) e2 hs
        refine ⟨res2, k0 + (2 * ind.length + 2 + (2 * 1 + 2 + (2 * (cText key).length + 2 + (2 * 4 + 2 + (k1 + (2 * (if names.isEmpty then ([] : Bytes) else [0x2C]).length + 2 + (2 * 1 + 2 + (k2 + 0)))))))), ?_, f2, by omega, ?_, ?_, ?_⟩
        · rw [writeMembers]
          apply run_bind f0
          apply run_put
          apply run_put
          apply run_put
          apply run_put
          apply run_bind g1
          simp only [if_neg hc]
          apply run_put
          apply run_put
          rw [g2]
          exact run_bind f1 rfl
        · simp only [List.flatten_cons, List.flatten_append, List.length_append, List.length_cons, List.length_nil]
          omega
        · simp only [List.flatten_cons, List.flatten_append, List.length_append, List.length_cons, List.length_nil]
          omega
        · simp only [List.flatten_cons, List.flatten_append, List.length_append, List.length_cons, List.length_nil,
            cText_nul_free (hk key _ hf)]
          have hi : 40 * ind.length ≤ W * ind.length := Nat.mul_le_mul_right _ (by omega)
          have hl : (40 + 2 * hb) * (key.length + 5) ≤ W * (key.length + 5) := Nat.mul_le_mul_right _ hW
          have hh : height t * (2 * (key.length + 1) + 1) ≤ hb * (2 * (key.length + 1) + 1) := Nat.mul_le_mul_right _ ht
          have hm : hb * (2 * (key.length + 1) + 1) ≤ 2 * hb * (key.length + 5) := by
            rw [Nat.mul_comm 2 hb, Nat.mul_assoc]
            exact Nat.mul_le_mul_left _ (by omega)
          have hx : (if names.isEmpty then ([] : Bytes) else [0x2C]).length ≤ 1 := by split <;> simp
          have hx' : 0 ≤ W * (if names.isEmpty then ([] : Bytes) else [0x2C]).length := Nat.zero_le _
          generalize (if names.isEmpty then ([] : Bytes) else [0x2C]).length = x at *
          generalize height t * (2 * (key.length + 1) + 1) = y at *
          generalize hb * (2 * (key.length + 1) + 1) = z at *
          rw [Nat.add_mul] at hl
          generalize 2 * hb * (key.length + 5) = u at *
          simp only [Nat.mul_add, Nat.mul_one] at *
          omega

theorem value_run (N : NumOps D) (hfmt : ∀ x, (0 : Byte) ∉ N.fmt x) {W hb : Nat} (il : Nat) (ic : Byte) (hW : 40 + 2 * hb + 3 * il ≤ W) (n : Nat) :
    ∀ v : Value D, Fit hb v → Runs W il (Write.writeValue N il ic n) (writeValue N il ic n) v := by
  induction n with
  | zero => intro v _ ind res r _ e; cases e
  | succ n ih =>
    intro v hv ind res r hr e hs
    have hW' : 40 ≤ W := by omega
    cases v with
    | str s =>
      cases e
      refine ⟨res, _, run_put (run_put (run_put rfl)), rfl, by omega, by omega, ?_, ?_⟩
      · simp; omega
      simp only [List.flatten_cons, List.flatten_nil, List.length_append, List.length_cons, List.length_nil]
      have : 40 * (cText s).length ≤ W * (cText s).length := Nat.mul_le_mul_right _ hW'
      simp only [Nat.mul_add, Nat.mul_one]
      omega
    | num x =>
      cases e
      refine ⟨res, _, run_steps (run_put rfl), rfl, by omega, by omega, ?_, ?_⟩
      · simp; omega
      rw [cText_nul_free (hfmt x)]
      simp only [List.flatten_cons, List.flatten_nil, List.length_append, List.length_nil]
      have : 40 * (N.fmt x).length ≤ W * (N.fmt x).length := Nat.mul_le_mul_right _ hW'
      simp only [Nat.mul_add, Nat.mul_one]
      omega
    | bool b =>
      cases b <;> cases e <;> refine ⟨res, _, run_put rfl, rfl, by omega, by omega, ?_, ?_⟩ <;>
      · simp only [List.flatten_cons, List.flatten_nil, List.length_append, List.length_cons, List.length_nil]
        omega
    | null =>
      cases e
      refine ⟨res, _, run_put rfl, rfl, by omega, by omega, ?_, ?_⟩
      · simp
      simp only [List.flatten_cons, List.flatten_nil, List.length_append, List.length_cons, List.length_nil]
      omega
    | arr data =>
      simp only [Write.writeValue] at e
      rw [Out.bind_eq_ok] at e
      obtain ⟨r1, e1, e2⟩ := e
      by_cases hc : r1.status ≠ .kOk
      · rw [if_pos hc] at e2
        cases e2
        exact absurd hs hc
      · rw [if_neg hc] at e2
        cases e2
        obtain ⟨res1, k1, g1, g2, g3, g4, g5⟩ := expand_run ic il ind res hr
        obtain ⟨res2, k2, f1, f2, f3, f4, f6, f5⟩ := elems_run (il := il) hW' _ (writeValue N il ic n) data
          (fun v hm => by
            obtain ⟨i, hi⟩ := List.getElem?_of_mem hm
            exact ih v (hv.step (s := .index i) hi)) _ res1 r1 (by simpa using g2) e1 (Classical.not_not.1 hc)
        have hb : r1.indent.take (r1.indent.length - il) = ind := by rw [f2]; exact take_back ind il ic
        refine ⟨res2, 2 * 2 + 2 + (k1 + (k2 + (il + 1 + (2 * ind.length + 2 + (2 * 1 + 2 + 0))))), ?_, hb, by omega, ?_, ?_, ?_⟩
        · rw [writeValue]
          apply run_put
          apply run_bind g1
          apply run_bind f1
          simp only [if_neg hc, hb]
          apply run_steps
          apply run_put
          apply run_put
          rfl
        · simp only [hb, List.flatten_cons, List.flatten_append, List.length_append, List.length_cons, List.length_nil, List.flatten_nil]
          omega
        · simp only [hb, List.flatten_cons, List.flatten_append, List.length_append, List.length_cons, List.length_nil, List.flatten_nil]
          omega
        · simp only [hb, List.flatten_cons, List.flatten_append, List.length_append, List.length_cons, List.length_nil, List.flatten_nil]
          have hi : 40 * ind.length ≤ W * ind.length := Nat.mul_le_mul_right _ hW'
          simp only [Nat.mul_add, Nat.mul_one] at *
          omega
    | obj m o =>
      simp only [Write.writeValue] at e
      rw [Out.bind_eq_ok] at e
      obtain ⟨r1, e1, e2⟩ := e
      by_cases hc : r1.status ≠ .kOk
      · rw [if_pos hc] at e2
        cases e2
        exact absurd hs hc
      · rw [if_neg hc] at e2
        cases e2
        obtain ⟨res1, k1, g1, g2, g3, g4, g5⟩ := expand_run ic il ind res hr
        obtain ⟨hm1, hm2⟩ := hv [] m o rfl
        obtain ⟨res2, k2, f1, f2, f3, f4, f6, f5⟩ := members_run (il := il) (hb := hb) (by omega) _ (writeValue N il ic n) m hm1 hm2
          (fun k x hx => ih x.2 (hv.step (s := .member k) (by simp [step, hx]))) o _ res1 r1 (by simpa using g2) e1 (Classical.not_not.1 hc)
        have hb' : r1.indent.take (r1.indent.length - il) = ind := by rw [f2]; exact take_back ind il ic
        refine ⟨res2, 2 * 2 + 2 + (k1 + (k2 + (il + 1 + (2 * ind.length + 2 + (2 * 1 + 2 + 0))))), ?_, hb', by omega, ?_, ?_, ?_⟩
        · rw [writeValue]
          apply run_put
          apply run_bind g1
          apply run_bind f1
          simp only [if_neg hc, hb']
          apply run_steps
          apply run_put
          apply run_put
          rfl
        · simp only [hb', List.flatten_cons, List.flatten_append, List.length_append, List.length_cons, List.length_nil, List.flatten_nil]
          omega
        · simp only [hb', List.flatten_cons, List.flatten_append, List.length_append, List.length_cons, List.length_nil, List.flatten_nil]
          omega
        · simp only [hb', List.flatten_cons, List.flatten_append, List.length_append, List.length_cons, List.length_nil, List.flatten_nil]
          have hi : 40 * ind.length ≤ W * ind.length := Nat.mul_le_mul_right _ hW'
          simp only [Nat.mul_add, Nat.mul_one] at *
          omega

theorem first_size (m : JM) (k : Bytes) (j : J) (h : m.first k = some j) : j.size ≤ m.size ∧ ∀ s ∈ j.strs, s ∈ m.strs := by
  induction m using jm_ind with
  | nil => cases h
  | cons k' j' m ih =>
    rw [JM.first] at h
    simp only [JM.size, JM.strs, List.mem_cons, List.mem_append]
    by_cases hk : k' = k
    · rw [if_pos hk] at h
      cases h
      exact ⟨by omega, fun s hs => .inr (.inl hs)⟩
    · rw [if_neg hk] at h
      exact ⟨by have := (ih h).1; omega, fun s hs => .inr (.inr ((ih h).2 s hs))⟩

theorem get_size (l : JL) (i : Nat) (j : J) (h : l.get i = some j) : j.size ≤ l.size ∧ ∀ s ∈ j.strs, s ∈ l.strs := by
  induction l using jl_ind generalizing i with
  | nil => cases h
  | cons j' l ih =>
    simp only [JL.size, JL.strs, List.mem_append]
    cases i with
    | zero => cases h; exact ⟨by omega, fun s hs => .inl hs⟩
    | succ i => exact ⟨by have := (ih i h).1; omega, fun s hs => .inr ((ih i h).2 s hs)⟩

theorem walk_size (p : List Step) : ∀ (j j' : J), j.walk p = some j' → j'.size ≤ j.size ∧ ∀ s ∈ j'.strs, s ∈ j.strs := by
  induction p with
  | nil => intro j j' h; cases h; exact ⟨Nat.le_refl _, fun s hs => hs⟩
  | cons s p ih =>
    intro j j' h
    rw [J.walk, Option.bind_eq_some_iff] at h
    obtain ⟨j1, h1, h2⟩ := h
    obtain ⟨g1, g2⟩ := ih j1 j' h2
    have : j1.size ≤ j.size ∧ ∀ s ∈ j1.strs, s ∈ j.strs := by
      cases j <;> cases s <;> simp only [J.step, reduceCtorEq] at h1
      · have := get_size _ _ _ h1
        exact ⟨by simp only [J.size]; omega, this.2⟩
      · have := first_size _ _ _ h1
        exact ⟨by simp only [J.size]; omega, this.2⟩
    exact ⟨by omega, fun s hs => this.2 s (g2 s hs)⟩

theorem names_strs (m : JM) : ∀ k ∈ m.names, k ∈ m.strs := by
  induction m using jm_ind with
  | nil => simp [JM.names]
  | cons k' j m ih =>
    intro k hk
    simp only [JM.names, List.mem_cons] at hk
    simp only [JM.strs, List.mem_cons, List.mem_append]
    rcases hk with rfl | hk
    · exact .inl rfl
    · exact .inr (.inr (ih k hk))

theorem size_count (t : Tree Bytes (Value D)) : size t ≤ Props.countT t := by
  induction t with
  | nil => exact Nat.le_refl _
  | node b l k v r ihl ihr =>
    have : 1 ≤ Props.Value.count v := by cases v <;> simp [Props.Value.count]
    simp only [size, Props.countT]
    omega

theorem fit_interp (N : NumOps D) {j : J} {n : Nat} (hn : j.size ≤ n) (hs : ∀ s ∈ j.strs, (0 : Byte) ∉ s) :
    Fit (2 * (Nat.log2 (n + 1) + 1)) (interp N j) := by
  intro path m o h
  rw [walk_interp, Option.map_eq_some_iff] at h
  obtain ⟨j', h1, h2⟩ := h
  obtain ⟨g1, g2⟩ := walk_size path j j' h1
  cases j' <;> simp only [interp, reduceCtorEq] at h2
  rename_i jm
  cases h2
  have hc := (Props.interpM_size N jm .nil treeOk_nil).1
  have hz := size_count (interpM N jm (.nil : Tree Bytes (Value D)))
  simp only [Props.countT, J.size] at hc g1
  refine ⟨height_le ⟨_, mapInv_obj N jm⟩ (by omega), ?_⟩
  intro k x hx
  rw [find_interpM, Option.map_eq_some_iff] at hx
  obtain ⟨j1, hf, -⟩ := hx
  exact hs _ (g2 _ (names_strs jm k ((first_isSome jm k).1 (by rw [hf]; rfl))))

end Verif.WriteCost

namespace Verif.Props

open Verif Verif.Text Verif.Number Verif.Map Verif.Spec Verif.Parser Verif.Doc Verif.Write Verif.ParserCost

variable {D : Type}

/-- **C160.** Writing a document which was read from a buffer of `n` bytes takes a number of steps which is at most proportional to the number of bytes
written, to the logarithm of `n` and to the number of characters of the indentation. -/
theorem C160_time (N : NumOps D) (hN : NegLaw N) (hfmt : ∀ x, (0 : Byte) ∉ N.fmt x) (il : Nat) (ic : Byte) (buf : Bytes) (v : Value D)
    (h : Accepts N buf v) :
    ∃ fuel r capacity k, (WriteCost.writeValue N il ic fuel [] 0 v).run = .ok ((r, capacity), k) ∧ r.status = .kOk ∧
      Emits N il ic v r.chunks.flatten ∧ capacity ≤ 2 * (il + r.chunks.flatten.length) + 8 ∧
      2 * r.chunks.flatten.length ≤ k ∧ k ≤ (4 * Nat.log2 buf.length + 3 * il + 50) * (r.chunks.flatten.length + 1) + 4 * (il + r.chunks.flatten.length) + 4 := by
  obtain ⟨h3, hl, j, hj, rfl⟩ := (accepts_iff N hN buf v).1 h
  obtain ⟨h1, -⟩ := text_light hj
  have hc : (cstr buf).length ≤ buf.length := (List.takeWhile_sublist _).length_le
  obtain ⟨w1, tok, w2, -, hv, -, -⟩ := hj
  obtain ⟨n, r, e, hs, -⟩ := emits_layout N hfmt hv il ic
  have hf : WriteCost.Fit (2 * (Nat.log2 buf.length + 1)) (interp N j) := by
    have := WriteCost.fit_interp N (j := j) (n := buf.length - 1) (by omega) (by
      intro s hs
      obtain ⟨tok, items, hi, -, rfl⟩ := val_strs hv s hs
      simp only [utf8s, plainCodes, List.map_map, List.mem_flatten, List.mem_map, not_exists, not_and]
      rintro l ⟨i, hx, rfl⟩
      obtain ⟨c, e, h1, h2⟩ := (hi i hx).code
      simp only [Function.comp_apply, e, Option.getD_some]
      exact utf8_nul_free _ h1 h2)
    rwa [Nat.sub_add_cancel (by omega)] at this
  obtain ⟨res, k, g1, g2, g3, g4, g0, g5⟩ := WriteCost.value_run N hfmt (W := 4 * Nat.log2 buf.length + 3 * il + 50) il ic (by omega) n _ hf [] 0 r
    (by simp) e hs
  simp only [List.length_nil, Nat.zero_add] at g4
  exact ⟨n, r, res, k, g1, hs, ⟨n, r, e, hs, rfl⟩, by omega, g0, by omega⟩

/-- An object with an array, indented by four: 61 bytes are written in 216 steps. -/
example :
    (match Doc.parseBuffer { decOps with fmt := fun _ => [0x31, 0x32] } none
        [0x7B, 0x22, 0x62, 0x22, 0x3A, 0x5B, 0x31, 0x2C, 0x22, 0x78, 0x22, 0x5D, 0x2C, 0x22, 0x61, 0x22, 0x3A, 0x74, 0x72, 0x75, 0x65, 0x7D, 0] with
      | .ok (_, some v) =>
          (match (WriteCost.writeValue { decOps with fmt := fun _ => [0x31, 0x32] } 4 0x20 9 [] 0 v).run with
            | .ok ((r, capacity), k) => some (r.status, r.chunks.flatten.length, capacity, k)
            | _ => none)
      | _ => none) = some (.kOk, 61, 8, 216) := by
  decide +kernel

end Verif.Props
