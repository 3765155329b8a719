import Verif.Lemmas.Spacing
import Verif.Lemmas.WriteBuiltin
import Verif.Props.Binary64

/-!
# Texts with words that are not JSON

A scanner that watches the letters `n` and `N` outside of strings: in a text that `Parse` accepts, every `n` outside of strings is followed by `u`,
and there is no `N`. This is not so in `inf`, `nan`, `INF` and `NAN`.
-/

namespace Verif.Watch

open Verif Verif.Map Verif.Text Verif.Number Verif.Parser Verif.Doc Verif.Write Verif.Spec Verif.Props

/-- Outside of strings; after `n`; in a string; after a backslash in a string. -/
inductive Mode where
  | out
  | en
  | str
  | esc
  deriving DecidableEq

/-- The next byte. `none`: a word that is not JSON. -/
def next : Mode → Byte → Option Mode
  | .out, c => if c = 0x22 then some .str else if c = 0x6E then some .en else if c = 0x4E then none else some .out
  | .en, c => if c = 0x75 then some .out else none
  | .str, c => if c = 0x22 then some .out else if c = 0x5C then some .esc else some .str
  | .esc, _ => some .str

/-- All bytes. -/
def watch : Mode → Bytes → Option Mode
  | m, [] => some m
  | m, c :: t => (next m c).bind fun m => watch m t

theorem watch_append (m : Mode) (a b : Bytes) : watch m (a ++ b) = (watch m a).bind fun m => watch m b := by
  induction a generalizing m with
  | nil => rfl
  | cons c a ih =>
    simp only [List.cons_append, watch]
    cases next m c with
    | none => rfl
    | some m' => simp [ih]

/-- The text is noticed exactly if `p`. -/
def Noticed (t : Bytes) (p : Prop) : Prop := (p → watch .out t = none) ∧ (¬ p → watch .out t = some .out)

theorem Noticed.append {a b : Bytes} {p q : Prop} (ha : Noticed a p) (hb : Noticed b q) : Noticed (a ++ b) (p ∨ q) := by
  refine ⟨fun h => ?_, fun h => ?_⟩
  · rw [watch_append]
    by_cases hp : p
    · rw [ha.1 hp]; rfl
    · rw [ha.2 hp]
      exact hb.1 (h.resolve_left hp)
  · rw [watch_append, ha.2 fun x => h (.inl x)]
    exact hb.2 fun x => h (.inr x)

theorem Noticed.iff {t : Bytes} {p q : Prop} (h : Noticed t p) (e : p ↔ q) : Noticed t q :=
  ⟨fun x => h.1 (e.2 x), fun x => h.2 fun y => x (e.1 y)⟩

theorem Noticed.wrap {a t b : Bytes} {p : Prop} (ha : Noticed a False) (h : Noticed t p) (hb : Noticed b False) :
    Noticed (a ++ (t ++ b)) p := (ha.append (h.append hb)).iff (by simp)

theorem quiet {t : Bytes} (h : ∀ c ∈ t, c ≠ 0x22 ∧ c ≠ 0x6E ∧ c ≠ 0x4E) : Noticed t False := by
  refine ⟨False.elim, fun _ => ?_⟩
  induction t with
  | nil => rfl
  | cons c t ih =>
    obtain ⟨h1, h2, h3⟩ := h c (by simp)
    simp only [watch, next, h1, h2, h3, if_false, Option.bind_some]
    exact ih fun x hx => h x (by simp [hx])

theorem quiet_ws {w : Bytes} (h : Ws w) : Noticed w False := by
  apply quiet
  intro c hc
  rcases h c hc with rfl | rfl | rfl | rfl <;> decide

theorem quiet_numChar {c : Byte} (h : NumChar c) : c ≠ 0x22 ∧ c ≠ 0x6E ∧ c ≠ 0x4E := by
  have : ∀ a : Byte, ¬ NumChar a → c ≠ a := fun a ha e => ha (e ▸ h)
  refine ⟨this _ ?_, this _ ?_, this _ ?_⟩ <;> simp [NumChar, Digit]

theorem quiet_num {t : Bytes} {d : Dec} (h : DialNum t d) : Noticed t False := by
  have run {r : Bytes} (h : ∀ c ∈ r, NumChar c) : Noticed r False := quiet fun c hc => quiet_numChar (h c hc)
  cases h with
  | plain h1 => exact run h1
  | plus hw h1 =>
    exact Noticed.wrap (a := [0x2B]) (quiet (by decide)) (quiet_ws hw) (run h1)
  | minus hw h1 =>
    exact Noticed.wrap (a := [0x2D]) (quiet (by decide)) (quiet_ws hw) (run h1)

theorem watch_plain {x : Bytes} (h : ∀ c ∈ x, c ≠ 0x22 ∧ c ≠ 0x5C) : watch .str x = some .str := by
  induction x with
  | nil => rfl
  | cons c x ih =>
    obtain ⟨h1, h2⟩ := h c (by simp)
    simp only [watch, next, h1, h2, if_false, Option.bind_some]
    exact ih fun y hy => h y (by simp [hy])

theorem watch_item {i : SItem} (h : DialItem i) : watch .str i.raw = some .str := by
  cases i with
  | lit cp => exact watch_plain (Parser.utf8_bytes h.1 h.2.2.1 h.2.2.2.1)
  | esc c => simp [SItem.raw, watch, next]
  | uni a b c e =>
    obtain ⟨x, hx, -⟩ := h
    simp only [SItem.code, Option.bind_eq_bind, Option.bind_eq_some_iff] at hx
    obtain ⟨x1, h1, x2, h2, x3, h3, x4, h4, -⟩ := hx
    have := watch_plain (x := [a, b, c, e]) (by
      intro y hy
      simp only [List.mem_cons, List.not_mem_nil, or_false] at hy
      rcases hy with rfl | rfl | rfl | rfl
      · exact Parser.hex_plain h1
      · exact Parser.hex_plain h2
      · exact Parser.hex_plain h3
      · exact Parser.hex_plain h4)
    simp only [SItem.raw]
    have e1 : next .str 0x5C = some .esc := rfl
    rw [watch, e1, Option.bind_some, watch]
    simpa [next] using this

theorem quiet_str {t s : Bytes} (h : DialStr t s) : Noticed t False := by
  obtain ⟨items, hi, rfl, -⟩ := h
  refine ⟨False.elim, fun _ => ?_⟩
  have gen : ∀ items : List SItem, (∀ i ∈ items, DialItem i) →
      watch .str ((items.map SItem.raw).flatten ++ [0x22]) = some .out := by
    intro items
    induction items with
    | nil => intro _; rfl
    | cons i is ih =>
      intro h
      rw [show (List.map SItem.raw (i :: is)).flatten ++ [0x22] =
        i.raw ++ ((List.map SItem.raw is).flatten ++ [0x22]) by simp, watch_append, watch_item (h i (by simp)), Option.bind_some]
      exact ih fun y hy => h y (by simp [hy])
  have e1 : next .out 0x22 = some .str := rfl
  rw [watch, e1, Option.bind_some]
  exact gen items hi

/-! ## Accepted texts -/

theorem quiet_val {t : Bytes} {j : J} (h : Val DialNum DialStr t j) : Noticed t False := by
  have word {a : Bytes} (h : ∀ c ∈ a, c ≠ 0x22 ∧ c ≠ 0x6E ∧ c ≠ 0x4E) : Noticed a False := quiet h
  have two {a b : Bytes} (ha : Noticed a False) (hb : Noticed b False) : Noticed (a ++ b) False := (ha.append hb).iff (by simp)
  have close (o c : Byte) (ho : o ≠ 0x22 ∧ o ≠ 0x6E ∧ o ≠ 0x4E) (hc : c ≠ 0x22 ∧ c ≠ 0x6E ∧ c ≠ 0x4E) {t : Bytes} (h : Noticed t False) :
      Noticed (o :: (t ++ [c])) False :=
    Noticed.wrap (a := [o]) (quiet (by simpa using ho)) h (quiet (by simpa using hc))
  have sep (c : Byte) (hc : c ≠ 0x22 ∧ c ≠ 0x6E ∧ c ≠ 0x4E) {t : Bytes} (h : Noticed t False) : Noticed (c :: t) False :=
    two (a := [c]) (quiet (by simpa using hc)) h
  refine Val.rec (motive_1 := fun t j _ => Noticed t False) (motive_2 := fun t l _ => Noticed t False)
    (motive_3 := fun t m _ => Noticed t False)
    ?_ ?_ ?_ ?_ ?_ ?_ ?_ ?_ ?_ ?_ ?_ ?_ ?_ h
  · exact ⟨False.elim, fun _ => rfl⟩
  · exact word (by decide)
  · exact word (by decide)
  · intro t d h; exact quiet_num h
  · intro t s h; exact quiet_str h
  · intro w hw; exact close _ _ (by decide) (by decide) (quiet_ws hw)
  · intro t l _ h; exact close _ _ (by decide) (by decide) h
  · intro w hw; exact close _ _ (by decide) (by decide) (quiet_ws hw)
  · intro t l _ h; exact close _ _ (by decide) (by decide) h
  · intro w1 t w2 j hw1 _ hw2 h; exact two (quiet_ws hw1) (two h (quiet_ws hw2))
  · intro w1 t w2 j ts l hw1 _ hw2 _ h h'; exact two (quiet_ws hw1) (two h (two (quiet_ws hw2) (sep _ (by decide) h')))
  · intro w1 n w2 w3 t w4 s j hw1 hn hw2 hw3 _ hw4 h
    exact two (quiet_ws hw1) (two (quiet_str hn) (two (quiet_ws hw2) (sep _ (by decide) (two (quiet_ws hw3) (two h (quiet_ws hw4))))))
  · intro w1 n w2 w3 t w4 s j ts m hw1 hn hw2 hw3 _ hw4 _ h h'
    exact two (quiet_ws hw1) (two (quiet_str hn) (two (quiet_ws hw2) (sep _ (by decide) (two (quiet_ws hw3) (two h (two (quiet_ws hw4)
      (sep _ (by decide) h')))))))

theorem quiet_text {t : Bytes} {j : J} (h : DialText t j) : watch .out t = some .out := by
  obtain ⟨w1, v, w2, h1, h2, h3, rfl⟩ := h
  exact (Noticed.wrap (quiet_ws h1) (quiet_val h2) (quiet_ws h3)).2 id

/-! ## Written texts -/

mutual
/-- A number of the syntax tree has the property. -/
def Has {ν : Type} (p : ν → Prop) : Syn ν → Prop
  | .num x => p x
  | .arr l => HasL p l
  | .obj m => HasM p m
  | _ => False
/-- The same for elements. -/
def HasL {ν : Type} (p : ν → Prop) : SynL ν → Prop
  | .nil => False
  | .cons j l => Has p j ∨ HasL p l
/-- The same for members. -/
def HasM {ν : Type} (p : ν → Prop) : SynM ν → Prop
  | .nil => False
  | .cons _ j m => Has p j ∨ HasM p m
end

theorem noticed_val {ν : Type} {nt : Bytes → ν → Prop} (p : ν → Prop) (hn : ∀ t x, nt t x → Noticed t (p x)) {t : Bytes} {j : Syn ν}
    (h : SVal nt DialStr t j) : Noticed t (Has p j) := by
  have close (o c : Byte) (ho : o ≠ 0x22 ∧ o ≠ 0x6E ∧ o ≠ 0x4E) (hc : c ≠ 0x22 ∧ c ≠ 0x6E ∧ c ≠ 0x4E) {t : Bytes} {q : Prop} (h : Noticed t q) :
      Noticed (o :: (t ++ [c])) q :=
    Noticed.wrap (a := [o]) (quiet (by simpa using ho)) h (quiet (by simpa using hc))
  have left {a b : Bytes} {q : Prop} (ha : Noticed a False) (hb : Noticed b q) : Noticed (a ++ b) q := (ha.append hb).iff (by simp)
  have sep (c : Byte) (hc : c ≠ 0x22 ∧ c ≠ 0x6E ∧ c ≠ 0x4E) {t : Bytes} {q : Prop} (h : Noticed t q) : Noticed (c :: t) q :=
    left (a := [c]) (quiet (by simpa using hc)) h
  have right {a b : Bytes} {q : Prop} (ha : Noticed a q) (hb : Noticed b False) : Noticed (a ++ b) q := (ha.append hb).iff (by simp)
  refine SVal.rec (motive_1 := fun t j _ => Noticed t (Has p j)) (motive_2 := fun t l _ => Noticed t (HasL p l))
    (motive_3 := fun t m _ => Noticed t (HasM p m))
    ?_ ?_ ?_ ?_ ?_ ?_ ?_ ?_ ?_ ?_ ?_ ?_ ?_ h
  · exact ⟨fun h => (by simp [Has] at h), fun _ => rfl⟩
  · exact (quiet (by decide)).iff (by simp [Has])
  · exact (quiet (by decide)).iff (by simp [Has])
  · intro t d h; exact (hn t d h).iff (by simp [Has])
  · intro t s h; exact (quiet_str h).iff (by simp [Has])
  · intro w hw; exact (close _ _ (by decide) (by decide) (quiet_ws hw)).iff (by simp [Has, HasL])
  · intro t l _ h; exact (close _ _ (by decide) (by decide) h).iff (by simp [Has])
  · intro w hw; exact (close _ _ (by decide) (by decide) (quiet_ws hw)).iff (by simp [Has, HasM])
  · intro t l _ h; exact (close _ _ (by decide) (by decide) h).iff (by simp [Has])
  · intro w1 t w2 j hw1 _ hw2 h; exact (left (quiet_ws hw1) (right h (quiet_ws hw2))).iff (by simp [HasL])
  · intro w1 t w2 j ts l hw1 _ hw2 _ h h'
    exact (left (quiet_ws hw1) (h.append (left (quiet_ws hw2) (sep _ (by decide) h')))).iff (by simp [HasL])
  · intro w1 n w2 w3 t w4 s j hw1 hn hw2 hw3 _ hw4 h
    exact (left (quiet_ws hw1) (left (quiet_str hn) (left (quiet_ws hw2) (sep _ (by decide) (left (quiet_ws hw3) (right h (quiet_ws hw4))))))).iff
      (by simp [HasM])
  · intro w1 n w2 w3 t w4 s j ts m hw1 hn hw2 hw3 _ hw4 _ h h'
    exact (left (quiet_ws hw1) (left (quiet_str hn) (left (quiet_ws hw2) (sep _ (by decide) (left (quiet_ws hw3) (h.append (left (quiet_ws hw4)
      (sep _ (by decide) h')))))))).iff (by simp [HasM])

theorem sval_nul_free {ν : Type} {nt : Bytes → ν → Prop} (hn : ∀ t x, nt t x → (0 : Byte) ∉ t) {t : Bytes} {j : Syn ν}
    (h : SVal nt DialStr t j) : (0 : Byte) ∉ t := by
  refine SVal.rec (motive_1 := fun t _ _ => (0 : Byte) ∉ t) (motive_2 := fun t _ _ => (0 : Byte) ∉ t)
    (motive_3 := fun t _ _ => (0 : Byte) ∉ t) ?_ ?_ ?_ ?_ ?_ ?_ ?_ ?_ ?_ ?_ ?_ ?_ ?_ h
  · decide
  · decide
  · decide
  · intro t d h; exact hn t d h
  · intro t s h; exact h.nul_free
  · intro w h; have := h.nul_free; simp [this]
  · intro t l _ h; simp [h]
  · intro w h; have := h.nul_free; simp [this]
  · intro t m _ h; simp [h]
  · intro w1 t w2 j h1 _ h2 h3; have := h1.nul_free; have := h2.nul_free; simp [*]
  · intro w1 t w2 j ts l h1 _ h2 _ h3 h4; have := h1.nul_free; have := h2.nul_free; simp [*]
  · intro w1 n w2 w3 t w4 s j h1 hn h2 h3 _ h4 h5
    have := h1.nul_free; have := h2.nul_free; have := h3.nul_free; have := h4.nul_free
    have := hn.nul_free
    simp [*]
  · intro w1 n w2 w3 t w4 s j ts m h1 hn h2 h3 _ h4 _ h5 h6
    have := h1.nul_free; have := h2.nul_free; have := h3.nul_free; have := h4.nul_free
    have := hn.nul_free
    simp [*]

theorem hasL_get {ν : Type} {p : ν → Prop} : ∀ (l : SynL ν) (i : Nat) (j : Syn ν), l.get i = some j → Has p j → HasL p l
  | .nil, _, _, h, _ => by simp [SynL.get] at h
  | .cons j' l, 0, j, h, hp => by
    simp only [SynL.get, Option.some.injEq] at h
    subst h
    exact .inl hp
  | .cons j' l, i + 1, j, h, hp => .inr (hasL_get l i j h hp)

theorem hasM_first {ν : Type} {p : ν → Prop} (k : Bytes) : ∀ (m : SynM ν) (j : Syn ν), m.first k = some j → Has p j → HasM p m
  | .nil, _, h, _ => by simp [SynM.first] at h
  | .cons k' j' m, j, h, hp => by
    simp only [SynM.first] at h
    split at h
    · simp only [Option.some.injEq] at h
      subst h
      exact .inl hp
    · exact .inr (hasM_first k m j h hp)

/-- What is found in the value is in the syntax tree. -/
theorem has_of_walk {D : Type} {p : D → Prop} (path : List Step) : ∀ (j : Syn D) (x : D), walk (ParserB.interp id j) path = some (.num x) → p x →
    Has p j := by
  induction path with
  | nil =>
    intro j x h hp
    cases j <;> simp only [walk, ParserB.interp, Option.some.injEq, Value.num.injEq, reduceCtorEq] at h
    subst h
    exact hp
  | cons s path ih =>
    intro j x h hp
    simp only [walk, Option.bind_eq_some_iff] at h
    obtain ⟨y, hy, h⟩ := h
    cases j with
    | arr l =>
      cases s with
      | index i =>
        simp only [step, ParserB.interp, ParserB.interpL_get, Option.map_eq_some_iff] at hy
        obtain ⟨j', hj, rfl⟩ := hy
        exact hasL_get l i j' hj (ih j' x h hp)
      | member k => simp [step, ParserB.interp] at hy
    | obj m =>
      cases s with
      | index i => simp [step, ParserB.interp] at hy
      | member k =>
        simp only [step, ParserB.interp, ParserB.find_interpM, Option.map_map, Option.map_eq_some_iff] at hy
        obtain ⟨j', hj, rfl⟩ := hy
        exact hasM_first k m j' hj (ih j' x h hp)
    | _ => cases s <;> simp [step, ParserB.interp] at hy

end Verif.Watch
