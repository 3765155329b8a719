import Verif.Lemmas.Reload
import Verif.Props.Cost
import Verif.Props.Reserial
import Verif.Props.Serial

/-!
# Reading a document again: C170
-/

namespace Verif.Props

open Verif Verif.Text Verif.Number Verif.Map Verif.Spec Verif.Parser Verif.Doc Verif.Write Verif.File Verif.Serial

variable {D : Type}

theorem step_strs {j j' : J} {s : Step} (h : j.step s = some j') : ∀ x ∈ j'.strs, x ∈ j.strs := by
  cases j <;> cases s <;> simp only [J.step, reduceCtorEq] at h
  · rename_i l i
    simp only [J.strs]
    induction l using jl_ind generalizing i with
    | nil => simp [JL.get] at h
    | cons a l ih =>
      intro x hx
      simp only [JL.strs, List.mem_append]
      cases i with
      | zero =>
        simp only [JL.get, Option.some.injEq] at h
        subst h; exact .inl hx
      | succ i => exact .inr (ih i h x hx)
  · rename_i m k
    simp only [J.strs]
    induction m using jm_ind with
    | nil => simp [JM.first] at h
    | cons a b m ih =>
      intro x hx
      simp only [JM.strs, List.mem_cons, List.mem_append]
      simp only [JM.first] at h
      split at h
      · simp only [Option.some.injEq] at h
        subst h; exact .inr (.inl hx)
      · exact .inr (.inr (ih h x hx))

theorem walk_strs {j j' : J} {p : List Step} (h : j.walk p = some j') : ∀ x ∈ j'.strs, x ∈ j.strs := by
  induction p generalizing j with
  | nil =>
    simp only [J.walk, Option.some.injEq] at h
    subst h; exact fun _ hx => hx
  | cons s p ih =>
    simp only [J.walk, Option.bind_eq_some_iff] at h
    obtain ⟨j1, h1, h2⟩ := h
    exact fun x hx => step_strs h1 x (ih h2 x hx)

theorem names_strs (m : JM) : ∀ n ∈ m.names, n ∈ m.strs := by
  induction m using jm_ind with
  | nil => simp [JM.names]
  | cons a b m ih =>
    intro n hn
    simp only [JM.names, List.mem_cons] at hn
    simp only [JM.strs, List.mem_cons, List.mem_append]
    exact hn.imp id fun h => .inr (ih n h)

/-- The names of a parsed document contain no NUL. -/
theorem parsed_names (N : NumOps D) (hN : NegLaw N) {buf : Bytes} {v : Value D} (h : Accepts N buf v) : NulFreeNames v := by
  obtain ⟨-, -, j, hj, rfl⟩ := (accepts_iff N hN _ _).1 h
  have hs : ∀ s ∈ j.strs, (0 : Byte) ∉ s := by
    obtain ⟨w1, t, w2, -, hv, -, -⟩ := hj
    intro s hs
    obtain ⟨tok, items, hi, -, rfl⟩ := val_strs hv s hs
    simp only [utf8s, plainCodes, List.map_map, List.mem_flatten, List.mem_map, not_exists, not_and]
    rintro l ⟨i, hx, rfl⟩
    obtain ⟨c, e, h1, h2⟩ := (hi i hx).code
    simp only [Function.comp_apply, e, Option.getD_some]
    exact utf8_nul_free _ h1 h2
  intro p m o hw e he
  rw [walk_interp] at hw
  obtain ⟨j', h1, h2⟩ := Option.map_eq_some_iff.1 hw
  cases j' with
  | obj m' =>
    simp only [interp, Value.obj.injEq] at h2
    obtain ⟨rfl, -⟩ := h2
    have := ((mapInv_obj N m').mem e.1 e.2).1 he
    have hn : e.1 ∈ m'.names := (first_isSome m' e.1).1 (by
      cases hf : m'.first e.1 with
      | none => simp [hf] at this
      | some _ => rfl)
    exact hs _ (walk_strs h1 _ (names_strs m' _ hn))
  | _ => simp [interp] at h2

/-! ## C170 -/

/-- **C170.** Deserializing a document a second time into the same variable changes nothing, and gives the same status -
whether or not that is `kOk`. For every type, and every document that comes from `Parse`. -/
theorem C170_again (N : NumOps D) (hN : NegLaw N) (dflt : (t : Ty) → t.Den D) (hd : ∀ t : Ty, t.Ordered (dflt t)) {buf : Bytes}
    {v : Value D} (h : Accepts N buf v) (t : Ty) (o : t.Den D) (ho : t.Ordered o) :
    deserialize dflt t v (deserialize dflt t v o).2 = deserialize dflt t v o := by
  have hh : History N (N.conv false 0 0) False v := .parsed h
  exact des_twice dflt hd t v o (apart_of t v false ⟨history_deep hN hh, fun _ => parsed_names N hN h⟩ (by simp)) ho

/-- The same for any value of a document however it was made, if the type has no `std::map`. -/
theorem C170_again_any (N : NumOps D) (hN : NegLaw N) (dflt : (t : Ty) → t.Den D) (hd : ∀ t : Ty, t.Ordered (dflt t)) {init : D}
    {v : Value D} (h : History N init False v) (t : Ty) (hm : t.hasStdMap = false) (o : t.Den D) (ho : t.Ordered o) :
    deserialize dflt t v (deserialize dflt t v o).2 = deserialize dflt t v o :=
  des_twice dflt hd t v o (apart_of t v true ⟨history_deep hN h, by simp⟩ fun _ => hm) ho

/-- Maps stay sorted, whatever is read into them. -/
theorem C170_ordered (dflt : (t : Ty) → t.Den D) (hd : ∀ t : Ty, t.Ordered (dflt t)) (t : Ty) (v : Value D) (o : t.Den D)
    (ho : t.Ordered o) : t.Ordered (deserialize dflt t v o).2 := des_ordered dflt hd t v o ho

mutual
theorem blank_ordered (z : D) : ∀ t : Ty, t.Ordered (blank z t)
  | .str => trivial
  | .num => trivial
  | .bool => trivial
  | .null => trivial
  | .stdString => trivial
  | .arr _ => by intro x hx; cases hx
  | .map _ => ⟨List.Pairwise.nil, by intro x hx; cases hx⟩
  | .vec _ => by intro x hx; cases hx
  | .stdMap _ => ⟨List.Pairwise.nil, by intro x hx; cases hx⟩
  | .struct _ fs => blankF_ordered z fs
theorem blankF_ordered (z : D) : ∀ fs : Fields, fs.Ordered (blankF z fs)
  | .nil => trivial
  | .here t rest => ⟨blank_ordered z t, blankF_ordered z rest⟩
  | .named _ _ t rest => ⟨blank_ordered z t, blankF_ordered z rest⟩
end

/-- `{"k": {"q": true}}` read into a map that has `"j"`: the second time nothing changes. -/
example : let doc : Value Dec := .obj (.node 0 .nil [0x6B] (.obj (.node 0 .nil [0x71] (.bool true) .nil) [[0x71]]) .nil) [[0x6B]]
    let t : Ty := .map (.struct 0 (.named true [0x70] .bool (.named false [0x71] .bool .nil)))
    deserialize (blank ⟨false, 0, 0⟩) t doc [([0x6A], (true, true, ()))] =
      (.kOk, [([0x6A], (true, true, ())), ([0x6B], (false, true, ()))]) ∧
    deserialize (blank ⟨false, 0, 0⟩) t doc [([0x6A], (true, true, ())), ([0x6B], (false, true, ()))] =
      (.kOk, [([0x6A], (true, true, ())), ([0x6B], (false, true, ()))]) := ⟨rfl, rfl⟩

/-- Two members whose names agree up to a NUL (no document of the library has such names, since a `String` ends at the first
NUL). -/
def collidingDoc : Value Dec :=
  .obj (.node 1 .nil [0x61, 0, 0x78]
    (.obj (.node 0 .nil [0x6D] (.obj (.node 0 .nil [0x6B] (.obj (.node 0 .nil [0x70] (.bool true) .nil) []) .nil) []) .nil) [])
    (.node 0 .nil [0x61, 0, 0x79]
      (.obj (.node 0 .nil [0x6D] (.obj (.node 0 .nil [0x6B] (.obj (.node 0 .nil [0x71] (.bool true) .nil) []) .nil) []) .nil) []) .nil)) []

/-- For it the condition on names is needed. -/
example : let t : Ty := .stdMap (.struct 1 (.named true [0x6D] (.map (.struct 0 (.named true [0x70] .bool (.named false [0x71] .bool .nil)))) .nil))
    deserialize (blank ⟨false, 0, 0⟩) t collidingDoc [] = (.kOk, [([0x61], ([([0x6B], (false, true, ()))], ()))]) ∧
    deserialize (blank ⟨false, 0, 0⟩) t collidingDoc [([0x61], ([([0x6B], (false, true, ()))], ()))] =
      (.kOk, [([0x61], ([([0x6B], (true, true, ()))], ()))]) := ⟨rfl, rfl⟩

end Verif.Props
