import Verif.Lemmas.HeapCount
import Verif.Props.Cost
import Verif.Props.Heap

/-!
# C151: a document is not larger than its text

`Value.count` is the number of value objects of a document, `Value.text` the number of bytes of all texts it stores: the
contents of strings and, twice, the names of members (as the key of the map and in `insertionOrder`).
-/

namespace Verif.Props

open Verif Verif.Map Verif.Text Verif.Number Verif.Spec Verif.Parser Verif.Doc Verif.Own

variable {D : Type}

mutual
/-- The number of values of a document. -/
def Value.count : Value D → Nat
  | .arr l => countL l + 1
  | .obj m _ => countT m + 1
  | _ => 1
/-- Elements. -/
def countL : List (Value D) → Nat
  | [] => 0
  | v :: l => Value.count v + countL l
/-- Members. -/
def countT : Tree Bytes (Value D) → Nat
  | .nil => 0
  | .node _ l _ v r => countT l + Value.count v + countT r
end

mutual
/-- The number of bytes of the texts stored in a document. -/
def Value.text : Value D → Nat
  | .str s => s.length
  | .arr l => textL l
  | .obj m order => textT m + (order.map List.length).sum
  | _ => 0
/-- Elements. -/
def textL : List (Value D) → Nat
  | [] => 0
  | v :: l => Value.text v + textL l
/-- Members with their names. -/
def textT : Tree Bytes (Value D) → Nat
  | .nil => 0
  | .node _ l k v r => textT l + (k.length + Value.text v) + textT r
end

mutual
/-- The bytes of the strings of a text, and twice those of the names. -/
def jtext : J → Nat
  | .str s => s.length
  | .arr l => jtextL l
  | .obj m => jtextM m
  | _ => 0
/-- Elements. -/
def jtextL : JL → Nat
  | .nil => 0
  | .cons j l => jtext j + jtextL l
/-- Members. -/
def jtextM : JM → Nat
  | .nil => 0
  | .cons k j m => 2 * k.length + jtext j + jtextM m
end

theorem countT_sum (t : Tree Bytes (Value D)) : countT t = ((toList t).map fun e => Value.count e.2).sum := by
  induction t with
  | nil => rfl
  | node b l k v r ihl ihr =>
    simp only [countT, toList, List.map_append, List.map_cons, List.sum_append, List.sum_cons, ihl, ihr]
    omega

theorem textT_sum (t : Tree Bytes (Value D)) : textT t = ((toList t).map fun e => e.1.length + Value.text e.2).sum := by
  induction t with
  | nil => rfl
  | node b l k v r ihl ihr =>
    simp only [textT, toList, List.map_append, List.map_cons, List.sum_append, List.sum_cons, ihl, ihr]
    omega

theorem addMember_size {t : Tree Bytes (Value D)} (ht : TreeOk t) (k : Bytes) (v : Value D) :
    countT (addMember t k v) ≤ countT t + Value.count v ∧ textT (addMember t k v) ≤ textT t + (k.length + Value.text v) := by
  obtain ⟨A, hA⟩ := ht
  unfold addMember
  rcases insert_spec nameLt_strict t k v hA.bal hA.sorted with ⟨-, e⟩ | ⟨-, t', a, c, e, -, e1, e2, -⟩
  · rw [e]; simp
  · rw [e]
    simp only [countT_sum, textT_sum, e1, e2, List.map_append, List.map_cons, List.sum_append, List.sum_cons]
    omega

mutual
theorem interp_size (N : NumOps D) (j : J) : Value.count (interp N j) ≤ j.size ∧ Value.text (interp N j) ≤ jtext j := by
  match j with
  | .null | .bool _ | .num _ | .str _ => simp [interp, Value.count, Value.text, J.size, jtext]
  | .arr l =>
    have := interpL_size N l
    simp only [interp, Value.count, Value.text, J.size, jtext]; omega
  | .obj m =>
    have := interpM_size N m .nil treeOk_nil
    simp only [interp, Value.count, Value.text, J.size, jtext, countT, textT] at this ⊢; omega

theorem interpL_size (N : NumOps D) (l : JL) : countL (interpL N l) ≤ l.size ∧ textL (interpL N l) ≤ jtextL l := by
  match l with
  | .nil => simp [interpL, countL, textL]
  | .cons j l =>
    have := interp_size N j
    have := interpL_size N l
    simp only [interpL, countL, textL, JL.size, jtextL]; omega

theorem interpM_size (N : NumOps D) (m : JM) (t : Tree Bytes (Value D)) (ht : TreeOk t) :
    countT (interpM N m t) ≤ countT t + m.size ∧
      textT (interpM N m t) + (m.names.map List.length).sum ≤ textT t + jtextM m := by
  match m with
  | .nil => simp [interpM, JM.names, jtextM, JM.size]
  | .cons k j m =>
    have h1 := interp_size N j
    have h2 := addMember_size ht k (interp N j)
    have h3 := interpM_size N m _ (insertAccounted_ok ht [] k (interp N j)).2
    simp only [interpM, JM.size, jtextM, JM.names, List.map_cons, List.sum_cons]; omega
end

theorem val_light {t : Bytes} {j : J} (h : DVal t j) : 2 * j.size ≤ t.length + 1 ∧ 2 * j.size + jtext j ≤ 2 * t.length := by
  refine Val.rec (motive_1 := fun t j _ => 2 * j.size ≤ t.length + 1 ∧ 2 * j.size + jtext j ≤ 2 * t.length)
    (motive_2 := fun t l _ => 2 * l.size ≤ t.length + 1 ∧ 2 * l.size + jtextL l ≤ 2 * t.length)
    (motive_3 := fun t m _ => 2 * m.size ≤ t.length + 1 ∧ 2 * m.size + jtextM m ≤ 2 * t.length)
    ?_ ?_ ?_ ?_ ?_ ?_ ?_ ?_ ?_ ?_ ?_ ?_ ?_ h
  · simp [J.size, jtext]
  · simp [J.size, jtext]
  · simp [J.size, jtext]
  · intro t d hn
    obtain ⟨c, s, rfl, -⟩ := dialNum_head hn
    simp only [J.size, jtext, List.length_cons]; omega
  · intro t s hs
    have := str_shorter hs
    simp only [J.size, jtext]; omega
  · intro w hw
    simp only [J.size, jtext, JL.size, jtextL, List.length_cons, List.length_append, List.length_nil]; omega
  · intro t l _ ih
    simp only [J.size, jtext, List.length_cons, List.length_append, List.length_nil]; omega
  · intro w hw
    simp only [J.size, jtext, JM.size, jtextM, List.length_cons, List.length_append, List.length_nil]; omega
  · intro t m _ ih
    simp only [J.size, jtext, List.length_cons, List.length_append, List.length_nil]; omega
  · intro w1 t w2 j _ _ _ ih
    simp only [JL.size, jtextL, List.length_append]; omega
  · intro w1 t w2 j ts l _ _ _ _ ih1 ih2
    simp only [JL.size, jtextL, List.length_cons, List.length_append]; omega
  · intro w1 n w2 w3 t w4 s j _ hs _ _ _ _ ih
    have := str_shorter hs
    simp only [JM.size, jtextM, List.length_cons, List.length_append]; omega
  · intro w1 n w2 w3 t w4 s j ts m _ hs _ _ _ _ _ ih1 ih2
    have := str_shorter hs
    simp only [JM.size, jtextM, List.length_cons, List.length_append]; omega

theorem text_light {t : Bytes} {j : J} (h : DialText t j) : 2 * j.size ≤ t.length + 1 ∧ 2 * j.size + jtext j ≤ 2 * t.length := by
  obtain ⟨w1, tok, w2, -, hv, -, rfl⟩ := h
  have := val_light hv
  simp only [List.length_append]; omega

/-- **C151.** A document has at most half as many values as its text has bytes (rounded up), and the texts it stores are
at most twice as long as the text. -/
theorem C151_document (N : NumOps D) (hN : NegLaw N) (buf : Bytes) (v : Value D) (h : Accepts N buf v) :
    2 * Value.count v ≤ (cstr buf).length + 1 ∧ 2 * Value.count v + Value.text v ≤ 2 * (cstr buf).length := by
  obtain ⟨-, -, j, hj, rfl⟩ := (accepts_iff N hN buf v).1 h
  have h1 := text_light hj
  have h2 := interp_size N j
  omega

/-- The same for the objects alive after `Parse`, including those that are leaked. -/
theorem C151_objects (M : Mem) (N : NumOps D) (hN : NegLaw N) (buf : Bytes) (v : OVal D) (h : Heap)
    (hp : ParsedTo M N buf v h) :
    ∃ all : List Nat, all.Nodup ∧ (∀ a, a ∈ h.live ↔ a ∈ all) ∧ 2 * all.length ≤ (cstr buf).length + 1 := by
  obtain ⟨j, hj, ⟨all, h1, h2, h3⟩, -⟩ := C51_accepted_partial M N hN buf v h hp
  have := text_light hj
  exact ⟨all, h1, h3, by omega⟩

/-- Whatever the buffer holds and whichever requests fail, `Parse` makes at most six requests for memory for each byte. -/
theorem C151_requests (M : Mem) (N : NumOps D) (root : Option (OVal D)) (buf : Bytes) (h h' : Heap) (st : Status)
    (root' : Option (OVal D)) (e : parseBufferH M N root buf h = .ok (st, root', h')) :
    h'.tick ≤ h.tick + 6 * buf.length := parseBufferH_count M N root buf h st root' h' e

/-- `[1,1]`: five bytes and three values. -/
example : ∃ v, parseBuffer decOps none [91, 49, 44, 49, 93, 0] = .ok (⟨.kOk, 0, 0⟩, some v) ∧ Value.count v = 3 ∧ Value.text v = 0 :=
  ⟨_, rfl, rfl, rfl⟩

/-- `{"ab":1}`: eight bytes, two values, and four bytes of names. -/
example : ∃ v, parseBuffer decOps none [123, 34, 97, 98, 34, 58, 49, 125, 0] = .ok (⟨.kOk, 0, 0⟩, some v) ∧
    Value.count v = 2 ∧ Value.text v = 4 := ⟨_, rfl, rfl, rfl⟩

/-- The number of requests. -/
def requests : Out (Status × Option (OVal D) × Heap) → Option (Status × Nat)
  | .ok (st, _, h) => some (st, h.tick)
  | _ => none

/-- Seven opening brackets: 41 requests for 8 bytes. -/
example : requests (parseBufferH plenty decOps none [91, 91, 91, 91, 91, 91, 91, 0] Heap.start) = some (.kExpectedJsonValue, 41) := by
  decide +kernel

end Verif.Props
