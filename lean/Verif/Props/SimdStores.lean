import Verif.Props.Simd

/-!
# Stores from vectors of eight components, constants (C122)
-/

namespace Verif.Props

open Verif Verif.Simd

/-- **C122**: the functions that store a component of a vector of eight components write this component of the lower half, and nothing else; they are
undefined if the memory is too small. -/
theorem C122_eight (v : Exv) (m : Block) (i : Nat) :
    (i < m.data.length →
      (∃ m', exvStoreX v m i = .ok m' ∧ Stored m m' i 1 fun _ => v 0) ∧
      (∃ m', exvStoreY v m i = .ok m' ∧ Stored m m' i 1 fun _ => v 1) ∧
      (∃ m', exvStoreZ v m i = .ok m' ∧ Stored m m' i 1 fun _ => v 2) ∧
      (∃ m', exvStoreW v m i = .ok m' ∧ Stored m m' i 1 fun _ => v 3)) ∧
    (m.data.length ≤ i → exvStoreX v m i = .ub ∧ exvStoreY v m i = .ub ∧ exvStoreZ v m i = .ub ∧ exvStoreW v m i = .ub) := by
  refine ⟨fun h => ⟨?_, ?_, ?_, ?_⟩, fun h => ⟨?_, ?_, ?_, ?_⟩⟩
  · exact ((C122_store (lowHalf v) m i).2.2.2.1 h).1
  · exact ((C122_store (lowHalf (permute v 1)) m i).2.2.2.1 h).1
  · exact ((C122_store (lowHalf (permute v 2)) m i).2.2.2.1 h).1
  · exact ((C122_store (lowHalf (permute v 3)) m i).2.2.2.1 h).1
  · exact ((C122_store (lowHalf v) m i).2.2.2.2.2.2.2 h).1
  · exact ((C122_store (lowHalf (permute v 1)) m i).2.2.2.2.2.2.2 h).1
  · exact ((C122_store (lowHalf (permute v 2)) m i).2.2.2.2.2.2.2 h).1
  · exact ((C122_store (lowHalf (permute v 3)) m i).2.2.2.2.2.2.2 h).1

/-- **C122**: `VecLoadVectorConstant` repeats the constant, `VecLoadScalarConstant` gives it in the first component and zeros in the others. -/
theorem C122_constant (w : Word) :
    (∀ i, vecLoadVectorConstant w i = w) ∧ vecLoadScalarConstant w 0 = w ∧ ∀ i, i ≠ 0 → vecLoadScalarConstant w i = 0 :=
  ⟨fun _ => rfl, rfl, fun i h => if_neg h⟩

/-- The third of the components `0, 10, 20, …, 70` is stored between two other words. -/
example : exvStoreZ (fun i => BitVec.ofNat 32 (10 * i.val)) ⟨0, [1, 2, 3]⟩ 1 = .ok ⟨0, [1, 20, 3]⟩ := by decide

example : vecLoadScalarConstant 0x3F800000 0 = 0x3F800000 ∧ vecLoadScalarConstant 0x3F800000 3 = 0 := by decide

end Verif.Props
