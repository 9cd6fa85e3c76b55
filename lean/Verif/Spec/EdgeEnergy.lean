/- Specification of the edge signal energy of a grey image. -/
import Mathlib.Algebra.BigOperators.Group.Finset.Basic
import Mathlib.Data.Rat.Defs

namespace HyperCV.Spec
open Finset

/-- the row (column) that stands for position `p` of an image with `n` rows (columns): row 1 outside the image -/
def edgeIndex (n : Nat) (p : Int) : Nat := if 0 ≤ p ∧ p < n then p.toNat else 1

/-- the response of the two edge operators together: eight times the pixel minus twice its four neighbours, divided by 6 -/
def edgeResponse (R C : Nat) (x : Nat → Nat → ℚ) (i j : Nat) : ℚ :=
  (8 * x i j - 2 * (x (edgeIndex R ((i:Int) - 1)) j + x (edgeIndex R ((i:Int) + 1)) j + x i (edgeIndex C ((j:Int) - 1)) + x i (edgeIndex C ((j:Int) + 1)))) / 6

/-- the mean square response -/
def edgeEnergy (R C : Nat) (x : Nat → Nat → ℚ) : ℚ := (∑ i ∈ range R, ∑ j ∈ range C, edgeResponse R C x i j ^ 2) / (R * C)

end HyperCV.Spec
