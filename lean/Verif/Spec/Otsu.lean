/- Otsu's method: the threshold that separates the levels of an image best. -/
import Mathlib.Algebra.BigOperators.Intervals
import Mathlib.Data.Rat.Defs
import Mathlib.Algebra.Order.Field.Rat

namespace HyperCV.Spec
open Finset

/-- luminance of a colour pixel, in thousandths -/
def luma1000 (b g r : Nat) : Nat := 114 * b + 587 * g + 299 * r

/-- number of pixels of level `x` -/
def pixelsAt (R C : Nat) (lev : Nat → Nat → Nat) (x : Nat) : Nat := ∑ i ∈ range R, ∑ j ∈ range C, if lev i j = x then 1 else 0

/-- number of pixels of a level up to `t` -/
def below (n : Nat → Nat) (t : Nat) : Nat := ∑ x ∈ range (t + 1), n x

/-- number of pixels of a level above `t` -/
def above (n : Nat → Nat) (t : Nat) : Nat := ∑ x ∈ Ico (t + 1) 256, n x

/-- both classes contain pixels -/
def Separates (n : Nat → Nat) (t : Nat) : Prop := 0 < below n t ∧ 0 < above n t

/-- mean level of the pixels up to `t` -/
def meanBelow (n : Nat → Nat) (t : Nat) : ℚ := (∑ x ∈ range (t + 1), x * n x : Nat) / below n t

/-- mean level of the pixels above `t` -/
def meanAbove (n : Nat → Nat) (t : Nat) : ℚ := (∑ x ∈ Ico (t + 1) 256, x * n x : Nat) / above n t

/-- variance between the classes, for `N` pixels -/
def between (n : Nat → Nat) (N t : Nat) : ℚ := below n t / N * (above n t / N) * (meanBelow n t - meanAbove n t) ^ 2

end HyperCV.Spec
