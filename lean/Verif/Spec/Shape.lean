/- Hu's seven moment invariants (M.-K. Hu, 1962) of a grey image `f row column`, with moments about the whole-numbered centre. -/
import Mathlib.Algebra.BigOperators.Intervals
import Mathlib.Analysis.Real.Sqrt

namespace HyperCV.Spec
open Finset

/-- total mass -/
def mass (R C : Nat) (f : Nat → Nat → Nat) : Nat := ∑ j ∈ range R, ∑ i ∈ range C, f j i

/-- first moment along the columns -/
def massX (R C : Nat) (f : Nat → Nat → Nat) : Nat := ∑ j ∈ range R, ∑ i ∈ range C, i * f j i

/-- first moment along the rows -/
def massY (R C : Nat) (f : Nat → Nat → Nat) : Nat := ∑ j ∈ range R, ∑ i ∈ range C, j * f j i

/-- the whole number nearest to `a / b`, halves upwards -/
def nearest (a b : Nat) : Nat := (2 * a + b) / (2 * b)

/-- moment of order `p` along the columns and `q` along the rows, about the pixel nearest to the centre of mass -/
def moment (R C : Nat) (f : Nat → Nat → Nat) (p q : Nat) : Int :=
  ∑ j ∈ range R, ∑ i ∈ range C,
    ((i:Int) - nearest (massX R C f) (mass R C f)) ^ p * ((j:Int) - nearest (massY R C f) (mass R C f)) ^ q * f j i

/-- normalised moment: the moment divided by the mass to the power `(p + q) / 2 + 1` -/
noncomputable def eta (R C : Nat) (f : Nat → Nat → Nat) (p q : Nat) : ℝ :=
  moment R C f p q / (mass R C f * Real.sqrt (mass R C f) ^ (p + q))

/-- Hu's invariants as functions of the normalised moments -/
def huOf (e : Nat → Nat → ℝ) : Nat → ℝ
  | 0 => e 2 0 + e 0 2
  | 1 => (e 2 0 - e 0 2) ^ 2 + 4 * e 1 1 ^ 2
  | 2 => (e 3 0 - 3 * e 1 2) ^ 2 + (3 * e 2 1 - e 0 3) ^ 2
  | 3 => (e 3 0 + e 1 2) ^ 2 + (e 2 1 + e 0 3) ^ 2
  | 4 => (e 3 0 - 3 * e 1 2) * (e 3 0 + e 1 2) * ((e 3 0 + e 1 2) ^ 2 - 3 * (e 2 1 + e 0 3) ^ 2)
      + (3 * e 2 1 - e 0 3) * (e 2 1 + e 0 3) * (3 * (e 3 0 + e 1 2) ^ 2 - (e 2 1 + e 0 3) ^ 2)
  | 5 => (e 2 0 - e 0 2) * ((e 3 0 + e 1 2) ^ 2 - (e 2 1 + e 0 3) ^ 2) + 4 * e 1 1 * (e 3 0 + e 1 2) * (e 2 1 + e 0 3)
  | _ => (3 * e 2 1 - e 0 3) * (e 3 0 + e 1 2) * ((e 3 0 + e 1 2) ^ 2 - 3 * (e 2 1 + e 0 3) ^ 2)
      - (e 3 0 - 3 * e 1 2) * (e 2 1 + e 0 3) * (3 * (e 3 0 + e 1 2) ^ 2 - (e 2 1 + e 0 3) ^ 2)

/-- magnitude of the normalised moments of order two -/
noncomputable def size2 (R C : Nat) (f : Nat → Nat → Nat) : ℝ :=
  max (1 / 2 ^ 80) (max |eta R C f 1 1| (max |eta R C f 2 0| |eta R C f 0 2|))

/-- magnitude of the normalised moments of order three -/
noncomputable def size3 (R C : Nat) (f : Nat → Nat → Nat) : ℝ :=
  max (1 / 2 ^ 80) (max (max |eta R C f 3 0| |eta R C f 0 3|) (max |eta R C f 2 1| |eta R C f 1 2|))

/-- magnitudes of the seven invariants, for magnitudes `U` and `V` of the normalised moments of order two and three -/
def huScale (U V : ℝ) : Nat → ℝ
  | 0 => U
  | 1 => U ^ 2
  | 2 => V ^ 2
  | 3 => V ^ 2
  | 4 => V ^ 4
  | 5 => U * V ^ 2
  | _ => V ^ 4

/-- `f'` is the picture `f` drawn on a black ground, `dy` rows down and `dx` columns to the right -/
def Placed (R C : Nat) (f : Nat → Nat → Nat) (R' C' : Nat) (f' : Nat → Nat → Nat) (dy dx : Nat) : Prop :=
  dy + R ≤ R' ∧ dx + C ≤ C' ∧ (∀ j i, j < R → i < C → f' (dy + j) (dx + i) = f j i) ∧
  ∀ j i, j < R' → i < C' → ¬ (dy ≤ j ∧ j < dy + R ∧ dx ≤ i ∧ i < dx + C) → f' j i = 0

/-- more than one pixel is not black -/
def Spread (R C : Nat) (f : Nat → Nat → Nat) : Prop :=
  ∃ j i j' i', j < R ∧ i < C ∧ j' < R ∧ i' < C ∧ (j ≠ j' ∨ i ≠ i') ∧ f j i ≠ 0 ∧ f j' i' ≠ 0

end HyperCV.Spec
