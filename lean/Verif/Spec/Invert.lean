/- Vocabulary for the statement about matrix inversion. -/
import Verif.Model.GaussJordan
import Verif.Proof.GaussJordan
import Verif.Proof.FloatFacts

namespace HyperCV.Spec

/-- the element has the finite value `q` -/
def FloatIs (F : Fmt) (b : Nat) (q : ℚ) : Prop := ∃ s, F.decode b = .fin s q

/-- the exact values computed while clearing column `i` (`q` is the state before) are `float`s -/
def RepRows (m i : Nat) (q : Mat ℚ × Mat ℚ) : Prop :=
  ∀ j, j < m → j ≠ i →
    (∀ b, b < m → f32.Rep (-((gRows (fieldArith ℚ) i j q).1 j i) * (gRows (fieldArith ℚ) i j q).1 i b) ∧
      f32.Rep ((gRows (fieldArith ℚ) i j q).1 j b + -((gRows (fieldArith ℚ) i j q).1 j i) * (gRows (fieldArith ℚ) i j q).1 i b)) ∧
    (∀ b, b < m → f32.Rep (-((gRows (fieldArith ℚ) i j q).1 j i) * (gRows (fieldArith ℚ) i j q).2 i b) ∧
      f32.Rep ((gRows (fieldArith ℚ) i j q).2 j b + -((gRows (fieldArith ℚ) i j q).1 j i) * (gRows (fieldArith ℚ) i j q).2 i b))

/-- the exact values computed in one step of the elimination are `float`s, and the pivot is not zero -/
def RepElim (m i : Nat) (q : Mat ℚ × Mat ℚ) : Prop :=
  q.1 i i ≠ 0 ∧ f32.Rep (1 / q.1 i i) ∧
  (∀ b, b < m → f32.Rep (q.1 i b * (1 / q.1 i i))) ∧ (∀ b, b < m → f32.Rep (q.2 i b * (1 / q.1 i i))) ∧
  RepRows m i (gScale (fieldArith ℚ) i (1 / q.1 i i) q.1, gScale (fieldArith ℚ) i (1 / q.1 i i) q.2)

/-- the exact values computed in `f` steps of the elimination from column `i` are `float`s -/
def RepLoop (m : Nat) : Nat → Nat → Mat ℚ × Mat ℚ → Prop
  | 0, _, _ => True
  | f+1, i, q =>
    match gPivot (fieldArith ℚ) m i q with
    | none => True
    | some u => RepElim m i u ∧ RepLoop m f (i + 1) (gElim (fieldArith ℚ) m i u)

/-- every exact value computed by the elimination of `Q` is a `float` -/
def RepRun (m : Nat) (Q : Mat ℚ) : Prop := RepLoop m m 0 (Q, gId (fieldArith ℚ))

end HyperCV.Spec
