/- Specification of the discrete Fourier transform of an image. -/
import Verif.Model.Dft
import Verif.Proof.FloatError
import Mathlib.Analysis.SpecialFunctions.Trigonometric.Bounds
import Mathlib.Analysis.Real.Pi.Bounds

namespace HyperCV.Spec
open Finset

/-- the phase `2π (u i / R + v j / C)` -/
noncomputable def phase (R C u v i j : Nat) : ℝ := 2 * Real.pi * ((u:ℝ) * i / R + (v:ℝ) * j / C)

/-- the discrete Fourier transform of the image `x` of `R` rows and `C` columns at the frequency (`u`, `v`) -/
noncomputable def dft (R C : Nat) (x : Nat → Nat → ℝ) (u v : Nat) : ℂ :=
  ∑ i ∈ range R, ∑ j ∈ range C, (x i j : ℂ) * Complex.exp (-(phase R C u v i j : ℂ) * Complex.I)

/-- the inverse discrete Fourier transform of `F` at the pixel (`i`, `j`); see `idft_dft` in Proof/DftInverse -/
noncomputable def idft (R C : Nat) (F : Nat → Nat → ℂ) (i j : Nat) : ℂ :=
  (∑ u ∈ range R, ∑ v ∈ range C, F u v * Complex.exp ((phase R C u v i j : ℂ) * Complex.I)) / (R * C)

/-- a library whose `cos` and `sin` have an absolute error of at most 2^-50 for the finite `double`s up to 2^20 -/
structure GoodTrig (L : Trig) : Prop where
  cos : ∀ v q, f64.Val v q → |q| ≤ 2 ^ 20 → ∃ r : ℚ, f64.Val (L.cos v) r ∧ |(r:ℝ) - Real.cos q| ≤ 1 / 2 ^ 50
  sin : ∀ v q, f64.Val v q → |q| ≤ 2 ^ 20 → ∃ r : ℚ, f64.Val (L.sin v) r ∧ |(r:ℝ) - Real.sin q| ≤ 1 / 2 ^ 50

end HyperCV.Spec
