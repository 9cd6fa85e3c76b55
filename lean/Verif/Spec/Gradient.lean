/- Derivatives of an image that is continued over its borders. -/
import Verif.Spec.Border

namespace HyperCV.Spec

/-- the sample at row `y`, column `x` (possibly outside) of channel 0 of the image continued by `e` -/
def extPx (e : Extension) (R C : Nat) (px : Nat → Nat → Nat → UInt8) (y x : Int) : Int :=
  (px (e.index y R).toNat (e.index x C).toNat 0).toNat

/-- the discrete Laplacian at (`i`, `j`): the four neighbours minus four times the centre -/
def laplace (e : Extension) (R C : Nat) (px : Nat → Nat → Nat → UInt8) (i j : Int) : Int :=
  extPx e R C px (i-1) j + extPx e R C px (i+1) j + extPx e R C px i (j-1) + extPx e R C px i (j+1)
    - 4 * extPx e R C px i j

/-- the horizontal Sobel derivative at (`i`, `j`): right column minus left column, weights 1 2 1 -/
def sobelDx (e : Extension) (R C : Nat) (px : Nat → Nat → Nat → UInt8) (i j : Int) : Int :=
  (extPx e R C px (i-1) (j+1) + 2 * extPx e R C px i (j+1) + extPx e R C px (i+1) (j+1))
    - (extPx e R C px (i-1) (j-1) + 2 * extPx e R C px i (j-1) + extPx e R C px (i+1) (j-1))

/-- the vertical Sobel derivative at (`i`, `j`): upper row minus lower row, weights 1 2 1 -/
def sobelDy (e : Extension) (R C : Nat) (px : Nat → Nat → Nat → UInt8) (i j : Int) : Int :=
  (extPx e R C px (i-1) (j-1) + 2 * extPx e R C px (i-1) j + extPx e R C px (i-1) (j+1))
    - (extPx e R C px (i+1) (j-1) + 2 * extPx e R C px (i+1) j + extPx e R C px (i+1) (j+1))

end HyperCV.Spec
