/- Specification vocabulary for headers that list the wavelengths with a blank behind each comma. -/
import Verif.Spec.HyHeader

namespace HyperCV.Spec

/-- the values `f i`, ..., `f (i + c)` with six decimals, separated by a comma and a blank -/
def spacedList (f : Nat → FV) : Nat → Nat → List Char
  | i, 0 => fmtF (f i)
  | i, c + 1 => fmtF (f i) ++ ',' :: ' ' :: spacedList f (i + 1) c

/-- the lines of a header that give the wavelengths of `B` bands -/
def spacedWaves (f : Nat → FV) (B : Nat) : List Char :=
  "wavelength = { \n".toList ++ spacedList f 0 (B - 1) ++ ['}']

end HyperCV.Spec
