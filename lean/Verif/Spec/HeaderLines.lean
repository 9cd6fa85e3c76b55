/- Specification vocabulary for positions in a header file. -/
import Verif.Spec.HyHeader

namespace HyperCV.Spec

/-- whether a reader is between the braces of the wavelengths after the line `l`, if `inside` tells whether it was before -/
def insideAfter (inside : Bool) (l : List Char) : Bool :=
  if inside = true then decide ('}' ∉ l) else decide ("wavelength = {".toList <+: l ∧ '}' ∉ l)

/-- behind the lines `ls` no brace of a list of wavelengths is open -/
def OutsideBraces (ls : List (List Char)) : Prop := ls.foldl insideAfter false = false

/-- a line of a text file that fits into the buffer of the reader -/
def PlainLine (l : List Char) : Prop := '\n' ∉ l ∧ '\x00' ∉ l ∧ l.length < 9999

end HyperCV.Spec
