/- Specification vocabulary for the report about a cube. -/
import Verif.Spec.Cube
import Verif.Model.Header

namespace HyperCV.Spec

/-- a line of the report: what it is about, and the value -/
def infoLine (what value : List Char) : List Char := "mat's ".toList ++ what ++ " is ".toList ++ value ++ ['\n']

/-- the first five lines of the report about a cube of `S` samples, `L` lines and `B` bands of data type `dt` in order `lay` -/
def infoHead (S L B : Nat) (dt : Int) (lay : Layout) : List Char :=
  infoLine "samples".toList (decInt S) ++ infoLine "lines".toList (decInt L) ++ infoLine "bands".toList (decInt B) ++
    infoLine "data type".toList (decInt dt) ++ infoLine "interleave".toList lay.tag

/-- the first `n` values of `f` with six decimals, each followed by a comma -/
def commaList (f : Nat → FV) (n : Nat) : List Char := (List.range n).flatMap fun k => fmtF (f k) ++ [',']

end HyperCV.Spec
