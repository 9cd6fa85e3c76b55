/- Specification vocabulary for the header files of the C++ cubes. -/
import Verif.Spec.HyMat
import Verif.Model.HyHeader

namespace HyperCV.Spec

/-- the first six lines of an ENVI header of a cube of `S` samples, `L` lines and `B` bands of data type `dt` in order `lay` -/
def enviHeader (S L B : Nat) (dt : Int) (lay : Layout) : List Char :=
  "ENVI\nsamples = ".toList ++ decInt S ++ "\nlines = ".toList ++ decInt L ++ "\nbands = ".toList ++ decInt B
    ++ "\ndata type = ".toList ++ decInt dt ++ "\ninterleave = ".toList ++ lay.tag ++ "\n".toList

/-- the words by which the C++ reader recognises the numbers that it needs -/
def numberWords : List (List Char) := ["samples".toList, "lines".toList, "bands".toList, "data".toList]

/-- a line of a header that says nothing about the cube: what is in front of its first `=` has from 1 to 19 characters, neither begins
with one of the four words nor is the beginning of one, and the line mentions neither the order nor the wavelengths -/
structure Harmless (l : List Char) : Prop where
  oneLine : '\n' ∉ l
  text : '\x00' ∉ l
  some : l.takeWhile (· ≠ '=') ≠ []
  short : (l.takeWhile (· ≠ '=')).length < 20
  apart : ∀ w ∈ numberWords, ¬ w <+: l.takeWhile (· ≠ '=') ∧ ¬ l.takeWhile (· ≠ '=') <+: w
  noOrder : ¬ "interleave".toList <:+: l
  noWaves : ¬ "wavelength = {".toList <:+: l

/-- lines, each with an end of line -/
def textOf (ls : List (List Char)) : List Char := ls.flatMap fun l => l ++ ['\n']

/-- an object as a program can have it: a cube, or an object without storage (what `release` leaves) -/
def Usable (m : Mem) (o : HyMat) : Prop :=
  (∃ lay S L B dt E v w, IsHyMat m o lay S L B dt E v w) ∨ (o.data = none ∧ o.wavelength = none)

/-- between the memories `m` and `m'`, the storage of the object `o` has been released, the storage of `o'` is new, and nothing else
that existed has changed -/
structure Replaced (m m' : Mem) (o o' : HyMat) : Prop where
  released : ∀ h, (o.data = some h ∨ o.wavelength = some h) → m'.blk h = none
  others : ∀ h, h < m.next → o.data ≠ some h → o.wavelength ≠ some h → m'.blk h = m.blk h
  headers : m'.hm = m.hm ∧ m'.sm = m.sm
  fresh : FreshHy m o'
  wf : m'.WF

end HyperCV.Spec
