/- Model of the C++ class of cubes: /repo/modules/core/include/cxx_include/hypermat.hpp and
/repo/modules/core/src/cxx_src/hypermat.cpp.  Both files are inside `#ifdef _cplusplus`, which no compiler defines; this models what
they say when that macro is defined.  An object is a value, and a method maps the object before the call to the object after it.
Constructors get the contents of the storage before the construction (`raw`), because members are read before they are set. -/
import Verif.Model.HyperMat

namespace HyperCV

/-- `HyMat`: hypermat.hpp:24-43 -/
structure HyMat where
  lines : Int
  samples : Int
  bands : Int
  dataType : Int
  format : Int
  interleave : List Char
  data : Option Nat
  wavelength : Option Nat
  elemSize : Int
  dataSize : Int
  deriving DecidableEq, Repr

namespace HyMat

/-- `if (p) free(p)` -/
def freeIf : Option Nat → M Unit
  | none => pure ()
  | some h => free h

/-- `HyMat::release`: hypermat.hpp:442-453 -/
def release (o : HyMat) : M HyMat := do
  freeIf o.data
  freeIf o.wavelength
  pure { o with data := none, wavelength := none, samples := 0, lines := 0, bands := 0, dataType := 0 }

/-- `HyMat::empty`: hypermat.hpp:232-238 -/
def empty (o : HyMat) : Bool := o.data = none || o.dataSize = 0

/-- the check of the data type, of the member and not of the argument: hypermat.hpp:125-133 -/
def typeOk (d : Int) : Bool := d = 1 || d = 2 || d = 3 || d = 4 || d = 5 || d = 12 || d = 13 || d = 14 || d = 15

/-- the tag of a format (0 is BSQ, 1 is BIL, 2 is BIP, type.h:38-43): hypermat.hpp:146-162 -/
def tagOf (format : Int) : List Char := if format = 1 then ['b', 'i', 'l'] else if format = 2 then ['b', 'i', 'p'] else ['b', 's', 'q']

/-- a new block of zeros; a negative number of bytes makes `malloc` fail -/
def zeros (n : Int) : M Nat := do
  if n < 0 then fail (.ub .nullDeref) else do
  let h ← malloc n.toNat
  memset h 0 0 n
  pure h

/-- the argument, or a new block of zeros: hypermat.hpp:167-181 -/
def orZeros (p : Option Nat) (n : Int) : M (Option Nat) :=
  match p with
  | some h => pure (some h)
  | none => do
    let h ← zeros n
    pure (some h)

/-- `if (data) release();`: hypermat.hpp:136-137 -/
def releaseIf (o : HyMat) : M HyMat := if o.data = none then pure o else release o

/-- `HyMat::create` with seven arguments: hypermat.hpp:122-182.  The first two assertions test the members `bands` and `dataType`; the
third is always true.  The argument of the second `malloc` is unsigned; a negative number of bands makes it fail. -/
def create (o : HyMat) (samples lines bands dataType format : Int) (data wavelength : Option Nat) : M HyMat := do
  cassert (decide (samples > 0) && decide (lines > 0) && decide (o.bands > 0))
  cassert (typeOk o.dataType)
  let _ ← releaseIf o
  let elemSize := get_elemsize dataType
  let dataSize ← ev (CI.lit samples * CI.lit lines * CI.lit bands * CI.lit elemSize)
  let d ← orZeros data dataSize
  let w ← orZeros wavelength (bands * 4)
  pure ⟨lines, samples, bands, dataType, format, tagOf format, d, w, elemSize, dataSize⟩

/-- `HyMat::HyMat()`: hypermat.hpp:83-86 -/
def default (raw : HyMat) : M HyMat := create raw 0 0 0 1 0 none none

/-- the constructors with arguments: hypermat.hpp:88-108 -/
def construct (raw : HyMat) (samples lines bands dataType format : Int) (data wavelength : Option Nat) : M HyMat :=
  create raw samples lines bands dataType format data wavelength

/-- `HyMat::CopyData` with the source block `src`: hypermat.hpp:199-208 -/
def copyData (o : HyMat) (src : Option Nat) (n : Int) : M Unit :=
  match src with
  | none => pure ()
  | some s =>
    match o.data with
    | none => fail (.ub .nullDeref)
    | some d => memcpy d 0 s 0 (if n = 0 then o.dataSize else n)

/-- `HyMat::CopyWaveLength` from the entry number `off` of the source block: hypermat.hpp:210-219.  An offset to NULL is undefined. -/
def copyWaveLength (o : HyMat) (src : Option Nat) (off bands : Int) : M Unit :=
  match src with
  | none => if off = 0 then pure () else fail (.ub .nullDeref)
  | some s =>
    match o.wavelength with
    | none => fail (.ub .nullDeref)
    | some d => memcpy d 0 s (off * 4) ((if bands = 0 then o.bands else bands) * 4)

/-- `HyMat::copy`: hypermat.hpp:184-197 -/
def copy (o raw : HyMat) : M HyMat := do
  let dst ← default raw
  if o.empty = false then do
    let dst ← create dst o.samples o.lines o.bands o.dataType o.format none none
    copyData dst o.data o.dataSize
    copyWaveLength dst o.wavelength 0 o.bands
    pure dst
  else pure dst

/-- `fread(data, elemSize, dataSize, fp)`: hypermat.hpp:356: at most `elemSize * dataSize` bytes -/
def readFile (o : HyMat) (img : List UInt8) : M Unit :=
  match o.data with
  | none => fail (.ub .nullDeref)
  | some d => forI 0 (min (img.length : Int) (o.elemSize * o.dataSize)) fun i => store d i (img.getD i.toNat 0)

/-- `if (empty() == 0) release();` -/
def clear (o : HyMat) : M HyMat := if o.empty = false then release o else pure o

/-- `HyMat::open` with sizes: hypermat.hpp:327-359; `none` is a file that cannot be opened -/
def openSize (o : HyMat) (image : Option (List UInt8)) (samples lines bands dataType format : Int) : M HyMat := do
  cassert (decide (samples > 0) && decide (lines > 0) && decide (o.bands > 0))
  cassert (typeOk o.dataType)
  let o ← clear o
  let o ← create o samples lines bands dataType format none none
  match image with
  | none => pure o
  | some img => do
    readFile o img
    pure o

/-- `hmread` with sizes: hypermat.hpp:467-472 -/
def hmreadSize (raw : HyMat) (image : Option (List UInt8)) (samples lines bands dataType format : Int) : M HyMat := do
  let mat ← default raw
  openSize mat image samples lines bands dataType format

/-- `hmread` with a header: hypermat.hpp:455-465.  `openHdr` stands for `HyMat::open` with a header file, which is
modelled in Model/HyHeader.lean;
`names` tells whether both file names are given. -/
def hmreadHdr (raw : HyMat) (names : Bool) (openHdr : HyMat → M HyMat) : M HyMat := do
  let mat ← default raw
  if names then openHdr mat else pure mat

/-- the loop over the bytes of an element, e.g. hypermat.hpp:413-414; the index variables are `long` -/
def moveElem (dst : Nat) (dstIndex : Int) (src : Nat) (srcIndex elemSize : Int) : M Unit :=
  forI 0 elemSize fun t => do
    let v ← load src (srcIndex + t)
    store dst (dstIndex + t) v

/-- a pointer that is used -/
def usePtr : Option Nat → M Nat
  | none => fail (.ub .nullDeref)
  | some h => pure h

/-- the position of an element in the order `format`: hypermat.hpp:379-409 -/
def index (format samples lines bands elemSize i j k : Int) : CI :=
  if format = 1 then (CI.lit i * CI.lit samples * CI.lit bands + CI.lit k * CI.lit samples + CI.lit j) * CI.lit elemSize
  else if format = 2 then (CI.lit i * CI.lit samples * CI.lit bands + CI.lit j * CI.lit bands + CI.lit k) * CI.lit elemSize
  else (CI.lit k * CI.lit samples * CI.lit lines + CI.lit i * CI.lit samples + CI.lit j) * CI.lit elemSize

/-- `HyMat::convertTo`: hypermat.hpp:361-439, for the three formats; another format leaves the index variables uninitialised -/
def convertTo (o : HyMat) (format : Int) : M HyMat := do
  if format = o.format then pure o
  else if o.dataSize < 0 then fail (.ub .nullDeref) else do
  let dst ← malloc o.dataSize.toNat
  if (format < 0 ∨ 2 < format ∨ o.format < 0 ∨ 2 < o.format) ∧ 0 < o.lines ∧ 0 < o.samples ∧ 0 < o.bands then fail (.ub .uninit) else do
  forI 0 o.lines fun i =>
    forI 0 o.samples fun j =>
      forI 0 o.bands fun k => do
        let srcIndex ← ev (index o.format o.samples o.lines o.bands o.elemSize i j k)
        let dstIndex ← ev (index format o.samples o.lines o.bands o.elemSize i j k)
        let src ← usePtr o.data
        moveElem dst dstIndex src srcIndex o.elemSize
  copyData o (some dst) o.dataSize
  free dst
  pure { o with format := format,
                interleave := if 0 ≤ format ∧ format ≤ 2 then tagOf format else o.interleave }

/-- the position of an element in the part: hypermat.hpp:501, 520 and 538 -/
def rangeIndex (format newSamples newLines newBands elemSize startRow startCol startBand i j k : Int) : CI :=
  if format = 1 then ((CI.lit i - CI.lit startRow) * CI.lit newSamples * CI.lit newBands + (CI.lit k - CI.lit startBand) * CI.lit newSamples
    + CI.lit j - CI.lit startCol) * CI.lit elemSize
  else if format = 2 then ((CI.lit i - CI.lit startRow) * CI.lit newSamples * CI.lit newBands + (CI.lit j - CI.lit startCol) * CI.lit newBands
    + CI.lit k - CI.lit startBand) * CI.lit elemSize
  else ((CI.lit k - CI.lit startBand) * CI.lit newSamples * CI.lit newLines + (CI.lit i - CI.lit startRow) * CI.lit newSamples
    + CI.lit j - CI.lit startCol) * CI.lit elemSize

/-- `HyMat::range`: hypermat.hpp:475-553 -/
def range (o raw : HyMat) (startRow startCol startBand endRow endCol endBand : Int) : M HyMat := do
  cassert (decide (startCol < endCol) && decide (startRow < endRow) && decide (startBand < endBand))
  let newSamples ← ev (CI.lit endCol - CI.lit startCol)
  let newLines ← ev (CI.lit endRow - CI.lit startRow)
  let newBands ← ev (CI.lit endBand - CI.lit startBand)
  let dst ← construct raw newSamples newLines newBands o.dataType o.format none none
  let elem (i j k : Int) : M Unit := do
    let srcIndex ← ev (index o.format o.samples o.lines o.bands o.elemSize i j k)
    let dstIndex ← ev (rangeIndex o.format newSamples newLines newBands o.elemSize startRow startCol startBand i j k)
    let src ← usePtr o.data
    let d ← usePtr dst.data
    moveElem d dstIndex src srcIndex o.elemSize
  if o.format = 1 then
    forI startRow endRow fun i => forI startBand endBand fun k => forI startCol endCol fun j => elem i j k
  else if o.format = 2 then
    forI startRow endRow fun i => forI startCol endCol fun j => forI startBand endBand fun k => elem i j k
  else if o.format = 0 then
    forI startBand endBand fun k => forI startRow endRow fun i => forI startCol endCol fun j => elem i j k
  else pure ()
  copyWaveLength dst o.wavelength startBand newBands
  pure dst

/-- `bil2bsq`: hypermat.cpp:120-154 -/
def bil2bsq (mat raw : HyMat) : M HyMat := do
  cassert (!mat.empty)
  cassert (decide (mat.format = 1))
  let dst ← construct raw mat.samples mat.lines mat.bands mat.dataType 0 none none
  forI 0 mat.bands fun k =>
    forI 0 mat.lines fun i =>
      forI 0 mat.samples fun j => do
        let bilIndex ← ev ((CI.lit i * CI.lit mat.samples * CI.lit mat.bands + CI.lit k * CI.lit mat.samples + CI.lit j) * CI.lit mat.elemSize)
        let bsqIndex ← ev ((CI.lit k * CI.lit mat.samples * CI.lit mat.lines + CI.lit i * CI.lit mat.samples + CI.lit j) * CI.lit mat.elemSize)
        let src ← usePtr mat.data
        let d ← usePtr dst.data
        moveElem d bsqIndex src bilIndex mat.elemSize
  copyWaveLength dst mat.wavelength 0 mat.bands
  pure dst

/-- `bil2bip`: hypermat.cpp:161-195 -/
def bil2bip (mat raw : HyMat) : M HyMat := do
  cassert (!mat.empty)
  cassert (decide (mat.format = 1))
  let dst ← construct raw mat.samples mat.lines mat.bands mat.dataType 2 none none
  forI 0 mat.lines fun i =>
    forI 0 mat.samples fun j =>
      forI 0 mat.bands fun k => do
        let bilIndex ← ev ((CI.lit i * CI.lit mat.samples * CI.lit mat.bands + CI.lit k * CI.lit mat.samples + CI.lit j) * CI.lit mat.elemSize)
        let bipIndex ← ev ((CI.lit i * CI.lit mat.samples * CI.lit mat.bands + CI.lit j * CI.lit mat.bands + CI.lit k) * CI.lit mat.elemSize)
        let src ← usePtr mat.data
        let d ← usePtr dst.data
        moveElem d bipIndex src bilIndex mat.elemSize
  copyWaveLength dst mat.wavelength 0 mat.bands
  pure dst

/-- `bsq2bil`: hypermat.cpp:201-238 -/
def bsq2bil (mat raw : HyMat) : M HyMat := do
  if mat.format = 1 then copy mat raw else do
  cassert (decide (mat.format = 0))
  let dst ← construct raw mat.samples mat.lines mat.bands mat.dataType 1 none none
  forI 0 mat.lines fun i =>
    forI 0 mat.bands fun k =>
      forI 0 mat.samples fun j => do
        let bsqIndex ← ev ((CI.lit k * CI.lit mat.samples * CI.lit mat.lines + CI.lit i * CI.lit mat.samples + CI.lit j) * CI.lit mat.elemSize)
        let bilIndex ← ev ((CI.lit i * CI.lit mat.samples * CI.lit mat.bands + CI.lit k * CI.lit mat.samples + CI.lit j) * CI.lit mat.elemSize)
        let src ← usePtr mat.data
        let d ← usePtr dst.data
        moveElem d bilIndex src bsqIndex mat.elemSize
  copyWaveLength dst mat.wavelength 0 mat.bands
  pure dst

/-- `bsq2bip`: hypermat.cpp:245-281 -/
def bsq2bip (mat raw : HyMat) : M HyMat := do
  if mat.format = 2 then copy mat raw else do
  cassert (decide (mat.format = 0))
  let dst ← construct raw mat.samples mat.lines mat.bands mat.dataType 2 none none
  forI 0 mat.lines fun i =>
    forI 0 mat.samples fun j =>
      forI 0 mat.bands fun k => do
        let bsqIndex ← ev ((CI.lit k * CI.lit mat.samples * CI.lit mat.lines + CI.lit i * CI.lit mat.samples + CI.lit j) * CI.lit mat.elemSize)
        let bipIndex ← ev ((CI.lit i * CI.lit mat.samples * CI.lit mat.bands + CI.lit j * CI.lit mat.bands + CI.lit k) * CI.lit mat.elemSize)
        let src ← usePtr mat.data
        let d ← usePtr dst.data
        moveElem d bipIndex src bsqIndex mat.elemSize
  copyWaveLength dst mat.wavelength 0 mat.bands
  pure dst

/-- `bip2bsq`: hypermat.cpp:288-324 -/
def bip2bsq (mat raw : HyMat) : M HyMat := do
  if mat.format = 0 then copy mat raw else do
  cassert (decide (mat.format = 2))
  let dst ← construct raw mat.samples mat.lines mat.bands mat.dataType 0 none none
  forI 0 mat.lines fun i =>
    forI 0 mat.samples fun j =>
      forI 0 mat.bands fun k => do
        let bipIndex ← ev ((CI.lit i * CI.lit mat.samples * CI.lit mat.bands + CI.lit j * CI.lit mat.bands + CI.lit k) * CI.lit mat.elemSize)
        let bsqIndex ← ev ((CI.lit k * CI.lit mat.samples * CI.lit mat.lines + CI.lit i * CI.lit mat.samples + CI.lit j) * CI.lit mat.elemSize)
        let src ← usePtr mat.data
        let d ← usePtr dst.data
        moveElem d bsqIndex src bipIndex mat.elemSize
  copyWaveLength dst mat.wavelength 0 mat.bands
  pure dst

/-- `bip2bil`: hypermat.cpp:331-367 -/
def bip2bil (mat raw : HyMat) : M HyMat := do
  if mat.format = 1 then copy mat raw else do
  cassert (decide (mat.format = 2))
  let dst ← construct raw mat.samples mat.lines mat.bands mat.dataType 1 none none
  forI 0 mat.lines fun i =>
    forI 0 mat.samples fun j =>
      forI 0 mat.bands fun k => do
        let bipIndex ← ev ((CI.lit i * CI.lit mat.samples * CI.lit mat.bands + CI.lit j * CI.lit mat.bands + CI.lit k) * CI.lit mat.elemSize)
        let bilIndex ← ev ((CI.lit i * CI.lit mat.samples * CI.lit mat.bands + CI.lit k * CI.lit mat.samples + CI.lit j) * CI.lit mat.elemSize)
        let src ← usePtr mat.data
        let d ← usePtr dst.data
        moveElem d bilIndex src bipIndex mat.elemSize
  copyWaveLength dst mat.wavelength 0 mat.bands
  pure dst

end HyMat
end HyperCV
