/- Model of the header files of the C++ cubes: `readHdr` (/repo/modules/core/src/cxx_src/hypermat.cpp:48-113), and `save`, `writeHdr` and
`open` with a header (/repo/modules/core/include/cxx_include/hypermat.hpp:228-326).  Files are modelled by their contents as in
Verif/Model/Header.lean; opening a file for writing and writing always succeed. -/
import Verif.Model.HyMat
import Verif.Model.Header

namespace HyperCV.HyMat

/-! ### Reading -/

/-- the successive results of `getline`: hypermat.cpp:62.  `acc` are the characters (in reverse) of the current line.  The end of line
is not part of the result; nothing is delivered behind the last end of line if the text ends there. -/
def getlineAux : Text → Text → List Text
  | acc, [] => if acc = [] then [] else [acc.reverse]
  | acc, c :: s => if c = '\n' then acc.reverse :: getlineAux [] s else getlineAux (c :: acc) s

/-- all lines of a file as `getline` delivers them -/
def getlines (s : Text) : List Text := getlineAux [] s

/-- the variables that `readHdr` gets by reference; `none` stands for a variable that has not been initialised -/
structure HdrVars where
  samples : Option Int
  lines : Option Int
  bands : Option Int
  dataType : Option Int
  format : Int

/-- `sscanf(line, "%*[^=]=%d", &x)`: hypermat.cpp:69-78: the value of `x` afterwards -/
def scanVar (line : Text) (x : Option Int) : M (Option Int) :=
  match afterEq line with
  | none => pure x
  | some r => do
    let v ← scanD r
    pure (match v with
      | none => x
      | some y => some y)

/-- `lineBuff.find(w) != lineBuff.npos` -/
def finds (w line : Text) : Bool := decide (w <:+: line)

/-- hypermat.cpp:97-99: the part of a line that is taken.  The second argument of `substr` is a number of characters, but the code
passes a position. -/
def braced (line : Text) : Text :=
  let startIndex := if '{' ∈ line then line.idxOf '{' + 1 else 0
  let endIndex := if '}' ∈ line then line.idxOf '}' else line.length
  (line.drop startIndex).take endIndex

/-- hypermat.cpp:93-101: the text that is collected, and the lines that remain -/
def collectBraced (line : Text) : List Text → Text × List Text
  | [] => (braced line, [])
  | l :: rest =>
    if '}' ∈ line then (braced line, l :: rest)
    else
      let r := collectBraced l rest
      (braced line ++ r.1, r.2)

/-- the words that `ss >> s` delivers one after the other: `acc` are the characters (in reverse) of the current word -/
def wordsAux : Text → Text → List Text
  | acc, [] => if acc = [] then [] else [acc.reverse]
  | acc, c :: s =>
    if isSpaceC c = true then (if acc = [] then wordsAux [] s else acc.reverse :: wordsAux [] s)
    else wordsAux (c :: acc) s

/-- the loop that stores the wavelengths: hypermat.cpp:102-107.  The state is the words that have not been read and the string `s`, which
keeps its value when there is no further word.  `other` is the result of `atof` for a text that does not start with a decimal number. -/
def storeWaves (other : Text → FV) (wavelength : Option Nat) (bands : Int) (text : Text) : M Unit := do
  let _ ← forA 0 bands (wordsAux [] text, ([] : Text)) fun i st => do
    let st := match st.1 with
      | [] => st
      | w :: ws => (ws, w)
    let v ← atofBuf (fun t => some (other t)) (cstr st.2 ++ ['\x00'])
    let p ← usePtr wavelength
    storeN 4 p i (f32.encode (f32.conv v))
    pure st
  pure ()

/-- one round of the loop of `readHdr`: hypermat.cpp:64-109.  `item` is an array of 20 characters that is new in every round. -/
def hdrRound (other : Text → FV) (wavelength : Option Nat) (line : Text) (rest : List Text) (h : HdrVars) : M (List Text × HdrVars) := do
  let item := (cstr line).takeWhile (· ≠ '=')
  if item = [] then fail (.ub .uninit)
  else if item.length ≥ 20 then fail (.ub .oob)
  else if cmpstr item "samples".toList = 1 then do
    let x ← scanVar (cstr line) h.samples
    pure (rest, { h with samples := x })
  else if cmpstr item "lines".toList = 1 then do
    let x ← scanVar (cstr line) h.lines
    pure (rest, { h with lines := x })
  else if cmpstr item "bands".toList = 1 then do
    let x ← scanVar (cstr line) h.bands
    pure (rest, { h with bands := x })
  else if cmpstr item "data".toList = 1 then do
    let x ← scanVar (cstr line) h.dataType
    pure (rest, { h with dataType := x })
  else if finds "interleave".toList line = true then
    pure (rest, { h with format := if finds "q".toList line = true then 0 else if finds "p".toList line = true then 2 else 1 })
  else if finds "wavelength = {".toList line = true then do
    let bands ← initialised h.bands
    storeWaves other wavelength bands (collectBraced line rest).1
    pure ((collectBraced line rest).2, h)
  else pure (rest, h)

/-- the loop of `readHdr`: hypermat.cpp:62-110.  The first argument bounds the number of rounds; the number of lines is enough. -/
def hdrRounds (other : Text → FV) (wavelength : Option Nat) : Nat → List Text → HdrVars → M HdrVars
  | _, [], h => pure h
  | 0, _ :: _, _ => fail .diverge
  | n + 1, l :: rest, h => do
    let r ← hdrRound other wavelength l rest h
    hdrRounds other wavelength n r.1 r.2

/-- `readHdr`: hypermat.cpp:48-113; `none` is a file that cannot be opened -/
def readHdr (other : Text → FV) (hdr : Option Text) (h : HdrVars) (wavelength : Option Nat) : M HdrVars :=
  match hdr with
  | none => pure h
  | some txt => hdrRounds other wavelength (getlines txt).length (getlines txt) h

/-- `HyMat::open` with a header, both names given: hypermat.hpp:294-326 -/
def openHdr (other : Text → FV) (o : HyMat) (image : Option (List UInt8)) (hdr : Option Text) : M HyMat := do
  let o ← clear o
  let h ← readHdr other hdr ⟨none, none, none, none, o.format⟩ o.wavelength
  let samples ← initialised h.samples
  let lines ← initialised h.lines
  let bands ← initialised h.bands
  let dataType ← initialised h.dataType
  let o := { o with samples := samples, lines := lines, bands := bands, dataType := dataType, format := h.format }
  let o ← create o samples lines bands dataType h.format none none
  match image with
  | none => pure o
  | some img => do
    readFile o img
    pure o

/-! ### Writing -/

/-- `HyMat::writeHdr`: hypermat.hpp:265-268: the name of the header file -/
def hdrPath (path : Text) : Text := path.takeWhile (· ≠ '.') ++ "hdr".toList

/-- `HyMat::writeHdr`: hypermat.hpp:270-291: the contents of the header file -/
def writeHdr (o : HyMat) : M Text := do
  if o.interleave.length < 3 then fail (.ub .oob) else do
  let head := "ENVI\nsamples = ".toList ++ decInt o.samples ++ "\nlines = ".toList ++ decInt o.lines ++ "\nbands = ".toList
    ++ decInt o.bands ++ "\ndata type = ".toList ++ decInt o.dataType ++ "\ninterleave = ".toList ++ o.interleave.take 3 ++ "\n".toList
  match o.wavelength with
  | none => pure (head ++ "wavelength = unknown \n".toList)
  | some w => do
    let last ← ev (CI.lit o.bands - CI.lit 1)
    let body ← forA 0 last (head ++ "wavelength = { \n".toList) fun i t => do
      let v ← loadN 4 w i
      pure (t ++ fmtF (f32.decode v) ++ [','])
    let v ← loadN 4 w last
    pure (body ++ fmtF (f32.decode v) ++ ['}'])

/-- `HyMat::save`: hypermat.hpp:228-263: the contents of the image file, and the name and contents of the header file; `none` if nothing
is written.  Not modelled: the calls of the GDAL library in lines 240-246, whose result is not used. -/
def save (o : HyMat) (path : Text) : M (Option (List UInt8 × Text × Text)) := do
  if o.samples = 0 ∨ o.lines = 0 ∨ o.bands = 0 then pure none else do
  let n ← ev (CI.lit o.samples * CI.lit o.lines * CI.lit o.bands)
  if o.elemSize < 0 ∨ n < 0 then fail (.ub .oob) else do
  let d ← usePtr o.data
  let bytes ← loadBytes d (o.elemSize * n).toNat 0
  let txt ← writeHdr o
  pure (some (bytes, hdrPath path, txt))

end HyperCV.HyMat
