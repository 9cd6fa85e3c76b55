/- Model of the file functions of /repo/modules/core/src/c_src/hypermat.c: ENVI headers, saving and loading of cubes.
Files are modelled by their contents; the bytes of a header file are characters.  Opening a file for writing and writing
always succeed.  `printf("%f")`, `sscanf("%d")` and `atof` are modelled by their specification in C and IEEE 754 (decimal output and
input rounded correctly). -/
import Verif.Model.HyperMat
import Verif.Base.Float

namespace HyperCV

/-- contents of a header file, or a part of it -/
abbrev Text := List Char

/-! ### Decimal output -/

/-- the digit `d` -/
def digitChar (d : Nat) : Char := Char.ofNat (48 + d)

/-- decimal digits of a natural number -/
def decNat (n : Nat) : Text :=
  if n < 10 then [digitChar n] else decNat (n / 10) ++ [digitChar (n % 10)]
termination_by n

/-- `printf("%d", x)` -/
def decInt (x : Int) : Text := if x < 0 then '-' :: decNat x.natAbs else decNat x.natAbs

/-- six decimals, with leading zeros -/
def dec6 (k : Nat) : Text :=
  [digitChar (k / 100000 % 10), digitChar (k / 10000 % 10), digitChar (k / 1000 % 10), digitChar (k / 100 % 10),
    digitChar (k / 10 % 10), digitChar (k % 10)]

/-- `printf("%f", v)`: six decimals, correctly rounded.  Simplification: a NaN is printed without sign. -/
def fmtF : FV → Text
  | .nan => "nan".toList
  | .inf s => if s = true then "-inf".toList else "inf".toList
  | .fin s q =>
    let k := (rne (|q| * 1000000)).toNat
    (if s = true then ['-'] else []) ++ decNat (k / 1000000) ++ '.' :: dec6 (k % 1000000)

/-! ### Decimal input -/

/-- `isspace` -/
def isSpaceC (c : Char) : Bool := c = ' ' || (9 ≤ c.toNat && c.toNat ≤ 13)

/-- value of a sequence of decimal digits -/
def digitsVal (l : Text) : Nat := l.foldl (fun a c => a * 10 + (c.toNat - 48)) 0

/-- `isdigit` -/
def isDigitC (c : Char) : Bool := 48 ≤ c.toNat && c.toNat ≤ 57

/-- an optional sign: whether it is negative, and the rest -/
def splitSign : Text → Bool × Text
  | '-' :: r => (true, r)
  | '+' :: r => (false, r)
  | r => (false, r)

/-- the conversion `%d` of `sscanf` applied to `r`.  `none`: no conversion.  A value that does not fit in an `int` is undefined
behaviour. -/
def scanD (r : Text) : M (Option Int) :=
  let p := splitSign (r.dropWhile isSpaceC)
  let ds := p.2.takeWhile isDigitC
  if ds = [] then pure none
  else
    let x : Int := if p.1 = true then -(digitsVal ds : Int) else digitsVal ds
    if CI.InR x then pure (some x) else fail (.ub .overflow)

/-- the text behind `%*[^=]=`; `none` if this does not match -/
def afterEq (line : Text) : Option Text :=
  match line.takeWhile (· ≠ '='), line.dropWhile (· ≠ '=') with
  | [], _ => none
  | _, [] => none
  | _, _ :: r => some r

/-- `sscanf(line, "%*[^=]=%d", &temp)`: the value of `temp` afterwards -/
def scanField (line : Text) (temp : Int) : M Int :=
  match afterEq line with
  | none => pure temp
  | some r => do
    let x ← scanD r
    pure (x.getD temp)

/-- the decimals behind a point -/
def fracDigits : Text → Text
  | '.' :: r => r.takeWhile isDigitC
  | _ => []

/-- what follows a point and the decimals behind it -/
def fracRest : Text → Text
  | '.' :: r => r.dropWhile isDigitC
  | r => r

/-- `atof` on the buffer `s`, which is not terminated: the value and what has not been looked at.  An exponent is part of the number
if it has digits.  `other` gives the result for a text that does not start with a decimal number (no number, an infinity, a NaN, a
hexadecimal number): a value, or nothing if `atof` runs over the end of the buffer. -/
def atofBuf (other : Text → Option FV) (s : Text) : M FV :=
  let p := splitSign (s.dropWhile isSpaceC)
  let ip := p.2.takeWhile isDigitC
  let r := p.2.dropWhile isDigitC
  let fp := fracDigits r
  let r2 := fracRest r
  let hex := decide (ip = ['0']) && (r.head? = some 'x' || r.head? = some 'X')
  if (ip = [] ∧ fp = []) ∨ hex = true then
    match other s with
    | none => fail (.ub .oob)
    | some v => pure v
  else
    let mant : ℚ := (digitsVal (ip ++ fp) : ℚ) / 10 ^ fp.length
    let done (e : Int) (rest : Text) : M FV :=
      if rest = [] then fail (.ub .oob)
      else pure (f64.round p.1 ((if p.1 = true then -1 else 1) * (mant * 10 ^ e)))
    match r2 with
    | c :: r3 =>
      if c = 'e' ∨ c = 'E' then
        let ep := splitSign r3
        let ed := ep.2.takeWhile isDigitC
        if ed = [] then done 0 ep.2
        else done (if ep.1 = true then -(digitsVal ed : Int) else digitsVal ed) (ep.2.dropWhile isDigitC)
      else done 0 r2
    | [] => done 0 []

/-! ### Writing -/

/-- `writehdr`: hypermat.c:337-386: the contents of the header file -/
def writehdr (samples lines bands data_type : Int) (interleave : List Char) (wavelength : Option Nat) : M Text := do
  let il := (interleave ++ ['\x00']).take 3
  if il.length < 3 then fail (.ub .oob) else do
  let head := "ENVI\nsamples = ".toList ++ decInt samples ++ "\nlines = ".toList ++ decInt lines ++ "\nbands = ".toList ++ decInt bands
    ++ "\ndata type = ".toList ++ decInt data_type ++ "\ninterleave = ".toList ++ cstr il ++ "\n".toList
  match wavelength with
  | none => pure (head ++ "wavelength = unknown \n".toList)
  | some w => do
    let last ← ev (CI.lit bands - CI.lit 1)
    let body ← forA 0 last (head ++ "wavelength = { \n".toList) fun i t => do
      let v ← loadN 4 w i
      pure (t ++ fmtF (f32.decode v) ++ [','])
    let v ← loadN 4 w last
    pure (body ++ fmtF (f32.decode v) ++ ['}'])

/-- `hmsave`: hypermat.c:309-325: the contents of the image file and of the header file -/
def hmsave (mat : Option Nat) : M (List UInt8 × Text) := do
  let p ← nonNull mat
  let h ← getH p
  let elemsize := get_elemsize h.data_type
  let n ← ev (CI.lit h.samples * CI.lit h.lines * CI.lit h.bands)
  if elemsize < 0 ∨ n < 0 then fail (.ub .oob) else do
  let bytes ← loadBytes h.data (elemsize * n).toNat 0
  let hdr ← writehdr h.samples h.lines h.bands h.data_type h.interleave h.wavelength
  pure (bytes, hdr)

/-! ### Reading -/

/-- the successive results of `fgets(line, 10000, fp)`: `room` characters still fit into the buffer, `acc` are the characters (in
reverse) that it already contains -/
def fgetsAux : Nat → Text → Text → List Text
  | _, acc, [] => if acc = [] then [] else [acc.reverse]
  | room, acc, c :: s =>
    if c = '\n' ∨ room ≤ 1 then (c :: acc).reverse :: fgetsAux 9999 [] s
    else fgetsAux (room - 1) (c :: acc) s

/-- all lines of a file as `fgets` delivers them (hypermat.c:9-11: `MAXLINE` is 10000) -/
def fgetsLines (s : Text) : List Text := fgetsAux 9999 [] s

/-- the variables of `readhdr`.  `none` stands for an uninitialised variable or array element; `wavelength` is a pointer that may be
NULL. -/
structure Hdr where
  samples : Option Int
  lines : Option Int
  bands : Option Int
  data_type : Option Int
  sampletemp : Int
  linetemp : Int
  bandtemp : Int
  datatypetemp : Int
  item : Option Text
  it : Nat → Option Char
  interleave : Text
  wavelength : Option Nat

/-- hypermat.c:86-91 and 230-232 -/
def Hdr.init : Hdr := ⟨none, none, none, none, 0, 0, 0, 0, none, fun _ => none, [], none⟩

/-- `sscanf(line, "%[^=]", item)`: hypermat.c:95.  Nothing is stored if the line is empty or starts with `=`. -/
def scanItem (line : Text) (item : Option Text) : Option Text :=
  match line.takeWhile (· ≠ '=') with
  | [] => item
  | t => some t

/-- an uninitialised array or variable is read -/
def initialised {α : Type} : Option α → M α
  | none => fail (.ub .uninit)
  | some a => pure a

/-- contents of uninitialised memory -/
def junkOf (h : Nat) : M (Nat → UInt8) := fun m => .ok (m.junk h, m)

/-- hypermat.c:117-123: the line with the interleave tag.  The buffer of the caller has three bytes (hypermat.c:231). -/
def scanTag (line : Text) (h : Hdr) : M Hdr := do
  let it : Nat → Option Char := match afterEq line with
    | none => h.it
    | some r => fun i => if i < r.length ∧ i < 4 then r[i]? else h.it i
  let tag ← forA 0 4 h.interleave fun i tag => do
    let c ← initialised (it i.toNat)
    if c ≠ ' ' then
      if tag.length ≥ 3 then fail (.ub .oob) else pure (tag ++ [c])
    else pure tag
  pure { h with it := it, interleave := tag }

/-- hypermat.c:130-137: the characters that are copied to `w`, and the lines that have not been read.  `line` is the contents of the
line buffer. -/
def collectWave (line : Text) : List Text → Text × List Text
  | [] => ([], [])
  | l :: rest =>
    if '}' ∈ line then ([], l :: rest)
    else
      let r := collectWave (cstr l) rest
      ((cstr l).filter (· ≠ '\n') ++ r.1, r.2)

/-- the C string in a buffer of `cap` bytes that starts with `w` and goes on with uninitialised bytes; `none` if it is not
terminated in the buffer -/
def bufString (cap : Nat) (w : Text) (junk : Nat → UInt8) : Option Text :=
  let buf := w ++ (tab cap fun i => Char.ofNat (junk i).toNat).drop w.length
  if '\x00' ∈ buf then some (cstr buf) else none

/-- the loop of `read_wavelength`: hypermat.c:46-59.  `tmp` is the part of the array `tmp` that has been filled; the rest of its 20
characters are spaces. -/
def waveLoop (other : Text → Option FV) (wave : Nat) (bands : Int) : Text → Text → Int → M Unit
  | [], _, _ => pure ()
  | c :: s, tmp, n =>
    if c ≠ ',' ∧ c ≠ '}' then
      if tmp.length ≥ 20 then fail (.ub .oob)
      else if n = bands then pure ()
      else waveLoop other wave bands s (tmp ++ [c]) n
    else do
      let v ← atofBuf other (tmp ++ List.replicate (20 - tmp.length) ' ')
      storeN 4 wave n (f32.encode (f32.conv v))
      if c = '}' ∨ n + 1 = bands then pure () else waveLoop other wave bands s [] (n + 1)

/-- hypermat.c:127-142 and `read_wavelength` (hypermat.c:39-62) with the text `w`.  `malloc` of a negative number of bytes fails, and
the NULL pointer is used.  Simplification: the contents of the two buffers `w` and `tmp`, which are freed before this ends, are
values and not blocks in the heap. -/
def readWave (other : Text → Option FV) (bands : Int) (w : Text) : M Nat := do
  let cap ← ev (CI.lit 20 * CI.lit bands)
  if cap < 0 then fail (.ub .nullDeref) else do
  let hw ← malloc cap.toNat
  if cap < w.length then fail (.ub .oob) else do
  let wave ← malloc (bands.toNat * 4)
  let junk ← junkOf hw
  match bufString cap.toNat w junk with
  | none => fail (.ub .oob)
  | some s => do
    let tmp ← malloc 20
    waveLoop other wave bands s [] 0
    free tmp
    free hw
    pure wave

/-- one round of the loop of `readhdr`: hypermat.c:95-143.  `line` is the line that has been read, `rest` are the lines behind it; the
result are the lines that remain and the new values of the variables. -/
def hdrStep (other : Text → Option FV) (line : Text) (rest : List Text) (h : Hdr) : M (List Text × Hdr) := do
  let item ← initialised (scanItem line h.item)
  let h := { h with item := some item }
  if cmpstr item "samples".toList = 1 then do
    let t ← scanField line h.sampletemp
    pure (rest, { h with sampletemp := t, samples := some t })
  else if cmpstr item "lines".toList = 1 then do
    let t ← scanField line h.linetemp
    pure (rest, { h with linetemp := t, lines := some t })
  else if cmpstr item "bands".toList = 1 then do
    let t ← scanField line h.bandtemp
    pure (rest, { h with bandtemp := t, bands := some t })
  else if cmpstr item "data".toList = 1 then do
    let t ← scanField line h.datatypetemp
    pure (rest, { h with datatypetemp := t, data_type := some t })
  else if cmpstr item "interleave".toList = 1 then do
    let h ← scanTag line h
    pure (rest, h)
  else if cmpstr line "wavelength = {".toList = 1 then do
    let wave ← readWave other h.bandtemp (collectWave line rest).1
    pure ((collectWave line rest).2, { h with wavelength := some wave })
  else pure (rest, h)

/-- the loop of `readhdr`: hypermat.c:93-144.  The first argument bounds the number of rounds; the number of lines is enough. -/
def hdrLoop (other : Text → Option FV) : Nat → List Text → Hdr → M Hdr
  | _, [], h => pure h
  | 0, _ :: _, _ => fail .diverge
  | n + 1, l :: rest, h => do
    let r ← hdrStep other (cstr l) rest h
    hdrLoop other n r.1 r.2

/-- `readhdr`: hypermat.c:82-145 -/
def readhdr (other : Text → Option FV) (hdr : Text) : M Hdr :=
  hdrLoop other (fgetsLines hdr).length (fgetsLines hdr) Hdr.init

/-- `fread` of at most `n` bytes into the block `d` -/
def freadInto (d : Nat) (img : List UInt8) (n : Int) : M Unit :=
  forI 0 (min (img.length : Int) n) fun i => store d i (img.getD i.toNat 0)

/-- `hmread_with_hdr`: hypermat.c:225-264.  The arguments are the contents of the two files, `none` for a file that cannot be
opened.  `elem_size` is unsigned.  The buffer of the tag and the tag in it are modelled by a block and a list. -/
def hmread_with_hdr (other : Text → Option FV) (image : Option (List UInt8)) (hdr : Option Text) : M (Option Nat) := do
  let tagbuf ← malloc 3
  match image, hdr with
  | some img, some txt => do
    let h ← readhdr other txt
    let samples ← initialised h.samples
    let lines ← initialised h.lines
    let bands ← initialised h.bands
    let data_type ← initialised h.data_type
    let elem_size := u32 (get_elemsize data_type)
    let data_size ← ev (CI.lit samples * CI.lit lines * CI.lit bands)
    cassert (decide (0 ≤ data_size))
    let data ← malloc (data_size * elem_size).toNat
    freadInto data img (data_size * elem_size)
    let junk ← junkOf tagbuf
    let mat ← create_hyper_mat_with_data samples lines bands data_type
      (tab 3 fun t => h.interleave.getD t (Char.ofNat (junk t).toNat)) (some data) h.wavelength
    free tagbuf
    pure mat
  | _, _ => pure none

/-- `hmread_with_size`: hypermat.c:275-302.  A negative element size makes `malloc` fail, and `fread` writes to NULL.  The
wavelengths are never initialised. -/
def hmread_with_size (image : Option (List UInt8)) (samples lines bands data_type : Int) (interleave : List Char) : M (Option Nat) := do
  cassert (decide (samples > 0 ∧ lines > 0 ∧ bands > 0))
  match image with
  | none => pure none
  | some img => do
    let elem_size := get_elemsize data_type
    let data_size ← ev (CI.lit samples * CI.lit lines * CI.lit bands)
    if elem_size < 0 then fail (.ub .nullDeref) else do
    let data ← malloc (data_size * elem_size).toNat
    freadInto data img (data_size * elem_size)
    let wave ← malloc (bands.toNat * 4)
    create_hyper_mat_with_data samples lines bands data_type interleave (some data) (some wave)

end HyperCV
