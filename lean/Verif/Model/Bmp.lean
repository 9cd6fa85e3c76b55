/- Model of the BMP routines of /repo/modules/core/src/c_src/simplemat.c.  A file is a list of bytes: the writer
returns the bytes it wrote, the reader takes the contents of the file.  Path handling and failures of `fopen` are
not modelled. -/
import Verif.Model.Color

namespace HyperCV

/-- the `w` bytes of an unsigned field, little endian (x86) -/
def leBytes (w v : Nat) : List UInt8 := tab w (leByte v)

/-- an unsigned field of `w` bytes at offset `off` of a file -/
def fieldU (file : List UInt8) (off w : Nat) : Nat := leNat ((file.drop off).take w)

/-- a 32-bit signed field -/
def fieldI (file : List UInt8) (off : Nat) : Int :=
  if fieldU file off 4 < 2147483648 then (fieldU file off 4 : Int) else (fieldU file off 4 : Int) - 4294967296

/-- conversion of an `int` to a 32-bit field -/
def fieldOf (x : Int) : Nat := (x % 4294967296).toNat

/-- `fread(buf, 1, n, fp)` at file position `pos`: copies what the file still contains, at most `n` bytes -/
def freadBytes (buf : Nat) (file : List UInt8) (pos : Nat) (n : Nat) : M Unit :=
  forI 0 (min n (file.length - pos) : Nat) fun t =>
    store buf t ((file[pos + t.toNat]?).getD 0)

/-- the swap of two bytes of a buffer (simplemat.c:152-154 and 244-246; the `int` temporary holds a byte) -/
def swapBytes (buf : Nat) (a b : Int) : M Unit := do
  let tmp ← load buf a
  let v ← load buf b
  store buf a v
  store buf b tmp

/-- `smread_bmp`: simplemat.c:119-176.  The information header starts at byte 14 (sizeof(BmpFileHeader), packed);
`biWidth` is at byte 18, `biHeight` at 22 and `biBitCount` at 28 of the file.  A file with less than 54 bytes leaves
the header uninitialised.  A negative size makes `malloc` return NULL, to which `fread` then writes. -/
def smread_bmp (file : List UInt8) : M (Option Nat) := do
  if file.length < 54 then fail (.ub .uninit) else
  let bmpWidth := fieldI file 18
  let bmpHeight := fieldI file 22
  let biBitCount : Int := fieldU file 28 2
  let lineByte ← ev ((bmpWidth * CI.lit biBitCount / CI.lit 8 + CI.lit 3) / CI.lit 4 * CI.lit 4)
  -- the colour table (1024 entries of 4 bytes) is never used nor freed
  let pos ← (if biBitCount = 8 then do
      let t ← malloc 4096
      freadBytes t file 54 1024
      pure 1078
    else pure 54 : M Nat)
  let n ← ev (lineByte * CI.lit bmpHeight)
  if n < 0 then fail (.ub .nullDeref) else
  let buf ← malloc n.toNat
  freadBytes buf file pos n.toNat
  let half ← ev (CI.lit bmpHeight / CI.lit 2)
  forI 0 half fun i =>
    forI 0 bmpWidth fun j =>
      forI 0 3 fun k => do
        let a ← ev (i * CI.lit lineByte + j * CI.lit 3 + k)
        let b ← ev ((CI.lit bmpHeight - i - CI.lit 1) * CI.lit lineByte + j * CI.lit 3 + CI.lit 2 - k)
        swapBytes buf a b
  let res ← create_simple_mat bmpHeight bmpWidth 1 3
  let r ← derefS res
  let w8 ← ev (bmpWidth * CI.lit biBitCount / CI.lit 8)
  (if lineByte = w8 then do
      let n ← ev (lineByte * CI.lit bmpHeight)
      memcpy r.data 0 buf 0 n
    else
      forI 0 bmpHeight fun i => do
        let d ← ev (i * CI.lit bmpWidth * CI.lit 3)
        let s ← ev (i * CI.lit lineByte)
        let w ← ev (bmpWidth * CI.lit 3)
        memcpy r.data d buf s w)
  free buf
  pure res

/-- the two headers written by `smwrite_bmp`: simplemat.c:211-236 (fields in file order, packed) -/
def bmpHeaders (width height lineSize : Int) : List UInt8 :=
  leBytes 2 0x4D42 ++ leBytes 4 (fieldOf (54 + lineSize)) ++ leBytes 2 0 ++ leBytes 2 0 ++ leBytes 4 54 ++
  (leBytes 4 40 ++ leBytes 4 (fieldOf width) ++ leBytes 4 (fieldOf height) ++ leBytes 2 1 ++ leBytes 2 24 ++
    leBytes 4 0 ++ leBytes 4 (fieldOf lineSize) ++ leBytes 4 100 ++ leBytes 4 100 ++ leBytes 4 0 ++ leBytes 4 0)

/-- the pixel data part of `smwrite_bmp`: simplemat.c:252-266.  The pointers `imgBuf` and `data` advance by
`width*3` and `lineByte` per row. -/
def bmpRows (imgBuf : Nat) (width height lineByte : Int) : M (List UInt8) := do
  let w8 ← ev (width * CI.lit 24 / CI.lit 8)
  let n ← ev (height * CI.lit lineByte)
  if lineByte > w8 then
    let tmp ← malloc n.toNat
    forI 0 height fun i => do
      let w ← ev (width * CI.lit 3)
      memcpy tmp (i * lineByte) imgBuf (i * w) w
    let bytes ← loadBytes tmp n.toNat 0
    free tmp
    pure bytes
  else loadBytes imgBuf n.toNat 0

/-- `smwrite_bmp`: simplemat.c:183-269; returns the bytes of the file -/
def smwrite_bmp (src_mat : Option Nat) : M (List UInt8) := do
  let sp ← nonNull src_mat
  let s ← getS sp
  cassert (s.data_type = 1)
  let mat ← (if s.channels = 1 then sm_gray2rgb (some sp) else pure (some sp) : M (Option Nat))
  let h ← derefS mat
  let imgBuf := h.data
  let width := h.cols
  let height := h.rows
  let lineByte ← ev ((width * CI.lit 24 / CI.lit 8 + CI.lit 3) / CI.lit 4 * CI.lit 4)
  let lineSize ← ev (lineByte * CI.lit height)
  let half ← ev (CI.lit height / CI.lit 2)
  forI 0 half fun i =>
    forI 0 width fun j =>
      forI 0 3 fun k => do
        let a ← ev (i * CI.lit width * CI.lit 3 + j * CI.lit 3 + k)
        let b ← ev ((CI.lit height - i - CI.lit 1) * CI.lit width * CI.lit 3 + j * CI.lit 3 + CI.lit 2 - k)
        swapBytes imgBuf a b
  let rows ← bmpRows imgBuf width height lineByte
  pure (bmpHeaders width height lineSize ++ rows)

end HyperCV
