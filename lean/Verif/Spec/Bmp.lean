/- Specification vocabulary for 24-bit BMP files (the published file format, independent of the code). -/
import Verif.Spec.Image

namespace HyperCV.Spec

/-- the `w` bytes of the file starting at `off` are the little-endian representation of `v` -/
def FieldLE (file : List UInt8) (off w v : Nat) : Prop :=
  v < 256 ^ w ∧ ∀ t, t < w → file[off + t]? = some (UInt8.ofNat (v / 256 ^ t))

/-- number of bytes of a stored row of `C` 24-bit pixels: rows are padded to a multiple of 4 -/
def bmpStride (C : Nat) : Nat := (3 * C + 3) / 4 * 4

/-- `file` is an uncompressed 24-bit BMP file of `R` rows and `C` columns with 54 bytes of headers; byte `k` of
pixel `j` of the `r`-th stored row is `raw r j k`.  The padding bytes of the rows are not specified. -/
structure IsBmp24 (file : List UInt8) (R C : Nat) (raw : Nat → Nat → Nat → UInt8) : Prop where
  magic : file[0]? = some 0x42 ∧ file[1]? = some 0x4D
  fileSize : FieldLE file 2 4 file.length
  dataOffset : FieldLE file 10 4 54
  infoSize : FieldLE file 14 4 40
  width : FieldLE file 18 4 C
  height : FieldLE file 22 4 R
  planes : FieldLE file 26 2 1
  bitCount : FieldLE file 28 2 24
  compression : FieldLE file 30 4 0
  length : file.length = 54 + R * bmpStride C
  pixel : ∀ r j k, r < R → j < C → k < 3 → file[54 + r * bmpStride C + 3 * j + k]? = some (raw r j k)

/-- what the format prescribes for an image: rows bottom-up, colours in the order blue, green, red -/
def bottomUpBgr (R : Nat) (px : Nat → Nat → Nat → UInt8) : Nat → Nat → Nat → UInt8 :=
  fun r j k => px (R - 1 - r) j (2 - k)

end HyperCV.Spec
