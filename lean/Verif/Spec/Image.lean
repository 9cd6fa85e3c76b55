/- Specification vocabulary for 2D images. -/
import Verif.Spec.Cube

namespace HyperCV.Spec

/-- `p` points to a well-formed image of `R` rows, `C` columns and `ch` channels of data type `dt` (elements
of `E` bytes), stored row by row with interleaved channels: byte `t` of channel `c` of pixel (`i`, `j`) is
`px i j c t`. -/
structure IsImage (m : Mem) (p : Nat) (R C : Nat) (dt : Int) (ch E : Nat)
    (px : Nat → Nat → Nat → Nat → UInt8) : Prop where
  size : elemBytes dt = some E
  posR : 0 < R
  posC : 0 < C
  posCh : 0 < ch
  obj : ∃ (hdr : SimpleMat) (f : Nat → UInt8),
    m.sm p = some hdr ∧ hdr.rows = R ∧ hdr.cols = C ∧ hdr.data_type = dt ∧ hdr.channels = ch ∧
    hdr.elem_size = E ∧ Bytes m hdr.data (R * C * ch * E) f ∧
    ∀ i j c t, i < R → j < C → c < ch → t < E → f (((i * C + j) * ch + c) * E + t) = px i j c t

/-- a byte image (data type 1); `px i j c` is channel `c` of pixel (`i`, `j`) -/
def IsImage8 (m : Mem) (p : Nat) (R C ch : Nat) (px : Nat → Nat → Nat → UInt8) : Prop :=
  IsImage m p R C 1 ch 1 (fun i j c _ => px i j c)

/-- the block holding the pixels of image `p` -/
def PixelBlock (m : Mem) (p h : Nat) : Prop := ∃ hdr, m.sm p = some hdr ∧ h = hdr.data

/-- the only difference between `m` and `m'` is in the pixels of image `p`: nothing else was modified, freed
or left allocated -/
def OnlyPixels (m m' : Mem) (p : Nat) : Prop :=
  m'.hm = m.hm ∧ m'.sm = m.sm ∧ m.next ≤ m'.next ∧ ∀ h, ¬ PixelBlock m p h → m'.blk h = m.blk h

/-- the two images do not share their pixels -/
def SepPixels (m : Mem) (p q : Nat) : Prop := ∀ h, ¬ (PixelBlock m p h ∧ PixelBlock m q h)

/-- storage of image `p`: header and pixels -/
def OwnsImg (m : Mem) (p h : Nat) : Prop := h = p ∨ PixelBlock m p h

/-- every storage unit of the image `q` was allocated after `m` -/
def FreshImg (m m' : Mem) (q : Nat) : Prop := ∀ h, OwnsImg m' q h → m.next ≤ h

end HyperCV.Spec
