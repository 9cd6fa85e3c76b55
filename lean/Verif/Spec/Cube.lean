/- Specification vocabulary for hyperspectral cubes.  Independent of the model of the code: it only talks
about what a client can observe through a cube's header, its data bytes and its wavelength bytes. -/
import Verif.Base.Sem

namespace HyperCV.Spec

/-- The three storage orders of the ENVI format. -/
inductive Layout where
  | bsq | bil | bip
  deriving DecidableEq, Repr

namespace Layout

/-- the header tag of a storage order -/
def tag : Layout → List Char
  | bsq => ['b', 's', 'q']
  | bil => ['b', 'i', 'l']
  | bip => ['b', 'i', 'p']

/-- ENVI definition of the position of element (line `i`, sample `j`, band `k`) in a cube of `S` samples,
`L` lines and `B` bands: band sequential (band, line, sample), band interleaved by line
(line, band, sample), band interleaved by pixel (line, sample, band). -/
def pos (lay : Layout) (S L B i j k : Nat) : Nat :=
  match lay with
  | bsq => (k * L + i) * S + j
  | bil => (i * B + k) * S + j
  | bip => (i * S + j) * B + k

end Layout

/-- documented element sizes in bytes (hypermat.h:7); the complex types 6 and 9 are documented too, see
`documentedSize` -/
def elemBytes : Int → Option Nat
  | 1 => some 1
  | 2 => some 2
  | 3 => some 4
  | 4 => some 4
  | 5 => some 8
  | 12 => some 2
  | 13 => some 4
  | 14 => some 8
  | 15 => some 8
  | _ => none

/-- every data type code documented in hypermat.h:7 with its documented size in bytes -/
def documentedSize : Int → Option Nat
  | 6 => some 8
  | 9 => some 16
  | d => elemBytes d

/-- `h` is a block of exactly `n` bytes and byte `i` of it is `f i` -/
def Bytes (m : Mem) (h n : Nat) (f : Nat → UInt8) : Prop :=
  ∃ l, m.blk h = some l ∧ l.length = n ∧ ∀ i, i < n → l[i]? = some (f i)

/-- `p` points to a well-formed cube of `S` samples, `L` lines and `B` bands of data type `dt`
(elements of `E` bytes) stored in order `lay`: byte `t` of element (line `i`, sample `j`, band `k`)
is `v i j k t`, and byte `t` of the wavelength array is `w t`. -/
structure IsCube (m : Mem) (p : Nat) (lay : Layout) (S L B : Nat) (dt : Int) (E : Nat)
    (v : Nat → Nat → Nat → Nat → UInt8) (w : Nat → UInt8) : Prop where
  size : elemBytes dt = some E
  posS : 0 < S
  posL : 0 < L
  posB : 0 < B
  obj : ∃ (hdr : HyperMat) (wb : Nat) (f : Nat → UInt8),
    m.hm p = some hdr ∧ hdr.samples = S ∧ hdr.lines = L ∧ hdr.bands = B ∧ hdr.data_type = dt ∧
    hdr.interleave = lay.tag ∧ hdr.wavelength = some wb ∧ hdr.data ≠ wb ∧
    Bytes m hdr.data (S * L * B * E) f ∧ Bytes m wb (4 * B) w ∧
    ∀ i j k t, i < L → j < S → k < B → t < E → f (lay.pos S L B i j k * E + t) = v i j k t

/-- nothing that existed in `m` was modified or freed in `m'` -/
def Frame (m m' : Mem) : Prop :=
  ∀ h, h < m.next → m'.blk h = m.blk h ∧ m'.hm h = m.hm h ∧ m'.sm h = m.sm h

/-- `h` is the header object of the cube `p`, or its data block, or its wavelength block -/
def Owns (m : Mem) (p h : Nat) : Prop :=
  h = p ∨ ∃ hdr, m.hm p = some hdr ∧ (h = hdr.data ∨ hdr.wavelength = some h)

/-- the cubes `p` and `q` share no storage -/
def Separate (m : Mem) (p q : Nat) : Prop := ∀ h, ¬ (Owns m p h ∧ Owns m q h)

/-- outside the storage satisfying `own`, the two heaps are identical: nothing was modified, freed or
newly allocated -/
def Unchanged (m m' : Mem) (own : Nat → Prop) : Prop :=
  ∀ h, ¬ own h → m'.blk h = m.blk h ∧ m'.hm h = m.hm h ∧ m'.sm h = m.sm h

/-- every storage unit of the cube `q` was allocated after `m` -/
def FreshCube (m m' : Mem) (q : Nat) : Prop := ∀ h, Owns m' q h → m.next ≤ h

/-- the cubes `p` (in `m`) and `q` (in `m'`) have equal headers, byte-identical data and byte-identical
wavelengths -/
def SameCube (m : Mem) (p : Nat) (m' : Mem) (q : Nat) : Prop :=
  ∃ h h' wb wb' d wd, m.hm p = some h ∧ m'.hm q = some h' ∧
    h.samples = h'.samples ∧ h.lines = h'.lines ∧ h.bands = h'.bands ∧ h.data_type = h'.data_type ∧
    h.interleave = h'.interleave ∧ h.wavelength = some wb ∧ h'.wavelength = some wb' ∧
    m.blk h.data = some d ∧ m'.blk h'.data = some d ∧ m.blk wb = some wd ∧ m'.blk wb' = some wd

/-- What it means that `conv` converts cubes of order `a` into cubes of order `b`: for every heap and every
well-formed cube `p` in it whose byte sizes fit in `int`, the call returns normally with a new cube `q` in
order `b` that has the same dimensions, data type, element at every (line, sample, band) and wavelengths;
`q` lives in fresh storage and nothing that existed before is modified or freed. -/
def Converts (conv : Option Nat → M (Option Nat)) (a b : Layout) : Prop :=
  ∀ (m : Mem) (p S L B : Nat) (dt : Int) (E : Nat) (v : Nat → Nat → Nat → Nat → UInt8) (w : Nat → UInt8),
    m.WF → IsCube m p a S L B dt E v w → S * L * B * E ≤ 2147483647 → 4 * B ≤ 2147483647 →
    ∃ q m', conv (some p) m = .ok (some q, m') ∧ IsCube m' q b S L B dt E v w ∧
      FreshCube m m' q ∧ Frame m m' ∧ m'.WF

end HyperCV.Spec
