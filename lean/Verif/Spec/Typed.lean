/- Specification vocabulary for typed elements: cubes and images seen as arrays of numbers. -/
import Verif.Spec.Image
import Verif.Base.Float

namespace HyperCV.Spec

/-- numeric value of a bit pattern of `8 * w` bits read as a two's complement number -/
def signed (w : Nat) (b : Nat) : Int := if b < 256 ^ w / 2 then b else (b : Int) - 256 ^ w

/-- numeric value of an element of a cube or image of data type `dt`; `none` for NaN and infinities and for
types without numeric meaning here -/
def value (dt : Int) (b : Nat) : Option ℚ :=
  match dt with
  | 1 => some (b : ℚ)
  | 2 => some (signed 2 b : ℚ)
  | 3 => some (signed 4 b : ℚ)
  | 4 => match f32.decode b with
    | .fin _ q => some q
    | _ => none
  | 12 => some (b : ℚ)
  | 13 => some (b : ℚ)
  | _ => none

/-- `p` points to a well-formed cube whose element (line `i`, sample `j`, band `k`) has the bit pattern
`a i j k` (stored little-endian in `E` bytes) -/
def IsCubeN (m : Mem) (p : Nat) (lay : Layout) (S L B : Nat) (dt : Int) (E : Nat)
    (a : Nat → Nat → Nat → Nat) (w : Nat → UInt8) : Prop :=
  IsCube m p lay S L B dt E (fun i j k t => leByte (a i j k) t) w ∧
    ∀ i j k, i < L → j < S → k < B → a i j k < 256 ^ E

/-- `p` points to a well-formed image in which channel `c` of pixel (`i`, `j`) has the bit pattern `a i j c`
(stored little-endian in `E` bytes) -/
def IsImageN (m : Mem) (p : Nat) (R C : Nat) (dt : Int) (ch E : Nat) (a : Nat → Nat → Nat → Nat) : Prop :=
  IsImage m p R C dt ch E (fun i j c t => leByte (a i j c) t) ∧
    ∀ i j c, i < R → j < C → c < ch → a i j c < 256 ^ E

/-- `h` is a block of exactly `n` elements of `w` bytes; element `i` has the bit pattern `a i` -/
def IsArray (m : Mem) (h w n : Nat) (a : Nat → Nat) : Prop :=
  (∀ i, i < n → a i < 256 ^ w) ∧
    ∃ f, Bytes m h (n * w) f ∧ ∀ i t, i < n → t < w → f (i * w + t) = leByte (a i) t

/-- the only difference between `m` and `m'` is in the contents of block `h` -/
def OnlyBlock (m m' : Mem) (h : Nat) : Prop :=
  m'.hm = m.hm ∧ m'.sm = m.sm ∧ m'.next = m.next ∧ ∀ x, x ≠ h → m'.blk x = m.blk x

/-- `conv` is an elementwise type conversion from type `t` to type `t'`: for every heap and every well-formed
cube of type `t` in it, in any storage order, whose byte sizes (as type `t` and as type `t'`) fit in `int`, the
call returns normally with a new cube of type `t'` of the same order, geometry and wavelengths, in which every
element is related by `R` to the corresponding element of the argument; the result is in fresh storage and
nothing that existed before is modified or freed. -/
def ConvertsElems (conv : Option Nat → M (Option Nat)) (t t' : Int) (R : Nat → Nat → Prop) : Prop :=
  ∀ (m : Mem) (p : Nat) (lay : Layout) (S L B E E' : Nat) (a : Nat → Nat → Nat → Nat) (w : Nat → UInt8),
    m.WF → IsCubeN m p lay S L B t E a w → elemBytes t' = some E' →
    S * L * B * E ≤ 2147483647 → S * L * B * E' ≤ 2147483647 → 4 * B ≤ 2147483647 →
    ∃ q m' b, conv (some p) m = .ok (some q, m') ∧ IsCubeN m' q lay S L B t' E' b w ∧
      (∀ i j k, i < L → j < S → k < B → R (a i j k) (b i j k)) ∧
      FreshCube m m' q ∧ Frame m m' ∧ m'.WF

/-- `n` is the nearest integer to `x`, the even one if there are two -/
def NearestEven (x : ℚ) (n : ℤ) : Prop := |x - n| ≤ 1 / 2 ∧ (|x - n| = 1 / 2 → n % 2 = 0)

/-- `n` limited to the range `lo .. hi` -/
def clamp (lo hi n : ℤ) : ℤ := if n < lo then lo else if hi < n then hi else n

/-- `h` is a block holding an `R` x `C` matrix row by row; entry (`i`, `j`) has the bit pattern `A i j` -/
def IsMat (m : Mem) (h w R C : Nat) (A : Nat → Nat → Nat) : Prop :=
  IsArray m h w (R * C) (fun p => A (p / C) (p % C))

/-- the blocks `a` and `b` are the only memory that differs between `m` and `m'` (new handles may have been used) -/
def OnlyBlocks (m m' : Mem) (a b : Nat) : Prop :=
  m'.hm = m.hm ∧ m'.sm = m.sm ∧ ∀ x, x ≠ a → x ≠ b → m'.blk x = m.blk x

end HyperCV.Spec
