/- Specification vocabulary for the C++ class of cubes. -/
import Verif.Spec.Cube
import Verif.Model.HyMat

namespace HyperCV.Spec

/-- the numbers of the storage orders (type.h:38-43) -/
def Layout.code : Layout → Int
  | .bsq => 0
  | .bil => 1
  | .bip => 2

/-- the object `o` is a cube of `S` samples, `L` lines and `B` bands of data type `dt` (elements of `E` bytes) stored in order `lay`:
byte `t` of element (line `i`, sample `j`, band `k`) is `v i j k t`, and byte `t` of the wavelength array is `w t`. -/
structure IsHyMat (m : Mem) (o : HyMat) (lay : Layout) (S L B : Nat) (dt : Int) (E : Nat)
    (v : Nat → Nat → Nat → Nat → UInt8) (w : Nat → UInt8) : Prop where
  size : elemBytes dt = some E
  posS : 0 < S
  posL : 0 < L
  posB : 0 < B
  samples : o.samples = S
  lines : o.lines = L
  bands : o.bands = B
  dataType : o.dataType = dt
  format : o.format = lay.code
  interleave : o.interleave = lay.tag
  elemSize : o.elemSize = E
  dataSize : o.dataSize = ((S * L * B * E : Nat) : Int)
  store : ∃ (d wb : Nat) (f : Nat → UInt8), o.data = some d ∧ o.wavelength = some wb ∧ d ≠ wb ∧
    Bytes m d (S * L * B * E) f ∧ Bytes m wb (4 * B) w ∧
    ∀ i j k t, i < L → j < S → k < B → t < E → f (lay.pos S L B i j k * E + t) = v i j k t

/-- the storage of the object was allocated after `m` -/
def FreshHy (m : Mem) (o : HyMat) : Prop := ∀ h, (o.data = some h ∨ o.wavelength = some h) → m.next ≤ h

/-- the contents of storage in which the constructors with arguments succeed: they read these three members before they set them -/
def Lucky (raw : HyMat) : Prop := 0 < raw.bands ∧ (elemBytes raw.dataType).isSome ∧ raw.data = none

end HyperCV.Spec
