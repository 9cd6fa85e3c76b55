/- What may be in the files when a program was stopped. -/
import Verif.Model.Interrupt

namespace HyperCV.Spec

/-- the first `k` bytes or characters -/
def cutAt (k : Nat) : Content → Content
  | .image b => .image (b.take k)
  | .header t => .header (t.take k)

/-- if a program is stopped in a state `s`, these files may be found: a file that is closed is complete; of a file that is open, any part from the beginning is
there -/
def Found (s : Streams) (fs : Files) : Prop :=
  ∀ n, match s n with
    | none => fs n = none
    | some (c, false) => fs n = some c
    | some (c, true) => ∃ k, fs n = some (cutAt k c)

/-- reading the cube `name` in another program gives the cube `c` (with its wavelengths as they were printed) and changes nothing else -/
def Reads (other : List Char → Option FV) (fs : Files) (name : List Char) (c : CubeVal) : Prop :=
  ∀ m : Mem, m.WF → ZeroLast m → ∃ q m', hmreadFile other fs name (headerName name) m = .ok (some q, m') ∧ HasValue m' q c.reread ∧ Frame m m'

/-- the elements of a cube whose storage of `n` bytes has not been initialised -/
def CubeVal.uninitialised (c : CubeVal) (junk : Nat → UInt8) : CubeVal :=
  { c with elem := fun i j k => leNat (tab c.E fun t => junk (c.lay.pos c.S c.L c.B i j k * c.E + t)) }

end HyperCV.Spec
