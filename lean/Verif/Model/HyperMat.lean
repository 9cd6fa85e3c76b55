/- Model of /repo/modules/core/src/c_src/hypermat.c, part 1: construction, copying, deletion. -/
import Verif.Model.TypeH

namespace HyperCV

/-- the C string starting at a character sequence: everything before the first NUL -/
def cstr (s : List Char) : List Char := s.takeWhile (· ≠ '\x00')

/-- the comparison loop of `cmpstr`: hypermat.c:29-31 -/
def cmpLoop (a b : List Char) : Nat → Bool
  | 0 => true
  | n+1 => match a, b with
    | x :: a', y :: b' => if x ≠ y then false else cmpLoop a' b' n
    | _, _ => true

/-- `cmpstr`: hypermat.c:22-35.  The result is the `int` 1 or 0. -/
def cmpstr (temp1 temp2 : List Char) : Int :=
  let s1 := cstr temp1
  let s2 := cstr temp2
  let len := if s1.length ≤ s2.length then s1.length else s2.length
  if s1.length = s2.length ∧ len = 0 then 1
  else if cmpLoop s1 s2 len then 1 else 0

/-- the character sequence `strlen(mat->interleave)` runs over: the three tag characters followed by
whatever is in memory behind them -/
def HyperMat.tagMem (h : HyperMat) : List Char := h.interleave ++ h.pad

/-- conversion of a `size_t` value to `int` (wraps) -/
def toInt32 (x : Int) : Int := (x + 2147483648) % 4294967296 - 2147483648

/-- `if (src != NULL) memcpy(dst, src, n)`: hypermat.c:202-206 -/
def memcpyIf (dst : Nat) (src : Option Nat) (n : Int) : M Unit :=
  match src with
  | none => pure ()
  | some s => memcpy dst 0 s 0 n

/-- `create_hyper_mat_with_data`: hypermat.c:172-217.
The single allocation is modelled as a header object plus two blocks (the data and the wavelength region);
the placement of the regions inside the allocation is modelled in `Verif/Model/Alloc.lean`.
A negative `memneeded` makes `malloc` fail and the assertion at line 190 exit; a negative `memset`
length is undefined behaviour.  The three tag characters are copied from the C string `interleave`. -/
def create_hyper_mat_with_data (samples lines bands data_type : Int) (interleave : List Char)
    (data wavelength : Option Nat) : M (Option Nat) := do
  cassert (samples > 0)
  cassert (lines > 0)
  cassert (bands > 0)
  let elem_size := get_elemsize data_type
  let mat_data_size ← ev (samples * lines * bands * elem_size)
  let wave_data_size := toInt32 (bands * 4)
  let memneeded := 40 + mat_data_size + 64 + wave_data_size + 64
  cassert (0 ≤ memneeded)
  let d ← malloc mat_data_size.toNat
  memset d 0 0 mat_data_size
  let w ← malloc wave_data_size.toNat
  memset w 0 0 wave_data_size
  memcpyIf d data mat_data_size
  memcpyIf w wavelength wave_data_size
  let il := (interleave ++ ['\x00']).take 3
  if il.length < 3 then fail (.ub .oob) else
  let p ← nextH
  let pad ← padOf p
  let p ← newH { samples, lines, bands, data_type, interleave := il, pad, data := d, wavelength := some w }
  pure (some p)

/-- `create_hyper_mat`: hypermat.c:155-159 -/
def create_hyper_mat (samples lines bands data_type : Int) (interleave : List Char) : M (Option Nat) :=
  create_hyper_mat_with_data samples lines bands data_type interleave none none

/-- `hyper_mat_copy`: hypermat.c:394-408 (the NULL test at line 396 is inverted in the code) -/
def hyper_mat_copy (mat : Option Nat) : M (Option Nat) := do
  if mat ≠ none then return none
  let h ← derefH mat
  create_hyper_mat_with_data h.samples h.lines h.bands h.data_type h.tagMem (some h.data) h.wavelength

/-- `hyper_mat_copy_wavelength`: hypermat.c:442-457 -/
def hyper_mat_copy_wavelength (src dst : Option Nat) : M Unit := do
  cassert (src ≠ none ∧ dst ≠ none)
  let s ← derefH src
  let d ← derefH dst
  cassert (s.bands = d.bands)
  match s.wavelength with
  | none => pure ()
  | some sw =>
    match d.wavelength with
    | none => fail (.ub .nullDeref)
    | some dw => memcpy dw 0 sw 0 (s.bands * 4)

/-- `hyper_mat_copy_to`: hypermat.c:415-435 -/
def hyper_mat_copy_to (src dst : Option Nat) : M Unit := do
  let sp ← nonNull src
  let dp ← nonNull dst
  let s ← getH sp
  let d ← getH dp
  let elemsize := get_elemsize s.data_type
  cassert (d.samples = s.samples ∧ d.lines = s.lines ∧ d.bands = s.bands ∧ s.data_type = d.data_type)
  let n ← ev (s.samples * s.lines * s.bands * elemsize)
  memcpy d.data 0 s.data 0 n
  hyper_mat_copy_wavelength src dst
  setH dp { d with interleave := s.interleave }

/-- `hyper_mat_empty`: hypermat.c:490-496 -/
def hyper_mat_empty (mat : Option Nat) : Int := if mat = none then 1 else 0

/-- `delete_hyper_mat`: hypermat.c:502-509.  Header, data and wavelengths are one allocation. -/
def delete_hyper_mat (mat : Option Nat) : M Unit :=
  match mat with
  | none => pure ()
  | some p => fun m =>
    match m.hm p with
    | none => .error (.ub .badFree)
    | some h => .ok ((), { m with
        hm := fun q => if q = p then none else m.hm q
        blk := fun q => if q = h.data ∨ some q = h.wavelength then none else m.blk q })

end HyperCV
