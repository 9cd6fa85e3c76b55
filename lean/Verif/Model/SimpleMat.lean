/- Model of /repo/modules/core/src/c_src/simplemat.c, part 1: construction, copying, deletion. -/
import Verif.Model.TypeH

namespace HyperCV

/-- `create_simple_mat_with_data`: simplemat.c:26-61.
For `data = NULL` the single allocation is modelled as a pixel block of `rows*cols*elem_size*channels`
bytes (with the allocator's arbitrary contents, of which only the first `rows*cols*elem_size` bytes are
zeroed, line 48) plus a header object; the up to 64 bytes of alignment slack behind the pixels are not
accessible in the model.  For `data ≠ NULL` the header refers to the caller's block (line 53).
A negative `memneeded` makes `malloc` fail (line 43). -/
def create_simple_mat_with_data (rows cols data_type channels : Int) (data : Option Nat) : M (Option Nat) := do
  cassert (rows > 0 ∧ cols > 0)
  let elem_size := get_elemsize data_type
  match data with
  | none => do
    let data_size ← ev (rows * cols * elem_size * channels)
    let memneeded ← ev (CI.lit 32 + (CI.lit data_size + CI.lit 64))
    cassert (0 ≤ memneeded)
    let n ← ev (rows * cols * elem_size)
    let d ← malloc data_size.toNat
    memset d 0 0 n
    let p ← newS { rows, cols, data_type, channels, elem_size, data := d, inl := true }
    pure (some p)
  | some d => do
    let p ← newS { rows, cols, data_type, channels, elem_size, data := d, inl := false }
    pure (some p)

/-- `create_simple_mat`: simplemat.c:11-15 -/
def create_simple_mat (rows cols data_type channels : Int) : M (Option Nat) :=
  create_simple_mat_with_data rows cols data_type channels none

/-- `simple_mat_copy`: simplemat.c:95-111 -/
def simple_mat_copy (mat : Option Nat) : M (Option Nat) := do
  let s ← derefS mat
  let elemsize := get_elemsize s.data_type
  let dst ← create_simple_mat s.rows s.cols s.data_type s.channels
  let d ← derefS dst
  let n ← ev (s.rows * s.cols * elemsize * s.channels)
  memcpy d.data 0 s.data 0 n
  pure dst

/-- address of the pixels of an image whose header is at address `a`: inline pixels follow the header
(32 bytes) at the next multiple of 64 (simplemat.c:47-48) -/
def pixelAddr (inl : Bool) (a ext : Nat) : Nat := if inl then byte_alignment (a + 32) 64 else ext

/-- release the header object; inline pixels live in the same allocation -/
def freeImage (p : Nat) (h : SimpleMat) : M Unit := fun m =>
  .ok ((), { m with
    sm := fun q => if q = p then none else m.sm q
    blk := fun q => if q = h.data ∧ h.inl = true then none else m.blk q })

/-- `delete_simple_mat`: simplemat.c:492-509.  The branch compares addresses: `mat + 64 >= mat->data`.
Passing the inline pixel pointer to `free` is an invalid free. -/
def delete_simple_mat (mat : Option Nat) : M Unit :=
  match mat with
  | none => pure ()
  | some p => fun m =>
    match m.sm p with
    | none => .error (.ub .badFree)
    | some h =>
      if m.addr p + 64 ≥ pixelAddr h.inl (m.addr p) (m.addr h.data) then freeImage p h m
      else if h.inl then .error (.ub .badFree)
      else (do free h.data; freeImage p h : M Unit) m

end HyperCV
