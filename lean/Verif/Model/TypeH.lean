/- Model of /repo/modules/core/include/c_include/type.h (element sizes and border indices). -/
import Verif.Base.Sem

namespace HyperCV

/-- `get_elemsize`: type.h:48-81.  LP64 sizes (`long int` is 8 bytes). -/
def get_elemsize (data_type : Int) : Int :=
  if data_type = 1 then 1
  else if data_type = 2 then 2
  else if data_type = 3 then 4
  else if data_type = 4 then 4
  else if data_type = 5 then 8
  else if data_type = 12 then 2
  else if data_type = 13 then 4
  else if data_type = 14 then 8
  else if data_type = 15 then 8
  else -1

/-- the `do .. while` loop of `BORDER_REFLECT` / `BORDER_REFLECT_101`: type.h:164-171.
`fuel` bounds the number of iterations; running out of fuel is reported as `diverge`.
`(unsigned)index >= (unsigned)len` is read as `index < 0 ∨ len ≤ index` (for `0 ≤ len`). -/
def reflectLoop (len delta : Int) : Nat → Int → CI
  | 0, _ => CI.err .diverge
  | n+1, index =>
    let next : CI :=
      if index < 0 then - CI.lit index - CI.lit 1 + CI.lit delta
      else CI.lit len - CI.lit 1 - (CI.lit index - CI.lit len) - CI.lit delta
    match next with
    | .error e => CI.err e
    | .ok index' =>
      if index' < 0 ∨ len ≤ index' then reflectLoop len delta n index' else CI.lit index'

/-- the second `if` of `BORDER_WRAP`: type.h:176-177 -/
def wrapTail (len : Int) : CI → CI
  | .error e => CI.err e
  | .ok index => if len ≤ index then CI.lit index % CI.lit len else CI.lit index

/-- `hypercv_border_Interpolate`: type.h:138-189, with the iteration bound of the reflect loop as a
parameter.  `exit` models the two `hypercv_assert`s. -/
def borderFuel (fuel : Nat) (p len border_type : Int) : CI :=
  if len < 0 then CI.err .exit
  else if ¬ (border_type = 2 ∨ border_type = 4 ∨ border_type = 1 ∨ border_type = 3 ∨ border_type = 0) then
    CI.err .exit
  else if 0 ≤ p ∧ p < len then CI.lit p
  else if border_type = 1 then
    if p < 0 then CI.lit 0 else CI.lit len - CI.lit 1
  else if border_type = 2 ∨ border_type = 4 then
    if len = 1 then CI.lit 0
    else reflectLoop len (if border_type = 4 then 1 else 0) fuel p
  else if border_type = 3 then
    wrapTail len (if p < 0 then
        CI.lit p - ((CI.lit p - CI.lit len + CI.lit 1) / CI.lit len) * CI.lit len
      else CI.lit p)
  else CI.lit 1

/-- `hypercv_border_Interpolate`.  `|p| + 2` iterations of the reflect loop suffice whenever it
terminates at all (theorems `borderFuel_mono` and `border_reflect_len0_diverges` in
`Verif/Proof/Border.lean`), so that running out of fuel here means non-termination. -/
def border (p len border_type : Int) : Except Err Int := borderFuel (p.natAbs + 2) p len border_type

/-- `border` inside a computation -/
def borderM (p len border_type : Int) : M Int := fun m =>
  match border p len border_type with
  | .error e => .error e
  | .ok x => .ok (x, m)

/-- `BYTE_ALIGNMENT(address, alignment)`: type.h:19-22.
`((address) + (alignment-1)) & (-alignment)`, on naturals (no wrap-around of the address space). -/
def byte_alignment (address alignment : Nat) : Nat := (address + (alignment - 1)) / alignment * alignment

end HyperCV
