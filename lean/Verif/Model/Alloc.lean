/- Address arithmetic of the single-allocation layout of cubes and images. -/

namespace HyperCV

/-- `BYTE_ALIGNMENT(address, 64)`: type.h:19-22 with ALLOC_BYTE_ALIGNMENT = 64 (type.h:17), on 64-bit
`uintptr_t` (wrapping): `((address) + (64 - 1)) & (-64)`; the `int` -64 converts to 2^64 - 64. -/
def align64 (address : BitVec 64) : BitVec 64 :=
  (address + BitVec.ofNat 64 63) &&& BitVec.ofInt 64 (-64)

/-- addresses chosen inside one allocation for a cube: the `data` and `wavelength` pointers -/
structure CubeAddrs where
  data : BitVec 64
  wave : BitVec 64

/-- number of bytes requested from `malloc` for a cube with `D` data bytes and `W` wavelength bytes:
hypermat.c:180-188 (`sizeof(HyperMat)` = 40 on LP64) -/
def cubeAllocSize (D W : Nat) : Nat := 40 + D + 64 + W + 64

/-- placement of the data and the wavelength region of a cube allocated at `mat`: hypermat.c:192-200 -/
def cubeAddrs (mat : BitVec 64) (D : Nat) : CubeAddrs :=
  let address := align64 (mat + 40#64)
  let data := address
  let address := align64 (address + BitVec.ofNat 64 D)
  { data := data, wave := address }

end HyperCV
