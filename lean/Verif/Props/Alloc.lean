/- C07: placement of the regions of a cube inside its single allocation. -/
import Verif.Proof.Alloc

namespace HyperCV

/-- **C07.** Whatever address `mat` the allocator returned for the requested number of bytes (the block
`[mat, mat + size)` not wrapping around the address space), the data and wavelength pointers stored in the
header are multiples of 64, and header, data region and wavelength region are pairwise disjoint and lie, in
this order, inside the block. -/
theorem C07_cube_regions (mat : BitVec 64) (D W : Nat)
    (hblk : mat.toNat + cubeAllocSize D W < 2 ^ 64) :
    let c := cubeAddrs mat D
    c.data.toNat % 64 = 0 ∧ c.wave.toNat % 64 = 0 ∧
    mat.toNat + 40 ≤ c.data.toNat ∧
    c.data.toNat + D ≤ c.wave.toNat ∧
    c.wave.toNat + W ≤ mat.toNat + cubeAllocSize D W := by
  simp only [cubeAddrs, cubeAllocSize] at *
  have e0 : (mat + 40#64).toNat = mat.toNat + 40 := by
    rw [BitVec.toNat_add]; simp only [BitVec.toNat_ofNat]; omega
  have e1 := align64_toNat (mat + 40#64) (by rw [e0]; omega)
  rw [e0] at e1
  have e2 : (align64 (mat + 40#64) + BitVec.ofNat 64 D).toNat = (mat.toNat + 40 + 63) / 64 * 64 + D := by
    rw [BitVec.toNat_add, e1]; simp only [BitVec.toNat_ofNat]; omega
  have e3 := align64_toNat (align64 (mat + 40#64) + BitVec.ofNat 64 D) (by rw [e2]; omega)
  rw [e2] at e3
  rw [e1, e3]
  omega

/-- the hypotheses are met by an ordinary allocation, and the conclusion is not degenerate -/
example : (0x5555_0010#64 : BitVec 64).toNat + cubeAllocSize 1000 40 < 2 ^ 64 ∧
    (cubeAddrs 0x5555_0010#64 1000).data = 0x5555_0040#64 ∧
    (cubeAddrs 0x5555_0010#64 1000).wave = 0x5555_0440#64 := by decide

end HyperCV
