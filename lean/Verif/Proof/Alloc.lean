import Verif.Model.Alloc
import Mathlib.Tactic.Ring
import Mathlib.Tactic.NormNum

namespace HyperCV

theorem nat_and_neg64 (x : Nat) (hx : x < 2 ^ 64) : x &&& (2 ^ 64 - 64) = x / 64 * 64 := by
  have e : x / 64 * 64 = (x >>> 6) <<< 6 := by
    rw [Nat.shiftRight_eq_div_pow, Nat.shiftLeft_eq]
  rw [e]
  apply Nat.eq_of_testBit_eq
  intro i
  rw [Nat.testBit_and, Nat.testBit_shiftLeft, Nat.testBit_shiftRight]
  rw [show (2 ^ 64 - 64 : Nat) = 2 ^ 64 - (63 + 1) from rfl, Nat.testBit_two_pow_sub_succ (by norm_num)]
  rw [show (63 : Nat) = 2 ^ 6 - 1 from rfl, Nat.testBit_two_pow_sub_one]
  by_cases h6 : 6 ≤ i
  · have : 6 + (i - 6) = i := by omega
    rw [this]
    by_cases h64 : i < 64
    · simp [h6, h64, Nat.not_lt.mpr h6]
    · have : x.testBit i = false := by
        apply Nat.testBit_lt_two_pow
        calc x < 2 ^ 64 := hx
          _ ≤ 2 ^ i := Nat.pow_le_pow_right (by norm_num) (by omega)
      simp [this]
  · simp [h6, Nat.lt_of_not_le h6]

/-- alignment without wrap-around rounds up to the next multiple of 64 -/
theorem align64_toNat (a : BitVec 64) (h : a.toNat + 63 < 2 ^ 64) :
    (align64 a).toNat = (a.toNat + 63) / 64 * 64 := by
  unfold align64
  rw [BitVec.toNat_and]
  have e1 : (BitVec.ofInt 64 (-64)).toNat = 2 ^ 64 - 64 := by decide
  have e2 : (a + BitVec.ofNat 64 63).toNat = a.toNat + 63 := by
    rw [BitVec.toNat_add]
    simp only [BitVec.toNat_ofNat]
    rw [show 63 % 2 ^ 64 = 63 from rfl, Nat.mod_eq_of_lt h]
  rw [e1, e2, nat_and_neg64 _ h]

end HyperCV
