/- The inverse transform of Spec/Dft inverts the transform of Spec/Dft. -/
import Verif.Spec.Dft
import Mathlib.RingTheory.RootsOfUnity.Complex

namespace HyperCV
open Spec Finset

/-- `exp (2πi k / n)` -/
noncomputable def turn (n : Nat) (k : ℤ) : ℂ := Complex.exp (2 * Real.pi * Complex.I * (k / n))

theorem turn_sum {n i a : Nat} (hi : i < n) (ha : a < n) : ∑ u ∈ range n, turn n ((u:ℤ) * (i - a)) = if i = a then (n:ℂ) else 0 := by
  have hn : n ≠ 0 := by omega
  have hz := Complex.isPrimitiveRoot_exp n hn
  set ζ := Complex.exp (2 * Real.pi * Complex.I / n) with hζ
  have hpow : ∀ u : Nat, turn n ((u:ℤ) * (i - a)) = (ζ ^ ((i:ℤ) - a)) ^ u := by
    intro u
    rw [hζ, ← Complex.exp_int_mul, ← Complex.exp_nat_mul]
    unfold turn
    congr 1
    push_cast
    ring
  rw [sum_congr rfl fun u _ => hpow u]
  split
  · next h =>
    subst h
    simp
  · next h =>
    have hne : ζ ^ ((i:ℤ) - a) ≠ 1 := by
      intro h1
      rw [hz.zpow_eq_one_iff_dvd] at h1
      obtain ⟨c, hc⟩ := h1
      have : c = 0 := by
        rcases lt_trichotomy c 0 with hc0 | hc0 | hc0
        · nlinarith
        · exact hc0
        · nlinarith
      subst this
      omega
    rw [geom_sum_eq hne, ← zpow_natCast, ← zpow_mul, mul_comm, zpow_mul, zpow_natCast, hz.pow_eq_one, one_zpow, sub_self, zero_div]

theorem turn_add (n : Nat) (k l : ℤ) : turn n (k + l) = turn n k * turn n l := by
  unfold turn
  rw [← Complex.exp_add]
  congr 1
  push_cast
  ring

theorem exp_phase (R C u v i j : Nat) : Complex.exp ((phase R C u v i j : ℂ) * Complex.I) = turn R ((u:ℤ) * i) * turn C ((v:ℤ) * j) := by
  unfold turn phase
  rw [← Complex.exp_add]
  congr 1
  push_cast
  ring

theorem exp_neg_phase (R C u v i j : Nat) : Complex.exp (-(phase R C u v i j : ℂ) * Complex.I) = turn R (-((u:ℤ) * i)) * turn C (-((v:ℤ) * j)) := by
  unfold turn phase
  rw [← Complex.exp_add]
  congr 1
  push_cast
  ring

/-- the inverse transform inverts the transform -/
theorem idft_dft (R C : Nat) (x : Nat → Nat → ℝ) {i j : Nat} (hi : i < R) (hj : j < C) : idft R C (dft R C x) i j = x i j := by
  have hR : (R:ℂ) ≠ 0 := by exact_mod_cast (by omega : R ≠ 0)
  have hC : (C:ℂ) ≠ 0 := by exact_mod_cast (by omega : C ≠ 0)
  unfold idft dft
  rw [div_eq_iff (mul_ne_zero hR hC)]
  have e : ∀ u ∈ range R, ∀ v ∈ range C, (∑ a ∈ range R, ∑ b ∈ range C, (x a b : ℂ) * Complex.exp (-(phase R C u v a b : ℂ) * Complex.I))
      * Complex.exp ((phase R C u v i j : ℂ) * Complex.I)
      = ∑ a ∈ range R, ∑ b ∈ range C, (x a b : ℂ) * (turn R ((u:ℤ) * (i - a)) * turn C ((v:ℤ) * (j - b))) := by
    intro u _ v _
    rw [sum_mul]
    refine sum_congr rfl fun a _ => ?_
    rw [sum_mul]
    refine sum_congr rfl fun b _ => ?_
    rw [exp_phase, exp_neg_phase, mul_sub, mul_sub, sub_eq_add_neg, sub_eq_add_neg, turn_add, turn_add]
    ring
  rw [sum_congr rfl fun u hu => sum_congr rfl fun v hv => e u hu v hv]
  have e2 : ∀ u ∈ range R, (∑ v ∈ range C, ∑ a ∈ range R, ∑ b ∈ range C, (x a b : ℂ) * (turn R ((u:ℤ) * (i - a)) * turn C ((v:ℤ) * (j - b))))
      = ∑ a ∈ range R, ∑ b ∈ range C, (x a b : ℂ) * turn R ((u:ℤ) * (i - a)) * ∑ v ∈ range C, turn C ((v:ℤ) * (j - b)) := by
    intro u _
    rw [sum_comm]
    refine sum_congr rfl fun a _ => ?_
    rw [sum_comm]
    refine sum_congr rfl fun b _ => ?_
    rw [mul_sum]
    refine sum_congr rfl fun v _ => ?_
    ring
  rw [sum_congr rfl e2, sum_comm]
  have e3 : ∀ a ∈ range R, (∑ u ∈ range R, ∑ b ∈ range C, (x a b : ℂ) * turn R ((u:ℤ) * (i - a)) * ∑ v ∈ range C, turn C ((v:ℤ) * (j - b)))
      = if i = a then (x a j : ℂ) * R * C else 0 := by
    intro a ha
    rw [sum_comm]
    have e4 : ∀ b ∈ range C, (∑ u ∈ range R, (x a b : ℂ) * turn R ((u:ℤ) * (i - a)) * ∑ v ∈ range C, turn C ((v:ℤ) * (j - b)))
        = if j = b then (if i = a then (x a b : ℂ) * R * C else 0) else 0 := by
      intro b hb
      rw [← sum_mul, ← mul_sum, turn_sum hi (mem_range.1 ha), turn_sum hj (mem_range.1 hb)]
      split <;> split <;> simp
    rw [sum_congr rfl e4, sum_ite_eq, if_pos (mem_range.2 hj)]
  rw [sum_congr rfl e3, sum_ite_eq, if_pos (mem_range.2 hi)]
  ring

end HyperCV
