/- Rounding errors of accumulated sums, as an invariant of the loop that accumulates. -/
import Verif.Proof.FloatError

namespace HyperCV
open Finset

/-- `v` is the sum of the first `k` terms, each addition having a relative error of at most `e` and an absolute one of at most `h` -/
def SumInv (F : Fmt) (e h : ℚ) (x : Nat → ℚ) (k : Nat) (v : FV) : Prop :=
  ∃ z, F.Val v z ∧ |z - ∑ i ∈ range k, x i| ≤ ((1 + e) ^ k - 1) * ∑ i ∈ range k, |x i| + (1 + e) ^ k * (k * h)

variable {F : Fmt} {e h : ℚ} {x : Nat → ℚ} {k n : Nat} {v v' : FV}

theorem sumInv_zero : SumInv F e h x 0 (.fin false 0) := ⟨0, val_zero F, by simp⟩

theorem sumInv_succ (he : 0 ≤ e) (hh : 0 ≤ h) (hi : SumInv F e h x k v)
    (step : ∀ s, F.Val v s → |s + x k| ≤ (1 + e) ^ k * (∑ i ∈ range (k + 1), |x i| + k * h) → ∃ z, F.Val v' z ∧ |z - (s + x k)| ≤ e * |s + x k| + h) :
    SumInv F e h x (k + 1) v' := by
  obtain ⟨s, s1, s2⟩ := hi
  set A := ∑ i ∈ range k, |x i| with hA
  set S := ∑ i ∈ range k, x i with hS
  have hA0 : 0 ≤ A := sum_nonneg fun _ _ => abs_nonneg _
  have hSA : |S| ≤ A := abs_sum_le_sum_abs _ _
  have hp : (1:ℚ) ≤ (1 + e) ^ k := one_le_pow₀ (by linarith)
  have hk : (0:ℚ) ≤ k * h := by positivity
  have hx := abs_nonneg (x k)
  have b1 : |s + x k| ≤ (1 + e) ^ k * A + |x k| + (1 + e) ^ k * (k * h) := by
    have e1 : s + x k = (s - S) + (S + x k) := by ring
    rw [e1]
    refine le_trans (abs_add_le _ _) ?_
    have := abs_add_le S (x k)
    linarith
  have b2 : |s + x k| ≤ (1 + e) ^ k * (∑ i ∈ range (k + 1), |x i| + k * h) := by
    rw [sum_range_succ, ← hA]
    refine le_trans b1 ?_
    nlinarith
  obtain ⟨z, z1, z2⟩ := step s s1 b2
  refine ⟨z, z1, ?_⟩
  rw [sum_range_succ, sum_range_succ, ← hA, ← hS]
  have e1 : z - (S + x k) = (z - (s + x k)) + (s - S) := by ring
  rw [e1]
  refine le_trans (abs_add_le _ _) ?_
  have b3 : e * |s + x k| ≤ e * ((1 + e) ^ k * A + |x k| + (1 + e) ^ k * (k * h)) := mul_le_mul_of_nonneg_left b1 he
  push_cast
  rw [pow_succ]
  have b4 : h ≤ (1 + e) ^ k * (1 + e) * h := by
    have : (1:ℚ) ≤ (1 + e) ^ k * (1 + e) := by nlinarith
    nlinarith
  have b5 : 0 ≤ ((1 + e) ^ k * (1 + e) - 1 - e) * |x k| := by
    refine mul_nonneg ?_ hx
    nlinarith
  nlinarith

/-- `(1+e)^k` in a readable form -/
theorem pow_le (he : 0 ≤ e) (hk : (k:ℚ) * e ≤ 1 / 2) : (1 + e) ^ k ≤ 1 + 2 * k * e := by
  induction k with
  | zero => simp
  | succ k ih =>
    push_cast at hk ⊢
    have h1 := ih (by nlinarith)
    rw [pow_succ]
    have h2 : (1 + e) ^ k * (1 + e) ≤ (1 + 2 * k * e) * (1 + e) := mul_le_mul_of_nonneg_right h1 (by linarith)
    have h3 : (k:ℚ) * e ≤ 1/2 := by nlinarith
    nlinarith

theorem pow_le_two (he : 0 ≤ e) (hk : (k:ℚ) * e ≤ 1 / 2) : (1 + e) ^ k ≤ 2 := by
  have := pow_le he hk
  linarith

theorem SumInv.bound (he : 0 ≤ e) (hh : 0 ≤ h) (hk : (k:ℚ) * e ≤ 1 / 2) (hi : SumInv F e h x k v) :
    ∃ z, F.Val v z ∧ |z - ∑ i ∈ range k, x i| ≤ 2 * k * e * ∑ i ∈ range k, |x i| + 2 * k * h := by
  obtain ⟨z, z1, z2⟩ := hi
  refine ⟨z, z1, le_trans z2 ?_⟩
  have hp := pow_le he hk
  have hp2 := pow_le_two he hk
  have hA0 : 0 ≤ ∑ i ∈ range k, |x i| := sum_nonneg fun _ _ => abs_nonneg _
  have hk0 : (0:ℚ) ≤ k * h := by positivity
  nlinarith

/-- the size of the intermediate values, in a readable form -/
theorem step_bound (he : 0 ≤ e) (hh : 0 ≤ h) (hk : (n:ℚ) * e ≤ 1 / 2) (hkn : k < n) {s : ℚ}
    (hs : |s + x k| ≤ (1 + e) ^ k * (∑ i ∈ range (k + 1), |x i| + k * h)) : |s + x k| ≤ 2 * (∑ i ∈ range n, |x i| + n * h) := by
  refine le_trans hs ?_
  have hkq : (k:ℚ) ≤ n := by exact_mod_cast hkn.le
  have hp := pow_le_two he (show (k:ℚ) * e ≤ 1 / 2 by nlinarith)
  have h1 : ∑ i ∈ range (k + 1), |x i| ≤ ∑ i ∈ range n, |x i| := sum_le_sum_of_subset_of_nonneg (range_mono (by omega)) fun _ _ _ => abs_nonneg _
  have h2 : (k:ℚ) * h ≤ n * h := mul_le_mul_of_nonneg_right hkq hh
  have h3 : 0 ≤ ∑ i ∈ range (k + 1), |x i| := sum_nonneg fun _ _ => abs_nonneg _
  have h4 : (0:ℚ) ≤ k * h := by positivity
  nlinarith

/-- one addition of a value of the format -/
theorem sumInv_add {w : FV} (hn : (n:ℚ) * F.u ≤ 1 / 2) (hkn : k < n) (hb : 4 * ∑ i ∈ range n, |x i| < 2 ^ (2 ^ (F.w - 1))) (hw : F.Val w (x k))
    (hi : SumInv F F.u 0 x k v) : SumInv F F.u 0 x (k + 1) (F.add v w) := by
  have hu := u_pos F
  refine sumInv_succ hu.le (le_refl 0) hi ?_
  intro s s1 s2
  have s3 := step_bound hu.le (le_refl 0) hn hkn s2
  rw [mul_zero, add_zero] at s3
  obtain ⟨z, z1, z2⟩ := val_add s1 hw (by
    refine lt_of_le_of_lt ?_ hb
    have hu2 : F.u ≤ 1 := by
      unfold Fmt.u
      rw [div_le_one (by positivity)]
      exact one_le_pow₀ (by norm_num)
    have := abs_nonneg (s + x k)
    nlinarith)
  exact ⟨z, z1, by rw [add_zero]; exact z2⟩

/-- **the mean**: a sum of values of the format divided by their number -/
theorem mean_err (hn0 : 0 < n) (hn : (n:ℚ) * F.u ≤ 1 / 2) (hb : 4 * ∑ i ∈ range n, |x i| + 1 < 2 ^ (2 ^ (F.w - 1))) (heta : F.eta ≤ 1)
    (hd : (F.ofInt n).Is n) (hi : SumInv F F.u 0 x n v) :
    ∃ z, F.Val (F.div v (F.ofInt n)) z ∧
      |z - (∑ i ∈ range n, x i) / n| ≤ 2 * (n + 1) * F.u * ((∑ i ∈ range n, |x i|) / n) + F.eta := by
  have hu := u_pos F
  have hu2 : F.u ≤ 1 := by
    unfold Fmt.u
    rw [div_le_one (by positivity)]
    exact one_le_pow₀ (by norm_num)
  obtain ⟨s, s1, s2⟩ := hi.bound hu.le (le_refl 0) hn
  rw [mul_zero, add_zero] at s2
  set A := ∑ i ∈ range n, |x i| with hA
  set S := ∑ i ∈ range n, x i with hS
  have hA0 : 0 ≤ A := sum_nonneg fun _ _ => abs_nonneg _
  have hSA : |S| ≤ A := abs_sum_le_sum_abs _ _
  have hnq : (1:ℚ) ≤ n := by exact_mod_cast hn0
  have hnp : (0:ℚ) < n := by linarith
  have hs : |s| ≤ 2 * A := by
    have e1 : s = (s - S) + S := by ring
    rw [e1]
    refine le_trans (abs_add_le _ _) ?_
    have : 2 * n * F.u * A ≤ A := by nlinarith
    linarith
  have hq : |s / n| ≤ 2 * A / n := by
    rw [abs_div, abs_of_pos hnp]
    exact div_le_div_of_nonneg_right hs hnp.le
  have hqs : |s / n| ≤ 2 * A := le_trans hq (div_le_self (by linarith) hnq)
  obtain ⟨z, z1, z2⟩ := val_div (F := F) s1.1 hd hnp.ne' (by
    refine lt_of_le_of_lt ?_ hb
    have := abs_nonneg (s / n)
    nlinarith)
  refine ⟨z, z1, ?_⟩
  have e1 : z - S / n = (z - s / n) + (s - S) / n := by field_simp; ring
  rw [e1]
  refine le_trans (abs_add_le _ _) ?_
  rw [abs_div (s - S), abs_of_pos hnp]
  have h5 : |s - S| / n ≤ 2 * n * F.u * A / n := div_le_div_of_nonneg_right s2 hnp.le
  have h6 : F.u * |s / n| ≤ F.u * (2 * A / n) := mul_le_mul_of_nonneg_left hq hu.le
  have e2 : 2 * (n + 1) * F.u * (A / n) = F.u * (2 * A / n) + 2 * n * F.u * A / n := by ring
  rw [e2]
  linarith

end HyperCV
