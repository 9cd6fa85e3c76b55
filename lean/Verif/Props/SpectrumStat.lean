/- C97: mean, variance and standard deviation of a spectrum. -/
import Verif.Props.AccuracyStat
import Verif.Proof.SpecError

namespace HyperCV
open Spec Finset

variable {m : Mem} {p n : Nat} {a : Nat → Nat} {x : Nat → ℚ}

namespace Spec

/-- mean of `n` numbers -/
def mean1 (n : Nat) (x : Nat → ℚ) : ℚ := (∑ k ∈ range n, x k) / n

/-- variance of `n` numbers -/
def var1 (n : Nat) (x : Nat → ℚ) : ℚ := (∑ k ∈ range n, (x k - mean1 n x) ^ 2) / n

/-- bound for the error of the mean -/
def meanBound1 (n : Nat) (x : Nat → ℚ) : ℚ := (n + 1) / 2 ^ 23 * mean1 n (fun k => |x k|) + 1 / 2 ^ 150

end Spec

theorem addSquare_nonneg {v d : FV} {s y z : ℚ} (hv : f32.Val v s) (hs : 0 ≤ s) (hd : f32.Val d y) (hb : |s + y * y| ≤ 2 ^ 126)
    (hz : (addSquare v (f64.conv d)).Is z) : 0 ≤ z := by
  have hd' : f64.Val (f64.conv d) y := ⟨is_conv' hd.1 (f32_to_f64 hd.2), f32_to_f64 hd.2⟩
  have c1 : f64.Val (f64.conv v) s := ⟨is_conv' hv.1 (f32_to_f64 hv.2), f32_to_f64 hv.2⟩
  have c3 : f64.Val (f64.mul (f64.conv d) (f64.conv d)) (y * y) := ⟨is_mul hd'.1 hd'.1 (rep_sq hd.2), rep_sq hd.2⟩
  have n1 : 0 ≤ s + y * y := by have := mul_self_nonneg y; linarith
  have b1 := rv_bound f64 (s + y * y)
  have t0 := rv_nonneg (F := f64) n1
  have t1 : (f64.add (f64.conv v) (f64.mul (f64.conv d) (f64.conv d))).Is (f64.rv (s + y * y)) := rnd_add c1.1 c3.1 (rv_lt' (by
    rw [f64_u, f64_max]
    have := f64_eta_small
    refine lt_of_le_of_lt (b := 2 ^ 127) ?_ (pow_lt_pow_right₀ (by norm_num) (by decide))
    generalize |s + y * y| = T at *
    have : (1:ℚ) / 2 ^ 100 ≤ 1 := by norm_num
    norm_num at hb ⊢
    linarith))
  have b2 : |f64.rv (s + y * y)| ≤ 2 ^ 126 + 2 ^ 100 := by
    have := abs_add_le (f64.rv (s + y * y) - (s + y * y)) (s + y * y)
    rw [sub_add_cancel] at this
    rw [f64_u] at b1
    have := f64_eta_small
    generalize |s + y * y| = T at *
    have : (1:ℚ) / 2 ^ 100 ≤ 1 := by norm_num
    norm_num at hb b1 ⊢
    linarith
  have z1 : (addSquare v (f64.conv d)).Is (f32.rv (f64.rv (s + y * y))) := rnd_conv t1 (rv_lt' (by
    rw [f32_u, f32_eta, f32_max]
    generalize |f64.rv (s + y * y)| = T at *
    norm_num at b2 ⊢
    linarith))
  rw [FV.Is.inj hz z1]
  exact rv_nonneg t0

theorem abs_sum1 (n : Nat) (x : Nat → ℚ) : |mean1 n x| ≤ mean1 n (fun k => |x k|) := by
  unfold mean1
  rw [abs_div, abs_of_nonneg (show (0:ℚ) ≤ n by positivity)]
  exact div_le_div_of_nonneg_right (abs_sum_le_sum_abs _ _) (by positivity)

theorem mean1_le {B : ℚ} (hn : 0 < n) (h : ∀ k, k < n → x k ≤ B) : mean1 n x ≤ B := by
  have hnp : (0:ℚ) < n := by exact_mod_cast hn
  unfold mean1
  rw [div_le_iff₀ hnp, mul_comm]
  refine le_trans (sum_le_sum fun k hk => h k (mem_range.1 hk)) (le_of_eq ?_)
  simp

theorem var_identity1 (x : Nat → ℚ) (c : ℚ) (hn : (0:ℚ) < n) :
    (∑ k ∈ range n, (x k - c) ^ 2) / n = var1 n x + (c - mean1 n x) ^ 2 := by
  have e1 : ∑ k ∈ range n, (x k - c) ^ 2 = ∑ k ∈ range n, (x k - mean1 n x) ^ 2 + 2 * (mean1 n x - c) * (∑ k ∈ range n, x k - n * mean1 n x) + n * (c - mean1 n x) ^ 2 := by
    generalize mean1 n x = μ
    have hc : ∑ k ∈ range n, (c - μ) ^ 2 = n * (c - μ) ^ 2 := by simp
    have hm : ∑ k ∈ range n, μ = n * μ := by simp
    rw [← hc, ← hm, ← sum_sub_distrib, mul_sum, ← sum_add_distrib, ← sum_add_distrib]
    exact sum_congr rfl fun k _ => by ring
  have e2 : ∑ k ∈ range n, x k - n * mean1 n x = 0 := by
    unfold mean1
    rw [mul_div_cancel₀ _ hn.ne', sub_self]
  rw [e1, e2, mul_zero, add_zero, add_div, mul_div_cancel_left₀ _ hn.ne']
  rfl

/-- **C97, mean**: the result differs from the mean of the spectrum by at most `(n+1) / 2^23` times the mean magnitude (plus 2^-150); nothing
is written. -/
theorem C97_average (h : IsArray m p 4 n a) (hx : ∀ k, k < n → FloatIs f32 (a k) (x k)) (h1 : 1 ≤ n) (hn : n ≤ 4194304) (hb : ∀ k, k < n → |x k| ≤ 2 ^ 48) :
    ∃ v q, sp_average p 0 n m = .ok (v, m) ∧ v.Is q ∧ |q - mean1 n x| ≤ meanBound1 n x := by
  have hnq : (n:ℚ) ≤ 4194304 := by exact_mod_cast hn
  have run := sp_average_run (n := n) (fun k hk => loadF_arr (isArray_iff.1 h) hk)
  have hbs : ∑ k ∈ range n, |x k| ≤ 2 ^ 125 := by
    have : ∑ k ∈ range n, |x k| ≤ n * 2 ^ 48 := le_trans (sum_le_sum fun k hk => hb k (mem_range.1 hk)) (le_of_eq (by simp))
    norm_num at this ⊢
    linarith
  obtain ⟨z, z1, z2⟩ := mean_err (F := f32) (n := n) (by omega) (by rw [f32_u]; norm_num; linarith) (by rw [f32_max]; norm_num at hbs ⊢; linarith)
    (by have := f32_eta_le; norm_num at this ⊢; linarith) (is_nat32 (by omega))
    (sumF_inv (fun k hk => good_val (good_decode f32_std _) (hx k hk)) (by omega) hbs)
  refine ⟨_, z, run, z1.1, le_trans z2 (le_of_eq ?_)⟩
  unfold meanBound1 mean1
  rw [f32_u, f32_eta]
  ring

set_option maxHeartbeats 1000000 in
/-- the sum of squares that the variance is computed from -/
theorem variance_sum1 (h : IsArray m p 4 n a) (hx : ∀ k, k < n → FloatIs f32 (a k) (x k)) (hn : n ≤ 4194304) (hb : ∀ k, k < n → |x k| ≤ 2 ^ 48) {mv : FV} {c : ℚ}
    (m1 : sp_average p 0 n m = .ok (mv, m)) (m2 : f32.Val mv c) (hc : |c| ≤ 2 ^ 49) :
    ∃ v s D, sp_variance p 0 n m = .ok (f32.div v (f32.ofInt n), m) ∧ f32.Val v s ∧ 0 ≤ s ∧ 0 ≤ D ∧ D ≤ 2 ^ 123 ∧
      |s - D| ≤ 2 * n * (1 / 2 ^ 24 + 1 / 2 ^ 52) * D + 2 * n * (1 / 2 ^ 150) ∧
      |D - ∑ k ∈ range n, (x k - c) ^ 2| ≤ (1 / 2 ^ 23 + 1 / 2 ^ 48) * ∑ k ∈ range n, (x k - c) ^ 2 := by
  have hnq : (n:ℚ) ≤ 4194304 := by exact_mod_cast hn
  have hdif : ∀ k, k < n → |x k - c| ≤ 2 ^ 50 := by
    intro k hk
    have h1 := hb k hk
    have h2 := abs_sub (x k) c
    norm_num at h1 h2 hc ⊢
    linarith
  have hd : ∀ k, k < n → ∃ y, f32.Val (f32.sub (f32.decode (a k)) mv) y ∧ |y - (x k - c)| ≤ f32.u * |x k - c| := by
    intro k hk
    refine val_sub (good_val (good_decode f32_std _) (hx k hk)) m2 ?_
    have := hdif k hk
    rw [f32_u, f32_max]
    norm_num at this ⊢
    linarith
  choose! y y1 y2 using hd
  have hDQ : |∑ k ∈ range n, y k ^ 2 - ∑ k ∈ range n, (x k - c) ^ 2| ≤ (1 / 2 ^ 23 + 1 / 2 ^ 48) * ∑ k ∈ range n, (x k - c) ^ 2 := by
    rw [← sum_sub_distrib, mul_sum]
    exact le_trans (abs_sum_le_sum_abs _ _) (sum_le_sum fun k hk => sub_sq_err (y2 k (mem_range.1 hk)))
  have hQb : ∑ k ∈ range n, (x k - c) ^ 2 ≤ n * 2 ^ 100 := by
    refine le_trans (sum_le_sum fun k hk => (?_ : (x k - c) ^ 2 ≤ 2 ^ 100)) (le_of_eq (by simp))
    have : |x k - c| ^ 2 ≤ (2 ^ 50) ^ 2 := pow_le_pow_left₀ (abs_nonneg _) (hdif k (mem_range.1 hk)) 2
    rw [sq_abs] at this
    refine le_trans this (by norm_num)
  have eDa : ∑ k ∈ range n, |y k * y k| = ∑ k ∈ range n, y k ^ 2 := sum_congr rfl fun q _ => by rw [abs_mul_self, pow_two]
  have eD : ∑ k ∈ range n, y k * y k = ∑ k ∈ range n, y k ^ 2 := sum_congr rfl fun q _ => by rw [pow_two]
  have hDn : 0 ≤ ∑ k ∈ range n, y k ^ 2 := sum_nonneg fun _ _ => sq_nonneg _
  generalize ∑ k ∈ range n, y k ^ 2 = D at *
  generalize ∑ k ∈ range n, (x k - c) ^ 2 = Q at *
  have hDb : D ≤ 2 ^ 123 := by
    have := (abs_le.1 hDQ).2
    norm_num at this hQb ⊢
    linarith
  have he0 : (0:ℚ) ≤ f32.u + 1 / 2 ^ 52 := by rw [f32_u]; norm_num
  have hne : (n : ℚ) * (f32.u + 1 / 2 ^ 52) ≤ 1 / 2 := by rw [f32_u]; norm_num; linarith
  obtain ⟨v, r1, r2, r3⟩ := forA_inv (n := n) (m := m) (s0 := FV.fin false 0)
    (body := fun i sum => do let v ← loadF p (0 + i); pure (addSquare sum (f64.conv (f32.sub v mv))))
    (fun k v => SumInv f32 (f32.u + 1 / 2 ^ 52) f32.eta (fun q => y q * y q) k v ∧ ∀ z, v.Is z → 0 ≤ z)
    ⟨sumInv_zero, by rintro z ⟨s, e⟩; injection e with _ e; exact le_of_eq e⟩ (by
    rintro k v hk ⟨hv, hv0⟩
    refine ⟨_, bind_ok (loadF_arr (isArray_iff.1 h) hk), ?_⟩
    have bnd : ∀ s : ℚ, |s + y k * y k| ≤ (1 + (f32.u + 1 / 2 ^ 52)) ^ k * (∑ i ∈ range (k + 1), |y i * y i| + k * f32.eta) → |s + y k * y k| ≤ 2 ^ 126 := by
      intro s s2
      have s3 := step_bound (n := n) (x := fun q => y q * y q) he0 (eta_pos f32).le hne hk s2
      rw [eDa, f32_eta] at s3
      norm_num at hDb s3 ⊢
      linarith
    constructor
    · refine sumInv_succ he0 (eta_pos f32).le hv ?_
      intro s s1 s2
      exact addSquare_err s1 (y1 k hk) (bnd s s2)
    · intro z hz
      obtain ⟨s, s1, s2⟩ := hv
      refine addSquare_nonneg s1 (hv0 s s1.1) (y1 k hk) (bnd s ?_) hz
      -- the size of the partial sum
      set A := ∑ i ∈ range k, |y i * y i| with hA
      have hS : |∑ i ∈ range k, y i * y i| ≤ A := abs_sum_le_sum_abs _ _
      have hp : (1:ℚ) ≤ (1 + (f32.u + 1 / 2 ^ 52)) ^ k := one_le_pow₀ (by linarith)
      rw [sum_range_succ, ← hA]
      have t1 := abs_add_le (s - ∑ i ∈ range k, y i * y i) (∑ i ∈ range k, y i * y i)
      rw [sub_add_cancel] at t1
      have t2 := abs_add_le s (y k * y k)
      have hA0 : 0 ≤ A := sum_nonneg fun _ _ => abs_nonneg _
      have hy0 := abs_nonneg (y k * y k)
      generalize |y k * y k| = Y at *
      generalize (1 + (f32.u + 1 / 2 ^ 52)) ^ k = P at *
      nlinarith)
  obtain ⟨s, s1, s2⟩ := r2.bound he0 (eta_pos f32).le hne
  rw [eDa, eD, f32_eta, f32_u] at s2
  refine ⟨v, s, D, ?_, s1, r3 s s1.1, hDn, hDb, s2, hDQ⟩
  unfold sp_variance
  rw [bind_ok m1]
  exact (bind_ok r1).trans rfl

theorem meanBound1_le (h1 : 1 ≤ n) (hn : n ≤ 4194304) (hb : ∀ k, k < n → |x k| ≤ 2 ^ 48) : 0 ≤ meanBound1 n x ∧ meanBound1 n x ≤ 2 ^ 48 := by
  have hnq : (n:ℚ) ≤ 4194304 := by exact_mod_cast hn
  have h2 : mean1 n (fun k => |x k|) ≤ 2 ^ 48 := mean1_le h1 hb
  have h0 : 0 ≤ mean1 n (fun k => |x k|) := le_trans (abs_nonneg _) (abs_sum1 n x)
  unfold meanBound1
  constructor
  · positivity
  · have h3 : ((n:ℚ) + 1) / 2 ^ 23 ≤ 3 / 4 := by norm_num; linarith
    have : ((n:ℚ) + 1) / 2 ^ 23 * mean1 n (fun k => |x k|) ≤ 3 / 4 * 2 ^ 48 := mul_le_mul h3 h2 h0 (by norm_num)
    norm_num at this ⊢
    linarith

theorem variance_val (h : IsArray m p 4 n a) (hx : ∀ k, k < n → FloatIs f32 (a k) (x k)) (h1 : 1 ≤ n) (hn : n ≤ 4194304) (hb : ∀ k, k < n → |x k| ≤ 2 ^ 48) :
    ∃ v q, sp_variance p 0 n m = .ok (v, m) ∧ f32.Val v q ∧ 0 ≤ q ∧
      |q - var1 n x| ≤ (n + 5) / 2 ^ 23 * (var1 n x + meanBound1 n x ^ 2) + meanBound1 n x ^ 2 + 6 / 2 ^ 150 ∧ var1 n x ≤ 2 ^ 102 := by
  have hnq : (n:ℚ) ≤ 4194304 := by exact_mod_cast hn
  have hn0 : (1:ℚ) ≤ n := by exact_mod_cast h1
  have hnp : (0:ℚ) < n := by linarith
  obtain ⟨mv, c, m1, m2, m3⟩ := C97_average h hx h1 hn hb
  have m2' : f32.Val mv c := by
    have e := sp_average_run (n := n) (fun k hk => loadF_arr (isArray_iff.1 h) hk)
    rw [m1] at e
    injection e with e
    injection e with e
    exact good_val (by rw [e]; exact good_div _ _ _) m2
  obtain ⟨eb0, eb⟩ := meanBound1_le h1 hn hb
  have hmA : |mean1 n x| ≤ 2 ^ 48 := le_trans (abs_sum1 n x) (mean1_le h1 hb)
  have hc : |c| ≤ 2 ^ 49 := by
    have := abs_add_le (c - mean1 n x) (mean1 n x)
    rw [sub_add_cancel] at this
    norm_num at this m3 eb hmA ⊢
    linarith
  have hE2 : (c - mean1 n x) ^ 2 ≤ meanBound1 n x ^ 2 := by
    rw [← sq_abs]
    exact pow_le_pow_left₀ (abs_nonneg _) m3 2
  have hV : 0 ≤ var1 n x := by unfold var1; positivity
  obtain ⟨v, s, D, v1, s1, s0, hDn, hDb, s2, hDQ⟩ := variance_sum1 h hx hn hb m1 m2' hc
  have sD : |s| ≤ 2 * D + 2 * n / 2 ^ 150 := by
    have t := abs_add_le (s - D) D
    rw [sub_add_cancel, abs_of_nonneg hDn] at t
    have : 2 * (n:ℚ) * (1 / 2 ^ 24 + 1 / 2 ^ 52) ≤ 1 := by norm_num; linarith
    have : 2 * (n:ℚ) * (1 / 2 ^ 24 + 1 / 2 ^ 52) * D ≤ 1 * D := mul_le_mul_of_nonneg_right this hDn
    linarith
  have hsn : |s / n| = |s| / n := by rw [abs_div, abs_of_pos hnp]
  have hs1 : |s| / n ≤ 2 ^ 125 := by
    refine le_trans (div_le_self (abs_nonneg _) hn0) (le_trans sD ?_)
    norm_num at hDb ⊢
    linarith
  have z0 := rv_nonneg (F := f32) (show 0 ≤ s / n by positivity)
  have z1 : (f32.div v (f32.ofInt n)).Is (f32.rv (s / n)) := rnd_div s1.1 (is_nat32 (by omega)) hnp.ne' (rv_lt' (by
    rw [hsn, f32_u, f32_eta, f32_max]
    generalize |s| / n = T at *
    norm_num at hs1 ⊢
    linarith))
  have z2 := rv_bound f32 (s / n)
  rw [hsn, f32_u, f32_eta] at z2
  refine ⟨_, _, v1, good_val (good_div _ _ _) z1, z0, ?_, ?_⟩
  · refine variance_tail hn0 hnq (var_identity1 x c hnp) hV (sq_nonneg _) hE2 hDn s2 sD hDQ (le_trans z2 ?_)
    have : 0 ≤ |s| / n := by positivity
    generalize |s| / n = T at *
    norm_num
    linarith
  · have : var1 n x = mean1 n (fun k => (x k - mean1 n x) ^ 2) := rfl
    rw [this]
    refine mean1_le h1 fun k hk => ?_
    have h3 : |x k - mean1 n x| ≤ 2 ^ 50 := by
      have h1 := hb k hk
      have h2 := abs_sub (x k) (mean1 n x)
      norm_num at h1 h2 hmA ⊢
      linarith
    rw [← sq_abs]
    refine le_trans (pow_le_pow_left₀ (abs_nonneg _) h3 2) (by norm_num)

/-- **C97, variance**: with the bound `E` for the error of the mean, the result differs from the variance `V` of the spectrum by at most
`(n+5) / 2^23 * (V + E^2) + E^2` (plus a tiny constant), and is never negative; nothing is written. -/
theorem C97_variance (h : IsArray m p 4 n a) (hx : ∀ k, k < n → FloatIs f32 (a k) (x k)) (h1 : 1 ≤ n) (hn : n ≤ 4194304) (hb : ∀ k, k < n → |x k| ≤ 2 ^ 48) :
    ∃ v q, sp_variance p 0 n m = .ok (v, m) ∧ v.Is q ∧ 0 ≤ q ∧
      |q - var1 n x| ≤ (n + 5) / 2 ^ 23 * (var1 n x + meanBound1 n x ^ 2) + meanBound1 n x ^ 2 + 6 / 2 ^ 150 := by
  obtain ⟨v, q, v1, v2, v3, v4, -⟩ := variance_val h hx h1 hn hb
  exact ⟨v, q, v1, v2.1, v3, v4⟩

/-- **C97, standard deviation**: the result differs from the root of the variance `V` by at most `(n+7) / 2^23 * sqrt V + 5 E` (plus a tiny
constant), where `E` is the bound for the error of the mean. -/
theorem C97_deviation (h : IsArray m p 4 n a) (hx : ∀ k, k < n → FloatIs f32 (a k) (x k)) (h1 : 1 ≤ n) (hn : n ≤ 4194304) (hb : ∀ k, k < n → |x k| ≤ 2 ^ 48) :
    ∃ v q, sp_standard_deviation p 0 n m = .ok (v, m) ∧ v.Is q ∧
      |(q:ℝ) - Real.sqrt (var1 n x)| ≤ (n + 7) / 2 ^ 23 * Real.sqrt (var1 n x) + 5 * meanBound1 n x + 1 / 2 ^ 60 := by
  have hnq : (n:ℝ) ≤ 4194304 := by exact_mod_cast hn
  obtain ⟨v, z, v1, v2, v3, v4, v5⟩ := variance_val h hx h1 hn hb
  obtain ⟨eb0, eb⟩ := meanBound1_le h1 hn hb
  have hV : (0:ℚ) ≤ var1 n x := by unfold var1; positivity
  generalize var1 n x = V at *
  generalize meanBound1 n x = E at *
  obtain ⟨s, s1, s0, s2⟩ := sqrt_float v2 v3
  have v4' : |(z:ℝ) - V| ≤ (n + 5) / 2 ^ 23 * (V + E ^ 2) + E ^ 2 + 6 / 2 ^ 150 := by
    have : ((|z - V| : ℚ) : ℝ) ≤ (((n + 5) / 2 ^ 23 * (V + E ^ 2) + E ^ 2 + 6 / 2 ^ 150 : ℚ) : ℝ) := by exact_mod_cast v4
    push_cast at this
    exact this
  have hVr : (0:ℝ) ≤ V := by exact_mod_cast hV
  have hzr : (0:ℝ) ≤ z := by exact_mod_cast v3
  have hEr : (0:ℝ) ≤ E := by exact_mod_cast eb0
  have hEb : (E:ℝ) ≤ 2 ^ 48 := by exact_mod_cast eb
  have hVb : (V:ℝ) ≤ 2 ^ 102 := by exact_mod_cast v5
  have hk1 : ((n:ℝ) + 5) / 2 ^ 23 ≤ 1 := by norm_num; linarith
  have hk0 : 0 ≤ ((n:ℝ) + 5) / 2 ^ 23 := by positivity
  have r1 := sqrt_mixed (T := z) (N := V) (k := (n + 5) / 2 ^ 23) (e := 2 * E + 1 / 2 ^ 70) hzr hVr (by positivity) (by
    refine le_trans v4' ?_
    have h2 : ((n:ℝ) + 5) / 2 ^ 23 * E ^ 2 ≤ 1 * E ^ 2 := mul_le_mul_of_nonneg_right hk1 (sq_nonneg _)
    have e1 : ((n:ℝ) + 5) / 2 ^ 23 * (V + E ^ 2) = (n + 5) / 2 ^ 23 * V + (n + 5) / 2 ^ 23 * E ^ 2 := by ring
    have e2 : (2 * (E:ℝ) + 1 / 2 ^ 70) ^ 2 = 4 * E ^ 2 + 4 * E / 2 ^ 70 + 1 / 2 ^ 140 := by ring
    rw [e1, e2]
    have h3 : 0 ≤ 4 * (E:ℝ) / 2 ^ 70 := by positivity
    have h4 : 0 ≤ (E:ℝ) ^ 2 := sq_nonneg _
    have h5 : (6:ℝ) / 2 ^ 150 ≤ 1 / 2 ^ 140 := by norm_num
    linarith) hk0 hk1
  have sV := Real.sqrt_nonneg (V:ℝ)
  have sVb : Real.sqrt (V:ℝ) ≤ 2 ^ 51 := by
    rw [Real.sqrt_le_left (by norm_num)]
    refine le_trans hVb (by norm_num)
  have sz := Real.sqrt_nonneg (z:ℝ)
  have kV : ((n:ℝ) + 5) / 2 ^ 23 * Real.sqrt V ≤ 1 * Real.sqrt V := mul_le_mul_of_nonneg_right hk1 sV
  have szb : Real.sqrt (z:ℝ) ≤ 2 * Real.sqrt V + 4 * E + 1 / 2 ^ 69 := by
    have := (abs_le.1 r1).2
    have e1 : 2 * (2 * (E:ℝ) + 1 / 2 ^ 70) = 4 * E + 1 / 2 ^ 69 := by ring
    rw [e1] at this
    linarith
  have ssz : (s:ℝ) ≤ 2 * Real.sqrt z := by
    have := (abs_le.1 s2).2
    have : Real.sqrt (z:ℝ) / 2 ^ 53 ≤ Real.sqrt z := div_le_self sz (by norm_num)
    linarith
  have sb : s ≤ 2 ^ 100 := by
    have : (s:ℝ) ≤ 2 ^ 100 := by
      generalize Real.sqrt (z:ℝ) = Z at *
      norm_num at szb ssz sVb hEb ⊢
      linarith
    exact_mod_cast this
  obtain ⟨w, w1, w2⟩ := val_conv (F := f32) s1 (by
    rw [abs_of_nonneg s0, f32_u, f32_eta, f32_max]
    norm_num at sb ⊢
    linarith)
  rw [abs_of_nonneg s0, f32_u, f32_eta] at w2
  refine ⟨_, w, by unfold sp_standard_deviation; exact (bind_ok v1).trans rfl, w1.1, ?_⟩
  have w3 : |(w:ℝ) - s| ≤ 1 / 2 ^ 24 * s + 1 / 2 ^ 150 := by
    have : ((|w - s| : ℚ) : ℝ) ≤ ((1 / 2 ^ 24 * s + 1 / 2 ^ 150 : ℚ) : ℝ) := by exact_mod_cast w2
    push_cast at this
    exact this
  have e : (w:ℝ) - Real.sqrt V = (w - s) + (s - Real.sqrt z) + (Real.sqrt z - Real.sqrt V) := by ring
  rw [e]
  refine le_trans (abs_add_le _ _) (le_trans (add_le_add (abs_add_le _ _) (le_refl _)) ?_)
  have e1 : ((n:ℝ) + 7) / 2 ^ 23 * Real.sqrt V = (n + 5) / 2 ^ 23 * Real.sqrt V + 2 / 2 ^ 23 * Real.sqrt V := by ring
  rw [e1]
  have s3 := (abs_le.1 s2).2
  generalize ((n:ℝ) + 5) / 2 ^ 23 * Real.sqrt V = K at *
  generalize Real.sqrt (z:ℝ) = Z at *
  generalize Real.sqrt (V:ℝ) = W at *
  norm_num at r1 s2 s3 w3 szb ⊢
  linarith

/-! ### The hypotheses can be met -/

/-- a spectrum of three values -/
example : ∃ (m : Mem) (a : Nat → Nat) (x : Nat → ℚ), IsArray m 1 4 3 a ∧ (∀ k, k < 3 → FloatIs f32 (a k) (x k)) ∧ ∀ k, k < 3 → |x k| ≤ 2 ^ 48 := by
  refine ⟨_, demoF32, fun k => if k = 0 then 1 else if k = 1 then -2 else 1 / 2, demoArr 4 3 (by decide), ?_, ?_⟩
  · intro k hk
    obtain rfl | rfl | rfl : k = 0 ∨ k = 1 ∨ k = 2 := by omega
    · exact ⟨false, by decide +kernel⟩
    · exact ⟨true, by decide +kernel⟩
    · exact ⟨false, by decide +kernel⟩
  · intro k hk
    obtain rfl | rfl | rfl : k = 0 ∨ k = 1 ∨ k = 2 := by omega
    · norm_num
    · norm_num
    · norm_num

end HyperCV
