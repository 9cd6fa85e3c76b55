/- C64: accuracy of the mean and the variance of images with arbitrary samples. -/
import Verif.Props.Accuracy

namespace HyperCV
open Spec Finset

variable {m : Mem} {p R C E : Nat} {dt : Int} {a : Nat → Nat → Nat → Nat} {x : Nat → Nat → ℚ}

namespace Spec

/-- the bits `b` of an element of data type `dt` stand for the number `x`: bytes, shorts and ints as unsigned numbers (ints up to 2^24), `float`s -/
def SampleIs (dt : Int) (b : Nat) (x : ℚ) : Prop :=
  ((dt = 1 ∨ dt = 2 ∨ dt = 3 ∨ dt = 12) ∧ b ≤ 16777216 ∧ x = b) ∨ (dt = 4 ∧ FloatIs f32 b x)

/-- sum over all samples of an image -/
def total (R C : Nat) (x : Nat → Nat → ℚ) : ℚ := ∑ i ∈ range R, ∑ j ∈ range C, x i j

/-- mean of the samples -/
def meanQ (R C : Nat) (x : Nat → Nat → ℚ) : ℚ := total R C x / (R * C)

/-- variance of the samples -/
def varQ (R C : Nat) (x : Nat → Nat → ℚ) : ℚ := total R C (fun i j => (x i j - meanQ R C x) ^ 2) / (R * C)

/-- bound for the error of the mean -/
def meanBound (R C : Nat) (x : Nat → Nat → ℚ) : ℚ := (R * C + 3) / 2 ^ 23 * meanQ R C (fun i j => |x i j|) + 3 / 2 ^ 150

end Spec

theorem total_flat (R C : Nat) (x : Nat → Nat → ℚ) (hC : 0 < C) : total R C x = ∑ q ∈ range (R * C), x (q / C) (q % C) := by
  rw [sum_flat]
  unfold total
  refine sum_congr rfl fun i _ => sum_congr rfl fun j hj => ?_
  have := mem_range.1 hj
  rw [show i * C + j = j + C * i by ring, Nat.add_mul_div_left _ _ hC, Nat.div_eq_of_lt this, Nat.add_mul_mod_self_left, Nat.mod_eq_of_lt this,
    Nat.zero_add]

theorem sampleVal {b : Nat} {y : ℚ} (h : SampleIs dt b y) : f32.Val (statVal dt b) y := by
  unfold statVal
  rcases h with ⟨h1, h2, rfl⟩ | ⟨rfl, h⟩
  · rw [if_neg (by rcases h1 with rfl | rfl | rfl | rfl <;> decide)]
    exact good_val (good_round _ _ _) (is_nat32 h2)
  · rw [if_pos rfl]
    exact good_val (good_decode f32_std _) h

theorem sampleType {b : Nat} {y : ℚ} (h : SampleIs dt b y) : statType dt = true := by
  rcases h with ⟨rfl | rfl | rfl | rfl, _⟩ | ⟨rfl, _⟩ <;> decide

/-- division by the number of rows and then by the number of columns -/
theorem div2_err {v : FV} {s : ℚ} (hv : f32.Val v s) (hs : |s| ≤ 2 ^ 126) (hR : 0 < R) (hC : 0 < C) (hR1 : R ≤ 16777216) (hC1 : C ≤ 16777216) :
    ∃ z, f32.Val (f32.div (f32.div v (f32.ofInt R)) (f32.ofInt C)) z ∧ |z - s / (R * C)| ≤ (2 * f32.u + f32.u ^ 2) * (|s| / (R * C)) + 3 / 2 ^ 150 := by
  have hR0 : (1:ℚ) ≤ R := by exact_mod_cast hR
  have hC0 : (1:ℚ) ≤ C := by exact_mod_cast hC
  have hRp : (0:ℚ) < R := by linarith
  have hCp : (0:ℚ) < C := by linarith
  have b1 : |s / R| ≤ |s| := by
    rw [abs_div, abs_of_pos hRp]
    exact div_le_self (abs_nonneg _) hR0
  obtain ⟨z1, a1, e1⟩ := val_div (F := f32) hv.1 (is_nat32 hR1) hRp.ne' (by
    rw [f32_u, f32_eta, f32_max]
    norm_num at hs ⊢
    linarith)
  have b2 : |z1| ≤ (1 + f32.u) * |s / R| + f32.eta := by
    have := abs_add_le (z1 - s / R) (s / R)
    rw [sub_add_cancel] at this
    linarith
  have b3 : |z1 / C| ≤ |z1| := by
    rw [abs_div, abs_of_pos hCp]
    exact div_le_self (abs_nonneg _) hC0
  obtain ⟨z, a2, e2⟩ := val_div (F := f32) a1.1 (is_nat32 hC1) hCp.ne' (by
    rw [f32_u, f32_eta] at *
    rw [f32_max]
    norm_num at hs b2 ⊢
    linarith)
  refine ⟨z, a2, ?_⟩
  have e3 : z - s / (R * C) = (z - z1 / C) + (z1 - s / R) / C := by field_simp; ring
  rw [e3]
  refine le_trans (abs_add_le _ _) ?_
  have c1 : |(z1 - s / R) / C| ≤ (f32.u * |s / R| + f32.eta) / C := by
    rw [abs_div, abs_of_pos hCp]
    exact div_le_div_of_nonneg_right e1 hCp.le
  have c2 : |z1 / C| ≤ ((1 + f32.u) * |s / R| + f32.eta) / C := by
    rw [abs_div, abs_of_pos hCp]
    exact div_le_div_of_nonneg_right b2 hCp.le
  have c3 : |s / R| / C = |s| / (R * C) := by
    rw [abs_div, abs_of_pos hRp, div_div]
  have c4 : f32.eta / C ≤ f32.eta := div_le_self (eta_pos f32).le hC0
  have c5 : (f32.u * |s / R| + f32.eta) / C = f32.u * (|s| / (R * C)) + f32.eta / C := by rw [← c3]; ring
  have c6 : ((1 + f32.u) * |s / R| + f32.eta) / C = (1 + f32.u) * (|s| / (R * C)) + f32.eta / C := by rw [← c3]; ring
  rw [c5] at c1
  rw [c6] at c2
  have hq : 0 ≤ |s| / ((R:ℚ) * C) := by positivity
  generalize |s| / ((R:ℚ) * C) = T at *
  generalize |z1 / C| = U at *
  rw [f32_u, f32_eta] at *
  norm_num at *
  linarith

theorem flat_size {n : Nat} (h : n ≤ 4194304) : (n:ℚ) ≤ 4194304 := by exact_mod_cast h

theorem abs_total_le (R C : Nat) (x : Nat → Nat → ℚ) : |total R C x| ≤ total R C fun i j => |x i j| := by
  unfold total
  refine le_trans (abs_sum_le_sum_abs _ _) (sum_le_sum fun i _ => abs_sum_le_sum_abs _ _)

theorem total_le {R C : Nat} {x : Nat → Nat → ℚ} {B : ℚ} (h : ∀ i j, i < R → j < C → x i j ≤ B) : total R C x ≤ R * C * B := by
  unfold total
  have : ∑ i ∈ range R, ∑ j ∈ range C, x i j ≤ ∑ i ∈ range R, ∑ j ∈ range C, B :=
    sum_le_sum fun i hi => sum_le_sum fun j hj => h i j (mem_range.1 hi) (mem_range.1 hj)
  refine le_trans this (le_of_eq ?_)
  simp
  ring

theorem total_nonneg {R C : Nat} {x : Nat → Nat → ℚ} (h : ∀ i j, 0 ≤ x i j) : 0 ≤ total R C x :=
  sum_nonneg fun _ _ => sum_nonneg fun _ _ => h _ _

theorem mean_val (h : IsImageN m p R C dt 1 E a) (hx : ∀ i j, i < R → j < C → SampleIs dt (a i j 0) (x i j)) (hN : R * C ≤ 4194304)
    (hb : ∀ i j, i < R → j < C → |x i j| ≤ 2 ^ 48) :
    ∃ v q, simple_mat_mean (some p) m = .ok (v, m) ∧ f32.Val v q ∧ |q - meanQ R C x| ≤ meanBound R C x := by
  have hR := h.1.posR
  have hC := h.1.posC
  have ht := sampleType (hx 0 0 hR hC)
  have hR1 : R ≤ 16777216 := le_trans (Nat.le_mul_of_pos_right R hC) (by omega)
  have hC1 : C ≤ 16777216 := le_trans (Nat.le_mul_of_pos_left C hR) (by omega)
  have hnq := flat_size hN
  have hA := total_flat R C (fun i j => |x i j|) hC
  have hS := total_flat R C x hC
  have hAb : total R C (fun i j => |x i j|) ≤ R * C * 2 ^ 48 := total_le fun i j hi hj => hb i j hi hj
  have hAn : 0 ≤ total R C (fun i j => |x i j|) := total_nonneg fun i j => abs_nonneg _
  push_cast at hnq
  obtain ⟨v, h1, h2⟩ := mean_inv h (by omega) ht (SumInv f32 f32.u 0 fun q => x (q / C) (q % C)) sumInv_zero (by
    intro q v hq hv
    refine sumInv_add (n := R * C) (by rw [f32_u]; push_cast; norm_num; linarith) hq ?_ (sampleVal (hx _ _ (Nat.div_lt_of_lt_mul (by rw [Nat.mul_comm]; exact hq)) (Nat.mod_lt _ hC))) hv
    rw [← hA, f32_max]
    norm_num
    linarith)
  obtain ⟨s, s1, s2⟩ := h2.bound (by rw [f32_u]; norm_num) (le_refl 0) (by rw [f32_u]; push_cast; norm_num; linarith)
  rw [← hA, ← hS, mul_zero, add_zero] at s2
  have hSA := abs_total_le R C x
  have hR0 : (1:ℚ) ≤ R := by exact_mod_cast hR
  have hC0 : (1:ℚ) ≤ C := by exact_mod_cast hC
  have hn0 : (1:ℚ) ≤ R * C := by nlinarith
  push_cast at s2
  unfold meanBound meanQ
  generalize total R C x = S at *
  generalize total R C (fun i j => |x i j|) = A at *
  have e0 : 2 * ((R:ℚ) * C) * f32.u ≤ 1 / 2 := by rw [f32_u]; norm_num; linarith
  have sA : |s| ≤ 3 / 2 * A := by
    have := abs_add_le (s - S) S
    rw [sub_add_cancel] at this
    nlinarith
  obtain ⟨z, z1, z2⟩ := div2_err s1 (by
    refine le_trans sA ?_
    norm_num
    norm_num at hAb
    linarith) hR hC hR1 hC1
  refine ⟨_, z, h1, z1, ?_⟩
  generalize (R:ℚ) * C = n at *
  have hnp : 0 < n := by linarith
  have e1 : z - S / n = (z - s / n) + (s - S) / n := by field_simp; ring
  rw [e1]
  refine le_trans (abs_add_le _ _) ?_
  have d1 : |(s - S) / n| ≤ (2 * n * f32.u) * (A / n) := by
    rw [abs_div, abs_of_pos hnp, ← mul_div_assoc]
    exact div_le_div_of_nonneg_right s2 hnp.le
  have d2 : |s| / n ≤ 3 / 2 * (A / n) := by
    rw [← mul_div_assoc]
    exact div_le_div_of_nonneg_right sA hnp.le
  have d3 : (2 * f32.u + f32.u ^ 2) * (|s| / n) ≤ (2 * f32.u + f32.u ^ 2) * (3 / 2 * (A / n)) :=
    mul_le_mul_of_nonneg_left d2 (by rw [f32_u]; norm_num)
  have hq : 0 ≤ A / n := by positivity
  generalize A / n = T at *
  have d4 : ((2 * f32.u + f32.u ^ 2) * (3 / 2) + 2 * n * f32.u) * T ≤ (n + 3) / 2 ^ 23 * T := by
    refine mul_le_mul_of_nonneg_right ?_ hq
    rw [f32_u]
    norm_num
    linarith
  linarith

/-- **C64**, mean: for an image of at most 2^22 samples of any magnitude up to 2^48 (bytes, shorts, `float`s, ints up to 2^24) the result differs from the mean
by at most `(R*C+3) / 2^23` times the mean magnitude (plus a tiny constant), and nothing is modified -/
theorem C64_mean_error (h : IsImageN m p R C dt 1 E a) (hx : ∀ i j, i < R → j < C → SampleIs dt (a i j 0) (x i j)) (hN : R * C ≤ 4194304)
    (hb : ∀ i j, i < R → j < C → |x i j| ≤ 2 ^ 48) :
    ∃ v q, simple_mat_mean (some p) m = .ok (v, m) ∧ v.Is q ∧ |q - meanQ R C x| ≤ meanBound R C x := by
  obtain ⟨v, q, h1, h2, h3⟩ := mean_val h hx hN hb
  exact ⟨v, q, h1, h2.1, h3⟩

/-! ### the variance -/

/-- the square of a `float` is a `double` -/
theorem rep_sq {d : ℚ} (h : f32.Rep d) : f64.Rep (d * d) := by
  obtain ⟨k, e, h1, h2, h3, h4⟩ := h
  refine ⟨k * k, e + e, ?_, ?_, ?_, ?_⟩
  · rw [h1, zpow_add₀ (by norm_num)]
    push_cast
    ring
  · rw [abs_mul]
    have : |k| * |k| ≤ 2 ^ 24 * 2 ^ 24 := mul_le_mul h2 h2 (abs_nonneg _) (by norm_num)
    refine le_trans this ?_
    show (2:ℤ) ^ 24 * 2 ^ 24 ≤ 2 ^ 53
    norm_num
  · have : (-149:ℤ) ≤ e := h3
    show (-1074:ℤ) ≤ e + e
    omega
  · rw [abs_mul]
    have h4' : |d| ≤ 2 ^ 128 := h4.le
    refine lt_of_le_of_lt (mul_le_mul h4' h4' (abs_nonneg _) (by norm_num)) ?_
    rw [← pow_add]
    exact pow_lt_pow_right₀ (by norm_num) (by decide)

/-- one step of the sum of squares -/
theorem addSquare_err' {v d : FV} {s y : ℚ} (hv : f32.Val v s) (hd : f64.Val d y) (hy : f32.Rep y) (hb : |s + y * y| ≤ 2 ^ 126) :
    ∃ z, f32.Val (addSquare v d) z ∧ |z - (s + y * y)| ≤ (f32.u + 1 / 2 ^ 52) * |s + y * y| + f32.eta := by
  have c1 : f64.Val (f64.conv v) s := ⟨is_conv' hv.1 (f32_to_f64 hv.2), f32_to_f64 hv.2⟩
  have c3 : f64.Val (f64.mul d d) (y * y) := ⟨is_mul hd.1 hd.1 (rep_sq hy), rep_sq hy⟩
  obtain ⟨t, t1, t2⟩ := val_add c1 c3 (by
    rw [f64_u, f64_max]
    refine lt_of_le_of_lt (b := 2 ^ 127) ?_ (pow_lt_pow_right₀ (by norm_num) (by decide))
    norm_num at hb ⊢
    linarith)
  rw [f64_u] at t2
  have t3 : |t| ≤ (1 + 1 / 2 ^ 53) * |s + y * y| := by
    have := abs_add_le (t - (s + y * y)) (s + y * y)
    rw [sub_add_cancel] at this
    linarith
  obtain ⟨z, z1, z2⟩ := val_conv (F := f32) t1.1 (by
    rw [f32_u, f32_eta, f32_max]
    norm_num at hb t3 ⊢
    linarith)
  refine ⟨z, z1, ?_⟩
  have e : z - (s + y * y) = (z - t) + (t - (s + y * y)) := by ring
  rw [e]
  refine le_trans (abs_add_le _ _) ?_
  have hq : 0 ≤ |s + y * y| := abs_nonneg _
  generalize |s + y * y| = T at *
  rw [f32_u] at *
  norm_num at *
  linarith

theorem addSquare_err {v d : FV} {s y : ℚ} (hv : f32.Val v s) (hd : f32.Val d y) (hb : |s + y * y| ≤ 2 ^ 126) :
    ∃ z, f32.Val (addSquare v (f64.conv d)) z ∧ |z - (s + y * y)| ≤ (f32.u + 1 / 2 ^ 52) * |s + y * y| + f32.eta :=
  addSquare_err' hv ⟨is_conv' hd.1 (f32_to_f64 hd.2), f32_to_f64 hd.2⟩ hd.2 hb

theorem var_identity {R C : Nat} (x : Nat → Nat → ℚ) (c : ℚ) (hn : (0:ℚ) < R * C) :
    total R C (fun i j => (c - x i j) ^ 2) / (R * C) = varQ R C x + (c - meanQ R C x) ^ 2 := by
  have e1 : total R C (fun i j => (c - x i j) ^ 2) = total R C (fun i j => (x i j - meanQ R C x) ^ 2) + 2 * (meanQ R C x - c) * (total R C x - R * C * meanQ R C x)
      + R * C * (c - meanQ R C x) ^ 2 := by
    unfold total
    generalize meanQ R C x = μ
    have hc : ∑ i ∈ range R, ∑ j ∈ range C, (c - μ) ^ 2 = R * C * (c - μ) ^ 2 := by simp; ring
    have hm : ∑ i ∈ range R, ∑ j ∈ range C, μ = R * C * μ := by simp; ring
    rw [← hc, ← hm, ← sum_sub_distrib, mul_sum, ← sum_add_distrib, ← sum_add_distrib]
    refine sum_congr rfl fun i _ => ?_
    rw [← sum_sub_distrib, mul_sum, ← sum_add_distrib, ← sum_add_distrib]
    refine sum_congr rfl fun j _ => ?_
    ring
  have e2 : total R C x - R * C * meanQ R C x = 0 := by
    unfold meanQ
    rw [mul_div_cancel₀ _ hn.ne', sub_self]
  rw [e1, e2, mul_zero, add_zero, add_div, mul_div_cancel_left₀ _ hn.ne']
  rfl

theorem varQ_nonneg (R C : Nat) (x : Nat → Nat → ℚ) : 0 ≤ varQ R C x := by
  unfold varQ
  have := total_nonneg (R := R) (C := C) (x := fun i j => (x i j - meanQ R C x) ^ 2) (fun i j => sq_nonneg _)
  positivity

/-- the differences from the computed mean and their squares -/
theorem sub_sq_err {y d : ℚ} (b : |y - d| ≤ f32.u * |d|) : |y ^ 2 - d ^ 2| ≤ (1 / 2 ^ 23 + 1 / 2 ^ 48) * d ^ 2 := by
  have e3 : y ^ 2 - d ^ 2 = (y - d) * ((y - d) + 2 * d) := by ring
  rw [e3, abs_mul]
  have c : |y - d + 2 * d| ≤ (f32.u + 2) * |d| := by
    refine le_trans (abs_add_le _ _) ?_
    rw [abs_mul, abs_of_pos (by norm_num : (0:ℚ) < 2)]
    linarith
  refine le_trans (mul_le_mul b c (abs_nonneg _) (by rw [f32_u]; positivity)) (le_of_eq ?_)
  rw [← sq_abs d, f32_u]
  ring

set_option maxHeartbeats 1000000 in
/-- the sum of squares that the variance is computed from -/
theorem variance_sum (h : IsImageN m p R C dt 1 E a) (hx : ∀ i j, i < R → j < C → SampleIs dt (a i j 0) (x i j)) (hN : R * C ≤ 4194304)
    (hb : ∀ i j, i < R → j < C → |x i j| ≤ 2 ^ 48) {mv : FV} {c : ℚ} (m1 : simple_mat_mean (some p) m = .ok (mv, m)) (m2 : f32.Val mv c)
    (hc : |c| ≤ 2 ^ 49) :
    ∃ v s D, simple_mat_variance (some p) m = .ok (f32.div (f32.div v (f32.ofInt R)) (f32.ofInt C), m) ∧ f32.Val v s ∧ 0 ≤ D ∧ D ≤ 2 ^ 123 ∧
      |s - D| ≤ 2 * (R * C) * (1 / 2 ^ 24 + 1 / 2 ^ 52) * D + 2 * (R * C) * (1 / 2 ^ 150) ∧
      |D - total R C (fun i j => (c - x i j) ^ 2)| ≤ (1 / 2 ^ 23 + 1 / 2 ^ 48) * total R C (fun i j => (c - x i j) ^ 2) := by
  have hR := h.1.posR
  have hC := h.1.posC
  have ht := sampleType (hx 0 0 hR hC)
  have hnq := flat_size hN
  push_cast at hnq
  have hdif : ∀ i j, i < R → j < C → |c - x i j| ≤ 2 ^ 50 := by
    intro i j hi hj
    have h1 := hb i j hi hj
    have h2 := abs_sub c (x i j)
    norm_num at h1 h2 hc ⊢
    linarith
  have hd : ∀ q, q < R * C → ∃ y, f32.Val (f32.sub mv (statVal dt (a (q / C) (q % C) 0))) y ∧ |y - (c - x (q / C) (q % C))| ≤ f32.u * |c - x (q / C) (q % C)| := by
    intro q hq
    have hi : q / C < R := Nat.div_lt_of_lt_mul (by rw [Nat.mul_comm]; exact hq)
    have hj := Nat.mod_lt q hC
    refine val_sub m2 (sampleVal (hx _ _ hi hj)) ?_
    have := hdif _ _ hi hj
    rw [f32_u, f32_max]
    norm_num at this ⊢
    linarith
  choose! y y1 y2 using hd
  have hQ := total_flat R C (fun i j => (c - x i j) ^ 2) hC
  have hDQ : |∑ q ∈ range (R * C), y q ^ 2 - total R C (fun i j => (c - x i j) ^ 2)| ≤ (1 / 2 ^ 23 + 1 / 2 ^ 48) * total R C (fun i j => (c - x i j) ^ 2) := by
    rw [hQ, ← sum_sub_distrib, mul_sum]
    exact le_trans (abs_sum_le_sum_abs _ _) (sum_le_sum fun q hq => sub_sq_err (y2 q (mem_range.1 hq)))
  have hQb : total R C (fun i j => (c - x i j) ^ 2) ≤ R * C * 2 ^ 100 := by
    refine total_le fun i j hi hj => ?_
    have : |c - x i j| ^ 2 ≤ (2 ^ 50) ^ 2 := pow_le_pow_left₀ (abs_nonneg _) (hdif i j hi hj) 2
    rw [sq_abs] at this
    refine le_trans this (by norm_num)
  have eDa : ∑ q ∈ range (R * C), |y q * y q| = ∑ q ∈ range (R * C), y q ^ 2 := sum_congr rfl fun q _ => by rw [abs_mul_self, pow_two]
  have eD : ∑ q ∈ range (R * C), y q * y q = ∑ q ∈ range (R * C), y q ^ 2 := sum_congr rfl fun q _ => by rw [pow_two]
  have hDn : 0 ≤ ∑ q ∈ range (R * C), y q ^ 2 := sum_nonneg fun _ _ => sq_nonneg _
  generalize ∑ q ∈ range (R * C), y q ^ 2 = D at *
  generalize total R C (fun i j => (c - x i j) ^ 2) = Q at *
  have hDb : D ≤ 2 ^ 123 := by
    have := (abs_le.1 hDQ).2
    norm_num at this hQb ⊢
    linarith
  have he0 : (0:ℚ) ≤ f32.u + 1 / 2 ^ 52 := by rw [f32_u]; norm_num
  have hne : ((R * C : Nat) : ℚ) * (f32.u + 1 / 2 ^ 52) ≤ 1 / 2 := by rw [f32_u]; push_cast; norm_num; linarith
  obtain ⟨v, h1, h2⟩ := variance_inv h (by omega) ht m1 (SumInv f32 (f32.u + 1 / 2 ^ 52) f32.eta fun q => y q * y q) sumInv_zero (by
    intro q v hq hv
    refine sumInv_succ he0 (eta_pos f32).le hv ?_
    intro s s1 s2
    have s3 := step_bound (n := R * C) he0 (eta_pos f32).le hne hq s2
    rw [eDa] at s3
    refine addSquare_err s1 (y1 q hq) ?_
    rw [f32_eta] at s3
    push_cast at s3
    norm_num at hDb s3 ⊢
    linarith)
  obtain ⟨s, s1, s2⟩ := h2.bound he0 (eta_pos f32).le hne
  rw [eDa, eD] at s2
  push_cast at s2
  rw [f32_eta, f32_u] at s2
  exact ⟨v, s, D, h1, s1, hDn, hDb, s2, hDQ⟩

/-- the arithmetic of the bound -/
theorem variance_tail {n z s D Q V d F : ℚ} (hn1 : 1 ≤ n) (hn2 : n ≤ 4194304) (hid : Q / n = V + d) (hV : 0 ≤ V) (hd : 0 ≤ d) (hF : d ≤ F)
    (hD : 0 ≤ D) (hs : |s - D| ≤ 2 * n * (1 / 2 ^ 24 + 1 / 2 ^ 52) * D + 2 * n * (1 / 2 ^ 150)) (sD : |s| ≤ 2 * D + 2 * n / 2 ^ 150)
    (hQ : |D - Q| ≤ (1 / 2 ^ 23 + 1 / 2 ^ 48) * Q) (hz : |z - s / n| ≤ (2 * (1 / 2 ^ 24) + (1 / 2 ^ 24) ^ 2) * (|s| / n) + 3 / 2 ^ 150) :
    |z - V| ≤ (n + 5) / 2 ^ 23 * (V + F) + F + 6 / 2 ^ 150 := by
  have hnp : 0 < n := by linarith
  have a1 : |(s - D) / n| ≤ 2 * n * (1 / 2 ^ 24 + 1 / 2 ^ 52) * (D / n) + 2 * (1 / 2 ^ 150) := by
    rw [abs_div, abs_of_pos hnp]
    refine le_trans (div_le_div_of_nonneg_right hs hnp.le) (le_of_eq ?_)
    field_simp
  have a2 : |(D - Q) / n| ≤ (1 / 2 ^ 23 + 1 / 2 ^ 48) * (V + d) := by
    rw [abs_div, abs_of_pos hnp, ← hid, ← mul_div_assoc]
    exact div_le_div_of_nonneg_right hQ hnp.le
  have a3 : |s| / n ≤ 2 * (D / n) + 2 / 2 ^ 150 := by
    refine le_trans (div_le_div_of_nonneg_right sD hnp.le) (le_of_eq ?_)
    field_simp
  have a4 : D / n ≤ (1 + (1 / 2 ^ 23 + 1 / 2 ^ 48)) * (V + d) := by
    have := (abs_le.1 a2).2
    rw [sub_div, hid] at this
    linarith
  have e1 : z - V = (z - s / n) + (s - D) / n + (D - Q) / n + d := by
    have : V = Q / n - d := by linarith
    rw [this]
    field_simp
    ring
  rw [e1]
  have t := le_trans (abs_add_le _ _) (add_le_add (le_trans (abs_add_le _ _) (add_le_add (abs_add_le (z - s / n) ((s - D) / n)) (le_refl |(D - Q) / n|))) (le_refl |d|))
  refine le_trans t ?_
  rw [abs_of_nonneg hd]
  have hDn : 0 ≤ D / n := by positivity
  generalize D / n = T at *
  generalize |s| / n = U at *
  have hW : V + d ≤ V + F := by linarith
  have hW0 : 0 ≤ V + d := by linarith
  -- everything in terms of W = V + d
  have b1 : 2 * n * (1 / 2 ^ 24 + 1 / 2 ^ 52) * T ≤ 2 * n * (1 / 2 ^ 24 + 1 / 2 ^ 52) * ((1 + (1 / 2 ^ 23 + 1 / 2 ^ 48)) * (V + d)) :=
    mul_le_mul_of_nonneg_left a4 (by positivity)
  have b2 : ((2 * (1 / 2 ^ 24) + (1 / 2 ^ 24) ^ 2) * (2 * (1 + (1 / 2 ^ 23 + 1 / 2 ^ 48))) + 2 * n * (1 / 2 ^ 24 + 1 / 2 ^ 52) * (1 + (1 / 2 ^ 23 + 1 / 2 ^ 48))
      + (1 / 2 ^ 23 + 1 / 2 ^ 48)) * (V + d) ≤ (n + 5) / 2 ^ 23 * (V + d) := by
    refine mul_le_mul_of_nonneg_right ?_ hW0
    norm_num
    linarith
  have b3 : (n + 5) / 2 ^ 23 * (V + d) ≤ (n + 5) / 2 ^ 23 * (V + F) := mul_le_mul_of_nonneg_left hW (by positivity)
  have b4 : (2 * (1 / 2 ^ 24) + (1 / 2 ^ 24) ^ 2) * U ≤ (2 * (1 / 2 ^ 24) + (1 / 2 ^ 24) ^ 2) * (2 * ((1 + (1 / 2 ^ 23 + 1 / 2 ^ 48)) * (V + d)) + 2 / 2 ^ 150) :=
    mul_le_mul_of_nonneg_left (by linarith) (by norm_num)
  have b5 : (2 * (1 / 2 ^ 24) + (1 / 2 ^ 24) ^ 2) * (2 * ((1 + (1 / 2 ^ 23 + 1 / 2 ^ 48)) * (V + d)) + 2 / 2 ^ 150)
      ≤ (2 * (1 / 2 ^ 24) + (1 / 2 ^ 24) ^ 2) * (2 * (1 + (1 / 2 ^ 23 + 1 / 2 ^ 48))) * (V + d) + (1:ℚ) / 2 ^ 150 := by
    norm_num
    linarith
  linarith

/-- **C64**, variance: with the bound `E` for the error of the mean, the result differs from the variance `V` by at most
`(R*C+5) / 2^23 * (V + E^2) + E^2` (plus a tiny constant) -/
theorem C64_variance_error (h : IsImageN m p R C dt 1 E a) (hx : ∀ i j, i < R → j < C → SampleIs dt (a i j 0) (x i j)) (hN : R * C ≤ 4194304)
    (hb : ∀ i j, i < R → j < C → |x i j| ≤ 2 ^ 48) :
    ∃ v q, simple_mat_variance (some p) m = .ok (v, m) ∧ v.Is q ∧
      |q - varQ R C x| ≤ (R * C + 5) / 2 ^ 23 * (varQ R C x + meanBound R C x ^ 2) + meanBound R C x ^ 2 + 6 / 2 ^ 150 := by
  have hR := h.1.posR
  have hC := h.1.posC
  have ht := sampleType (hx 0 0 hR hC)
  have hR1 : R ≤ 16777216 := le_trans (Nat.le_mul_of_pos_right R hC) (by omega)
  have hC1 : C ≤ 16777216 := le_trans (Nat.le_mul_of_pos_left C hR) (by omega)
  have hnq := flat_size hN
  push_cast at hnq
  have hR0 : (1:ℚ) ≤ R := by exact_mod_cast hR
  have hC0 : (1:ℚ) ≤ C := by exact_mod_cast hC
  have hn0 : (1:ℚ) ≤ R * C := by nlinarith
  have hnp : (0:ℚ) < R * C := by linarith
  obtain ⟨mv, c, m1, m2, m3⟩ := mean_val h hx hN hb
  -- the computed mean is bounded
  have hAb : meanQ R C (fun i j => |x i j|) ≤ 2 ^ 48 := by
    unfold meanQ
    rw [div_le_iff₀ hnp, mul_comm]
    exact total_le fun i j hi hj => hb i j hi hj
  have hmA : |meanQ R C x| ≤ meanQ R C (fun i j => |x i j|) := by
    unfold meanQ
    rw [abs_div, abs_of_pos hnp]
    exact div_le_div_of_nonneg_right (abs_total_le R C x) hnp.le
  have hEb : meanBound R C x ≤ 2 ^ 48 := by
    unfold meanBound
    have h0 : 0 ≤ meanQ R C (fun i j => |x i j|) := le_trans (abs_nonneg _) hmA
    have h1 : ((R:ℚ) * C + 3) / 2 ^ 23 ≤ 3 / 4 := by norm_num; linarith
    have : ((R:ℚ) * C + 3) / 2 ^ 23 * meanQ R C (fun i j => |x i j|) ≤ 3 / 4 * 2 ^ 48 := mul_le_mul h1 hAb h0 (by norm_num)
    norm_num at this ⊢
    linarith
  have hc : |c| ≤ 2 ^ 49 := by
    have := abs_add_le (c - meanQ R C x) (meanQ R C x)
    rw [sub_add_cancel] at this
    norm_num at this m3 hEb hmA hAb ⊢
    linarith
  have hE2 : (c - meanQ R C x) ^ 2 ≤ meanBound R C x ^ 2 := by
    rw [← sq_abs]
    exact pow_le_pow_left₀ (abs_nonneg _) m3 2
  have hV := varQ_nonneg R C x
  obtain ⟨v, s, D, h1, s1, hDn, hDb, s2, hDQ⟩ := variance_sum h hx hN hb m1 m2 hc
  have sD : |s| ≤ 2 * D + 2 * (R * C) / 2 ^ 150 := by
    have t := abs_add_le (s - D) D
    rw [sub_add_cancel, abs_of_nonneg hDn] at t
    have : 2 * ((R:ℚ) * C) * (1 / 2 ^ 24 + 1 / 2 ^ 52) ≤ 1 := by norm_num; linarith
    have : 2 * ((R:ℚ) * C) * (1 / 2 ^ 24 + 1 / 2 ^ 52) * D ≤ 1 * D := mul_le_mul_of_nonneg_right this hDn
    linarith
  obtain ⟨z, z1, z2⟩ := div2_err s1 (by
    refine le_trans sD ?_
    norm_num at hDb ⊢
    linarith) hR hC hR1 hC1
  rw [f32_u] at z2
  refine ⟨_, z, h1, z1.1, ?_⟩
  exact variance_tail hn0 hnq (var_identity x c hnp) hV (sq_nonneg _) hE2 hDn s2 sD hDQ z2

/-- a 2 x 3 image of `float` samples -/
example : ∃ (m : Mem) (a : Nat → Nat → Nat → Nat) (x : Nat → Nat → ℚ), IsImageN m 1 2 3 4 1 4 a ∧ ∀ i j, i < 2 → j < 3 → SampleIs 4 (a i j 0) (x i j) := by
  refine ⟨_, fun i j _ => demoF32 (i + j), fun i j => if i + j = 0 then 1 else if i + j = 1 then -2 else if i + j = 2 then 1 / 2 else 1,
    demoImageN rfl (by decide) (by decide) ?_, ?_⟩
  · intro i j c hi hj _
    have : ∀ k, k < 4 → demoF32 k < 256 ^ 4 := by decide
    exact this _ (by omega)
  · intro i j hi hj
    refine Or.inr ⟨rfl, ?_⟩
    have : i + j < 4 := by omega
    beta_reduce
    generalize i + j = k at *
    obtain rfl | rfl | rfl | rfl : k = 0 ∨ k = 1 ∨ k = 2 ∨ k = 3 := by omega
    · exact ⟨false, by decide +kernel⟩
    · exact ⟨true, by decide +kernel⟩
    · exact ⟨false, by decide +kernel⟩
    · exact ⟨false, by decide +kernel⟩

/-! ### C65: the contrast -/

/-- the terms of the contrast in the order in which they are added -/
def contrastSeq (R C : Nat) (g : Nat → Nat → Nat) (k : Nat) : ℚ :=
  let i := k / 4 / C
  let j := k / 4 % C
  ((if k % 4 = 0 then (if 0 < j then sqDiff (g i j) (g i (j-1)) else 0)
    else if k % 4 = 1 then (if j + 1 < C then sqDiff (g i j) (g i (j+1)) else 0)
    else if k % 4 = 2 then (if 0 < i then sqDiff (g i j) (g (i-1) j) else 0)
    else (if i + 1 < R then sqDiff (g i j) (g (i+1) j) else 0) : Nat) : ℚ)

theorem contrastSeq_at {R C : Nat} (g : Nat → Nat → Nat) {i j : Nat} (hj : j < C) :
    contrastSeq R C g (4 * (i * C + j)) = ((if 0 < j then sqDiff (g i j) (g i (j-1)) else 0 : Nat) : ℚ) ∧
    contrastSeq R C g (4 * (i * C + j) + 1) = ((if j + 1 < C then sqDiff (g i j) (g i (j+1)) else 0 : Nat) : ℚ) ∧
    contrastSeq R C g (4 * (i * C + j) + 2) = ((if 0 < i then sqDiff (g i j) (g (i-1) j) else 0 : Nat) : ℚ) ∧
    contrastSeq R C g (4 * (i * C + j) + 3) = ((if i + 1 < R then sqDiff (g i j) (g (i+1) j) else 0 : Nat) : ℚ) := by
  have hC : 0 < C := by omega
  have d : (i * C + j) / C = i := by rw [Nat.mul_comm, Nat.mul_add_div hC, Nat.div_eq_of_lt hj, Nat.add_zero]
  have r : (i * C + j) % C = j := by rw [Nat.mul_comm, Nat.mul_add_mod, Nat.mod_eq_of_lt hj]
  generalize i * C + j = q at *
  have q0 : 4 * q / 4 = q := by omega
  have q1 : (4 * q + 1) / 4 = q := by omega
  have q2 : (4 * q + 2) / 4 = q := by omega
  have q3 : (4 * q + 3) / 4 = q := by omega
  have r0 : 4 * q % 4 = 0 := by omega
  have r1 : (4 * q + 1) % 4 = 1 := by omega
  have r2 : (4 * q + 2) % 4 = 2 := by omega
  have r3 : (4 * q + 3) % 4 = 3 := by omega
  unfold contrastSeq
  simp only [q0, q1, q2, q3, r0, r1, r2, r3, d, r]
  refine ⟨?_, ?_, ?_, ?_⟩ <;> simp

theorem contrastSeq_sum {R C : Nat} (g : Nat → Nat → Nat) :
    ∑ k ∈ range (4 * (R * C)), contrastSeq R C g k = (contrastSum R C g : ℚ) := by
  rw [contrastSum_eq, Nat.mul_comm, sum_flat (R * C) 4 (contrastSeq R C g), sum_flat R C]
  push_cast
  refine sum_congr rfl fun i _ => sum_congr rfl fun j hj => ?_
  obtain ⟨a0, a1, a2, a3⟩ := contrastSeq_at (R := R) g (i := i) (mem_range.1 hj)
  rw [sum_range_succ, sum_range_succ, sum_range_succ, sum_range_one, Nat.mul_comm (i * C + j) 4, Nat.add_zero, a0, a1, a2, a3]
  unfold contrastAt
  push_cast
  rfl

theorem contrastSeq_nonneg {R C : Nat} (g : Nat → Nat → Nat) (k : Nat) : 0 ≤ contrastSeq R C g k := by
  unfold contrastSeq
  exact Nat.cast_nonneg _

/-- accuracy of one addition -/
abbrev conE : ℚ := f32.u + 1 / 2 ^ 52

theorem conE_pos : 0 ≤ conE := by unfold conE; rw [f32_u]; norm_num

section
variable {sd N : Nat} {f : Nat → UInt8}

theorem contrastTerm_err (hs : Holds m sd N f) {use : Bool} {a b : CI} {p q k n : Nat} {x : Nat → ℚ}
    (h : use = true → a = CI.lit (p:Int) ∧ b = CI.lit (q:Int) ∧ p < N ∧ q < N)
    (hx : x k = ((if use then sqDiff (f p).toNat (f q).toNat else 0 : Nat) : ℚ)) (hn : (n:ℚ) * conE ≤ 1 / 2) (hk : k < n)
    (hb : ∑ i ∈ range n, |x i| + n ≤ 2 ^ 125) {v : FV} (hv : SumInv f32 conE f32.eta x k v) :
    ∃ v', contrastTerm sd use a b v m = .ok (v', m) ∧ SumInv f32 conE f32.eta x (k + 1) v' := by
  cases use with
  | false =>
    refine ⟨v, rfl, sumInv_succ conE_pos (eta_pos f32).le hv ?_⟩
    intro s s1 _
    have : x k = 0 := by simpa using hx
    refine ⟨s, s1, ?_⟩
    rw [this, add_zero, sub_self, abs_zero]
    exact add_nonneg (mul_nonneg conE_pos (abs_nonneg _)) (eta_pos f32).le
  | true =>
    obtain ⟨h1, h2, h3, h4⟩ := h rfl
    have x1 := (f p).toNat_lt
    have x2 := (f q).toNat_lt
    refine ⟨addSquare v (f64.ofInt (((f p).toNat : ℤ) - (f q).toNat)), ?_, ?_⟩
    · unfold contrastTerm
      rw [if_pos rfl, bind_ok (ev_ok h1 _), bind_ok (load_ok hs h3), bind_ok (ev_ok h2 _), bind_ok (load_ok hs h4)]
      unfold ival
      rw [bind_ok (ev_ok (CI.sub_ok (by constructor <;> omega)) _)]
      rfl
    · refine sumInv_succ conE_pos (eta_pos f32).le hv ?_
      intro s s1 s2
      have s3 := step_bound conE_pos (eta_pos f32).le hn hk s2
      have hr : f32.Rep (((((f p).toNat : ℤ) - (f q).toNat : ℤ)) : ℚ) := rep32_int (by rw [abs_le]; constructor <;> omega)
      have e := sqDiff_eq (f p).toNat (f q).toNat
      have ex : x k = (((((f p).toNat : ℤ) - (f q).toNat : ℤ)) : ℚ) * (((((f p).toNat : ℤ) - (f q).toNat : ℤ)) : ℚ) := by
        rw [hx, if_pos rfl]
        exact_mod_cast e
      have hd : f64.Val (f64.ofInt (((f p).toNat : ℤ) - (f q).toNat)) (((((f p).toNat : ℤ) - (f q).toNat : ℤ)) : ℚ) :=
        ⟨is_ofInt (f32_to_f64 hr), f32_to_f64 hr⟩
      generalize f64.ofInt (((f p).toNat : ℤ) - (f q).toNat) = d at *
      generalize (((((f p).toNat : ℤ) - (f q).toNat : ℤ)) : ℚ) = y at *
      rw [ex]
      rw [ex, f32_eta] at s3
      refine addSquare_err' s1 hd hr ?_
      have : (n:ℚ) * (1 / 2 ^ 150) ≤ n := by
        have : (0:ℚ) ≤ n := by positivity
        norm_num
        linarith
      norm_num at hb s3 this ⊢
      linarith

theorem contrastPixel_err {R C : Nat} (hs : Holds m sd (R * C) f) (hN : R * C ≤ 1048576) {i j : Nat} (hi : i < R) (hj : j < C)
    (hb : ∑ k ∈ range (4 * (R * C)), |contrastSeq R C (fun i j => (f (i * C + j)).toNat) k| + ((4 * (R * C) : Nat) : ℚ) ≤ 2 ^ 125) {v : FV}
    (hv : SumInv f32 conE f32.eta (contrastSeq R C fun i j => (f (i * C + j)).toNat) (4 * (i * C + j)) v) :
    ∃ v', contrastPixel sd R C i j v m = .ok (v', m) ∧ SumInv f32 conE f32.eta (contrastSeq R C fun i j => (f (i * C + j)).toNat) (4 * (i * C + (j + 1))) v' := by
  have hR : R ≤ R * C := Nat.le_mul_of_pos_right _ (by omega)
  have hC : C ≤ R * C := Nat.le_mul_of_pos_left _ (by omega)
  have e0 := idx_eval hi hj (by omega : R * C ≤ 2147483647)
  have l0 := flat_lt hi hj
  have e1 : j ≠ 0 → (CI.lit (i:Int) * CI.lit (C:Int) + CI.lit (j:Int) - CI.lit 1 : CI) = CI.lit ((i * C + (j - 1) : Nat) : Int) := by
    intro h
    rw [e0, CI.sub_ok (by constructor <;> omega)]
    congr 1; omega
  have e2 : j + 1 < C → (CI.lit (i:Int) * CI.lit (C:Int) + CI.lit (j:Int) + CI.lit 1 : CI) = CI.lit ((i * C + (j + 1) : Nat) : Int) := by
    intro h
    have := flat_lt hi h
    rw [e0, CI.add_ok (by constructor <;> omega)]
    congr 1
  have e3 : i ≠ 0 → ((CI.lit (i:Int) - CI.lit 1) * CI.lit (C:Int) + CI.lit (j:Int) : CI) = CI.lit (((i - 1) * C + j : Nat) : Int) := by
    intro h
    rw [CI.sub_ok (by constructor <;> omega), show (i:Int) - 1 = ((i - 1 : Nat) : Int) by omega]
    exact idx_eval (R := R) (by omega) hj (by omega)
  have e4 : i + 1 < R → ((CI.lit (i:Int) + CI.lit 1) * CI.lit (C:Int) + CI.lit (j:Int) : CI) = CI.lit (((i + 1) * C + j : Nat) : Int) := by
    intro h
    rw [CI.add_ok (by constructor <;> omega)]
    exact idx_eval (R := R) h hj (by omega)
  have d1 : (decide ((j:Int) ≠ 0)) = decide (0 < j) := by rw [decide_eq_decide]; omega
  have d2 : (decide ((j:Int) ≠ (C:Int) - 1)) = decide (j + 1 < C) := by rw [decide_eq_decide]; omega
  have d3 : (decide ((i:Int) ≠ 0)) = decide (0 < i) := by rw [decide_eq_decide]; omega
  have d4 : (decide ((i:Int) ≠ (R:Int) - 1)) = decide (i + 1 < R) := by rw [decide_eq_decide]; omega
  have hn : ((4 * (R * C) : Nat) : ℚ) * conE ≤ 1 / 2 := by
    have : ((R * C : Nat) : ℚ) ≤ 1048576 := by exact_mod_cast hN
    unfold conE
    rw [f32_u]
    push_cast at this ⊢
    norm_num
    linarith
  obtain ⟨t0, t1, t2, t3⟩ := contrastSeq_at (R := R) (fun i j => (f (i * C + j)).toNat) (i := i) hj
  unfold contrastPixel
  rw [d1, d2, d3, d4]
  obtain ⟨v1, a1, b1⟩ := contrastTerm_err hs (use := decide (0 < j)) (a := CI.lit (i:Int) * CI.lit (C:Int) + CI.lit (j:Int))
    (b := CI.lit (i:Int) * CI.lit (C:Int) + CI.lit (j:Int) - CI.lit 1) (p := i * C + j) (q := i * C + (j - 1))
    (fun h => by rw [decide_eq_true_eq] at h; exact ⟨e0, e1 (by omega), l0, by omega⟩) (by rw [t0]; simp only [decide_eq_true_eq]) hn (by omega) hb hv
  obtain ⟨v2, a2, b2⟩ := contrastTerm_err hs (use := decide (j + 1 < C)) (a := CI.lit (i:Int) * CI.lit (C:Int) + CI.lit (j:Int))
    (b := CI.lit (i:Int) * CI.lit (C:Int) + CI.lit (j:Int) + CI.lit 1) (p := i * C + j) (q := i * C + (j + 1))
    (fun h => by rw [decide_eq_true_eq] at h; exact ⟨e0, e2 h, l0, flat_lt hi h⟩) (by rw [t1]; simp only [decide_eq_true_eq]) hn (by omega) hb b1
  obtain ⟨v3, a3, b3⟩ := contrastTerm_err hs (use := decide (0 < i)) (a := CI.lit (i:Int) * CI.lit (C:Int) + CI.lit (j:Int))
    (b := (CI.lit (i:Int) - CI.lit 1) * CI.lit (C:Int) + CI.lit (j:Int)) (p := i * C + j) (q := (i - 1) * C + j)
    (fun h => by rw [decide_eq_true_eq] at h; exact ⟨e0, e3 (by omega), l0, flat_lt (by omega) hj⟩) (by rw [t2]; simp only [decide_eq_true_eq]) hn (by omega) hb b2
  obtain ⟨v4, a4, b4⟩ := contrastTerm_err hs (use := decide (i + 1 < R)) (a := CI.lit (i:Int) * CI.lit (C:Int) + CI.lit (j:Int))
    (b := (CI.lit (i:Int) + CI.lit 1) * CI.lit (C:Int) + CI.lit (j:Int)) (p := i * C + j) (q := (i + 1) * C + j)
    (fun h => by rw [decide_eq_true_eq] at h; exact ⟨e0, e4 h, l0, flat_lt h hj⟩) (by rw [t3]; simp only [decide_eq_true_eq]) hn (by omega) hb b3
  refine ⟨v4, ?_, ?_⟩
  · rw [bind_ok a1, bind_ok a2, bind_ok a3]
    exact a4
  · rw [show 4 * (i * C + (j + 1)) = 4 * (i * C + j) + 3 + 1 by ring]
    exact b4

theorem contrast_loop_err {R C : Nat} (hs : Holds m sd (R * C) f) (hN : R * C ≤ 1048576)
    (hb : ∑ k ∈ range (4 * (R * C)), |contrastSeq R C (fun i j => (f (i * C + j)).toNat) k| + ((4 * (R * C) : Nat) : ℚ) ≤ 2 ^ 125) :
    ∃ v, forA 0 (R:Int) (FV.fin false 0) (fun i res => forA 0 (C:Int) res fun j res => contrastPixel sd R C i j res) m = .ok (v, m) ∧
      SumInv f32 conE f32.eta (contrastSeq R C fun i j => (f (i * C + j)).toNat) (4 * (R * C)) v := by
  have key := taps_inv (a := R) (b := C) (m := m) (s0 := FV.fin false 0) (body := fun i j res => contrastPixel sd R C i j res)
    (fun i j v => SumInv f32 conE f32.eta (contrastSeq R C fun i j => (f (i * C + j)).toNat) (4 * (i * C + j)) v)
    (by rw [Nat.zero_mul]; exact sumInv_zero)
    (fun i j v hi hj hv => contrastPixel_err hs hN hi hj hb hv)
    (fun i v _ hv => by rw [show (i + 1) * C + 0 = i * C + C by ring]; exact hv)
  obtain ⟨v, h1, h2⟩ := key
  exact ⟨v, h1, h2⟩

end

/-- **C65**, any grey image of two up to 2^20 pixels: the result is the mean squared difference of neighbouring pixels, up to a relative error of
`(R*C+1) / 2^21` (and a tiny constant) -/
theorem C65_error {px : Nat → Nat → Nat → UInt8} (h : IsImage8 m p R C 1 px) (h1 : 1 < R * C) (hN : R * C ≤ 1048576) :
    ∃ v q, simple_mat_contrast_ratio (some p) m = .ok (v, m) ∧ v.Is q ∧
      |q - contrastSum R C (fun i j => (px i j 0).toNat) / pairCount R C| ≤
        (R * C + 1) / 2 ^ 21 * (contrastSum R C (fun i j => (px i j 0).toNat) / pairCount R C) + 10 / 2 ^ 150 := by
  have hR := h.posR
  have hC := h.posC
  obtain ⟨d, inl, g1, g2⟩ := img8_lit h
  rw [Nat.mul_one] at g2
  have hnq : (R:ℚ) * C ≤ 1048576 := by exact_mod_cast hN
  have hn1 : (2:ℚ) ≤ R * C := by exact_mod_cast h1
  set f := imgBytes C 1 1 (fun i j c _ => px i j c) with hf
  have hcs : contrastSum R C (fun i j => (f (i * C + j)).toNat) = contrastSum R C (fun i j => (px i j 0).toNat) := by
    rw [contrastSum_eq, contrastSum_eq]
    congr 1
    refine contrastAt_congr fun i j hi hj => ?_
    have := imgBytes_at8 (C := C) (ch := 1) (i := i) (j := j) (c := 0) (px := px) hj (by decide)
    rw [Nat.mul_one, Nat.add_zero] at this
    rw [hf, this]
  have hsum := contrastSeq_sum (R := R) (C := C) (fun i j => (f (i * C + j)).toNat)
  have habs : ∑ k ∈ range (4 * (R * C)), |contrastSeq R C (fun i j => (f (i * C + j)).toNat) k| = (contrastSum R C (fun i j => (px i j 0).toNat) : ℚ) := by
    rw [← hcs, ← hsum]
    exact sum_congr rfl fun k _ => abs_of_nonneg (contrastSeq_nonneg _ _)
  rw [hcs] at hsum
  -- the sum of the terms is bounded
  have hTb : (contrastSum R C (fun i j => (px i j 0).toNat) : ℚ) ≤ 2 ^ 60 := by
    rw [← hsum]
    have hk : ∀ k ∈ range (4 * (R * C)), contrastSeq R C (fun i j => (f (i * C + j)).toNat) k ≤ 131072 := by
      intro k _
      have sq : ∀ x y : UInt8, sqDiff x.toNat y.toNat ≤ 131072 := by
        intro x y
        have a := x.toNat_lt
        have b := y.toNat_lt
        have c : sqDiff x.toNat y.toNat ≤ 256 * 256 + 256 * 256 := Nat.add_le_add (Nat.mul_le_mul (by omega) (by omega)) (Nat.mul_le_mul (by omega) (by omega))
        omega
      unfold contrastSeq
      have : ∀ z : Nat, z ≤ 131072 → (z:ℚ) ≤ 131072 := fun z hz => by exact_mod_cast hz
      apply this
      dsimp only
      split_ifs <;> first | exact sq _ _ | omega
    refine le_trans (sum_le_card_nsmul _ _ _ hk) ?_
    rw [card_range, nsmul_eq_mul]
    push_cast
    norm_num
    linarith
  obtain ⟨v, r1, r2⟩ := contrast_loop_err g2 hN (by
    rw [habs]
    push_cast
    norm_num at hTb ⊢
    linarith)
  have hne : ((4 * (R * C) : Nat) : ℚ) * conE ≤ 1 / 2 := by
    unfold conE
    rw [f32_u]
    push_cast
    norm_num
    linarith
  obtain ⟨s, s1, s2⟩ := r2.bound conE_pos (eta_pos f32).le hne
  rw [habs, hsum] at s2
  have hT0 : (0:ℚ) ≤ (contrastSum R C (fun i j => (px i j 0).toNat) : ℚ) := by
    rw [← hsum]
    exact sum_nonneg fun k _ => contrastSeq_nonneg _ _
  -- the number of pairs
  have hpc := pairCount_eq hR hC
  have k3 : R + C ≤ R * C + 1 := by nlinarith
  have hp1 : pairCount R C ≤ 16777216 := by
    generalize R * C = P at *; omega
  have hp2 : R * C ≤ pairCount R C := by
    generalize R * C = P at *; omega
  have hpq : (R:ℚ) * C ≤ pairCount R C := by exact_mod_cast hp2
  have hpp : (0:ℚ) < pairCount R C := by linarith
  have hrun : simple_mat_contrast_ratio (some p) m = .ok (f32.div v (f32.ofInt (pairCount R C : ℤ)), m) := by
    unfold simple_mat_contrast_ratio
    have q1 : derefS (some p) m = .ok (_, m) := getS_ok g1
    rw [cassert_bind (by simp), bind_ok q1, cassert_bind (by simp)]
    have q2 : greyOfMat (some p) ((1:Nat):Int) m = .ok (some p, m) := by
      unfold greyOfMat; rw [if_neg (by decide)]; rfl
    rw [bind_ok q2, bind_ok q1, bind_ok r1, bind_ok (ev_ok (contrast_den hR hC (by omega)) _), hpc]
    rfl
  generalize (contrastSum R C (fun i j => (px i j 0).toNat) : ℚ) = T at *
  unfold conE at s2
  rw [f32_u, f32_eta] at s2
  push_cast at s2
  have s3 : |s - T| ≤ (8 * (R * C) * (1 / 2 ^ 24 + 1 / 2 ^ 52)) * T + 8 * (R * C) * (1 / 2 ^ 150) := by linarith
  clear s2 hsum habs hcs r1 r2 g1 g2
  have sT : |s| ≤ 2 * T + 8 * (R * C) * (1 / 2 ^ 150) := by
    have t := abs_add_le (s - T) T
    rw [sub_add_cancel, abs_of_nonneg hT0] at t
    have : 8 * ((R:ℚ) * C) * (1 / 2 ^ 24 + 1 / 2 ^ 52) ≤ 1 := by norm_num; linarith
    have := mul_le_mul_of_nonneg_right this hT0
    linarith
  generalize (R:ℚ) * C = n at *
  have sb : |s| ≤ 2 ^ 62 := by norm_num at sT hTb ⊢; linarith
  have sp : |s / (pairCount R C : ℚ)| ≤ |s| := by
    rw [abs_div, abs_of_pos hpp]
    exact div_le_self (abs_nonneg _) (by linarith)
  obtain ⟨z, z1, z2⟩ := val_div (F := f32) s1.1 (is_nat32 hp1) hpp.ne' (by
    rw [f32_u, f32_eta, f32_max]
    norm_num at sb ⊢
    linarith)
  refine ⟨_, z, hrun, z1.1, ?_⟩
  generalize (pairCount R C : ℚ) = P at *
  rw [f32_u, f32_eta] at z2
  have np : n / P ≤ 1 := (div_le_one hpp).2 hpq
  have np0 : 0 ≤ n / P := div_nonneg (by linarith) hpp.le
  have a1 : |(s - T) / P| ≤ (8 * n * (1 / 2 ^ 24 + 1 / 2 ^ 52)) * (T / P) + 8 * (1 / 2 ^ 150) := by
    rw [abs_div, abs_of_pos hpp]
    refine le_trans (div_le_div_of_nonneg_right s3 hpp.le) ?_
    have : ((8 * n * (1 / 2 ^ 24 + 1 / 2 ^ 52)) * T + 8 * n * (1 / 2 ^ 150)) / P = (8 * n * (1 / 2 ^ 24 + 1 / 2 ^ 52)) * (T / P) + 8 * (n / P) * (1 / 2 ^ 150) := by
      field_simp
    rw [this]
    have : 8 * (n / P) * (1 / 2 ^ 150) ≤ 8 * 1 * ((1:ℚ) / 2 ^ 150) := by
      refine mul_le_mul_of_nonneg_right ?_ (by norm_num)
      linarith
    linarith
  have a2 : |s / P| ≤ 2 * (T / P) + 8 * (1 / 2 ^ 150) := by
    rw [abs_div, abs_of_pos hpp]
    refine le_trans (div_le_div_of_nonneg_right sT hpp.le) ?_
    have : (2 * T + 8 * n * (1 / 2 ^ 150)) / P = 2 * (T / P) + 8 * (n / P) * (1 / 2 ^ 150) := by
      field_simp
    rw [this]
    have : 8 * (n / P) * (1 / 2 ^ 150) ≤ 8 * 1 * ((1:ℚ) / 2 ^ 150) := by
      refine mul_le_mul_of_nonneg_right ?_ (by norm_num)
      linarith
    linarith
  have e : z - T / P = (z - s / P) + (s - T) / P := by ring
  rw [e]
  refine le_trans (abs_add_le _ _) ?_
  have hq : 0 ≤ T / P := by positivity
  generalize T / P = U at *
  have fin : ((1:ℚ) / 2 ^ 24 * 2 + 8 * n * (1 / 2 ^ 24 + 1 / 2 ^ 52)) * U ≤ (n + 1) / 2 ^ 21 * U := by
    refine mul_le_mul_of_nonneg_right ?_ hq
    norm_num
    linarith
  have b : (1:ℚ) / 2 ^ 24 * |s / P| ≤ 1 / 2 ^ 24 * (2 * U + 8 * (1 / 2 ^ 150)) := mul_le_mul_of_nonneg_left a2 (by norm_num)
  have c : (1:ℚ) / 2 ^ 24 * (8 * (1 / 2 ^ 150)) ≤ 1 / 2 ^ 150 := by norm_num
  linarith

end HyperCV
