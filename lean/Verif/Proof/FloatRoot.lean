/- The error of `(float)sqrt(x)` and of the Euclidean norm, for arbitrary values. -/
import Verif.Proof.FloatError
import Verif.Proof.InvertExact
import Verif.Proof.Arrays

namespace HyperCV

theorem f32_u : f32.u = 1 / 2 ^ 24 := rfl
theorem f32_eta : f32.eta = 1 / 2 ^ 150 := by
  unfold Fmt.eta
  have : f32.emin = -149 := by decide
  rw [this]
  norm_num [zpow_neg]

theorem f32_max : ((2:ℚ) ^ (2 ^ (f32.w - 1))) = 2 ^ 128 := by
  have : f32.w = 8 := rfl
  rw [this]
  norm_num

theorem rep_pos_ge {q : ℚ} (h : f32.Rep q) (hq : 0 < q) : (2:ℚ) ^ (-149 : ℤ) ≤ q := by
  obtain ⟨k, hk⟩ := rep_grid h
  have e : f32.emin = -149 := by decide
  rw [e] at hk
  have hp : (0:ℚ) < 2 ^ (-149 : ℤ) := by positivity
  have k1 : 1 ≤ k := by
    have : (0:ℚ) < k := by
      rw [hk] at hq
      exact pos_of_mul_pos_left hq hp.le
    exact_mod_cast this
  rw [hk]
  exact le_mul_of_one_le_left hp.le (by exact_mod_cast k1)

/-- the root of a positive `float` -/
theorem root_err {a : FV} {z : ℚ} (ha : f32.Val a z) (hz : 0 < z) :
    ∃ w, f32.Val (rootF a) w ∧ |(w:ℝ) - Real.sqrt z| ≤ Real.sqrt z / 2 ^ 23 := by
  have hb : z < 2 ^ 128 := by
    obtain ⟨_, _, -, -, -, h4⟩ := ha.2
    rw [abs_of_pos hz, f32_max] at h4
    exact h4
  have hl := rep_pos_ge ha.2 hz
  obtain ⟨s, hs⟩ := is_conv' (F := f64) ha.1 (f32_to_f64 ha.2)
  have hlog : (-149:ℤ) ≤ Int.log 2 z := by
    rw [← Int.zpow_le_iff_le_log (by norm_num) hz]
    exact_mod_cast hl
  obtain ⟨r, r1, r2⟩ := sqrt_err (F := f64) (s := s) hz (by
    have : f64.emin + (f64.t : ℤ) = -1022 := by decide
    omega)
  have ht : f64.t = 52 := rfl
  rw [ht] at r2
  set Q := Real.sqrt z with hQ
  have hQ1 : (2:ℝ) ^ (-75 : ℤ) ≤ Q := by
    apply Real.le_sqrt_of_sq_le
    have : ((2:ℝ) ^ (-75 : ℤ)) ^ 2 ≤ 2 ^ (-149 : ℤ) := by norm_num [zpow_neg]
    refine le_trans this ?_
    have := (Rat.cast_le (K := ℝ)).2 hl
    push_cast at this
    exact this
  have hQ2 : Q ≤ 2 ^ 64 := by
    rw [hQ, Real.sqrt_le_iff]
    refine ⟨by positivity, ?_⟩
    have := (Rat.cast_le (K := ℝ)).2 hb.le
    push_cast at this
    norm_num at this ⊢
    exact this
  have hQ0 : 0 < Q := lt_of_lt_of_le (by positivity) hQ1
  have r3 := abs_le.1 r2
  norm_num at r3
  have hr1 : (2:ℝ) ^ (-76 : ℤ) ≤ r := by
    have : (2:ℝ) ^ (-76 : ℤ) = 2 ^ (-75 : ℤ) / 2 := by norm_num [zpow_neg]
    rw [this]
    have h6 := r3.1
    clear_value Q
    generalize (2:ℝ) ^ (-75 : ℤ) = c at hQ1 ⊢
    linarith
  have hr2 : (r:ℝ) ≤ 2 ^ 65 := by
    norm_num at hQ2 ⊢
    linarith [r3.2]
  have hr1' : (2:ℚ) ^ (-76 : ℤ) ≤ r := by
    have : (((2:ℚ) ^ (-76 : ℤ) : ℚ) : ℝ) ≤ r := by push_cast; exact hr1
    exact_mod_cast this
  have hr2' : r ≤ 2 ^ 65 := by
    have : (r:ℝ) ≤ ((2 ^ 65 : ℚ) : ℝ) := by push_cast; exact hr2
    exact_mod_cast this
  have hr0 : 0 < r := lt_of_lt_of_le (by positivity) hr1'
  have hrel := rv_rel (q := r) (by
    rw [abs_of_pos hr0]
    refine le_trans ?_ hr1'
    norm_num [zpow_neg])
  rw [abs_of_pos hr0] at hrel
  have hconv : rootF a = f32.round false r := by
    unfold rootF
    rw [hs, r1]
    rfl
  have hlt : |f32.rv r| < 2 ^ (2 ^ (f32.w - 1)) := by
    rw [f32_max]
    have := abs_add_le (f32.rv r - r) r
    rw [sub_add_cancel, abs_of_pos hr0] at this
    have : |f32.rv r| ≤ 2 ^ 66 := by norm_num at hrel hr2' ⊢; linarith
    refine lt_of_le_of_lt this (by norm_num)
  refine ⟨f32.rv r, good_val (good_rootF a) (by rw [hconv]; exact round_is hlt), ?_⟩
  have h5 : |((f32.rv r : ℚ) : ℝ) - r| ≤ r / 2 ^ 24 := by
    have := (Rat.cast_le (K := ℝ)).2 hrel
    push_cast at this
    exact this
  have e : ((f32.rv r : ℚ) : ℝ) - Q = (((f32.rv r : ℚ) : ℝ) - r) + (r - Q) := by ring
  rw [e]
  refine le_trans (abs_add_le _ _) ?_
  norm_num at h5 r2 ⊢
  linarith [abs_le.1 r2]

/-- roots of near numbers -/
theorem sqrt_near {z T d : ℝ} (hT : 0 < T) (h : |z - T| ≤ d * T) : |Real.sqrt z - Real.sqrt T| ≤ d * Real.sqrt T := by
  have hs : 0 < Real.sqrt T := Real.sqrt_pos.2 hT
  by_cases hz : 0 ≤ z
  · have e : (Real.sqrt z - Real.sqrt T) * (Real.sqrt z + Real.sqrt T) = z - T := by
      have a := Real.mul_self_sqrt hz
      have b := Real.mul_self_sqrt hT.le
      linear_combination a - b
    have h1 : |Real.sqrt z - Real.sqrt T| * (Real.sqrt z + Real.sqrt T) = |z - T| := by
      rw [← e, abs_mul, abs_of_pos (show 0 < Real.sqrt z + Real.sqrt T by have := Real.sqrt_nonneg z; linarith)]
    have h2 : |Real.sqrt z - Real.sqrt T| * Real.sqrt T ≤ d * Real.sqrt T * Real.sqrt T := by
      have : |Real.sqrt z - Real.sqrt T| * Real.sqrt T ≤ |z - T| := by
        rw [← h1]
        exact mul_le_mul_of_nonneg_left (by have := Real.sqrt_nonneg z; linarith) (abs_nonneg _)
      rw [mul_assoc, Real.mul_self_sqrt hT.le]
      linarith
    exact le_of_mul_le_mul_right h2 hs
  · rw [not_le] at hz
    rw [Real.sqrt_eq_zero_of_nonpos hz.le, zero_sub, abs_neg, abs_of_pos hs]
    have : T ≤ d * T := by
      rw [abs_of_neg (by linarith)] at h
      linarith
    have : 1 ≤ d := by
      by_contra hc
      rw [not_le] at hc
      nlinarith
    nlinarith

/-- **the norm** of any finite vector whose squared length lies in [2^-100, 2^126] -/
theorem norm_err {n : Nat} {v : Nat → FV} {x : Nat → ℚ} (hn : n ≤ 2 ^ 20) (hv : ∀ i, i < n → (v i).Is (x i))
    (h1 : (2:ℚ) ^ (-100 : ℤ) ≤ ∑ i ∈ Finset.range n, x i ^ 2) (h2 : ∑ i ∈ Finset.range n, x i ^ 2 ≤ 2 ^ 126) :
    ∃ w, f32.Val (normFold n v) w ∧
      |(w:ℝ) - Real.sqrt (∑ i ∈ Finset.range n, (x i : ℝ) ^ 2)| ≤ (n + 3) / 2 ^ 23 * Real.sqrt (∑ i ∈ Finset.range n, (x i : ℝ) ^ 2) := by
  have eT : ∑ i ∈ Finset.range n, |x i * x i| = ∑ i ∈ Finset.range n, x i ^ 2 :=
    Finset.sum_congr rfl fun i _ => by rw [abs_mul_self, pow_two]
  have eT2 : ∑ i ∈ Finset.range n, x i * x i = ∑ i ∈ Finset.range n, x i ^ 2 :=
    Finset.sum_congr rfl fun i _ => by rw [pow_two]
  set T := ∑ i ∈ Finset.range n, x i ^ 2 with hT
  have hnq : (n:ℚ) ≤ 1048576 := by exact_mod_cast hn
  have hn0 : (0:ℚ) ≤ n := by positivity
  have hpow : (1 + f32.u) ^ (n + 1) ≤ 1 + 2 * ((n + 1 : ℕ) : ℚ) * f32.u := pow_u_le f32 (n + 1) (by rw [f32_u]; push_cast; norm_num; linarith)
  have hpow2 : (1 + f32.u) ^ n ≤ 2 := by
    have := pow_u_le f32 n (by rw [f32_u]; norm_num; linarith)
    rw [f32_u] at this ⊢
    norm_num at this ⊢
    linarith
  rw [f32_u] at hpow
  push_cast at hpow
  have hpow3 : (1 + f32.u) ^ (n + 1) ≤ 2 := by
    rw [f32_u]; norm_num at hpow ⊢; linarith
  have hp0 : 0 ≤ (1 + f32.u) ^ (n+1) := by rw [f32_u]; positivity
  obtain ⟨z, z1, z2⟩ := dot_err (F := f32) (v := v) (w := v) (x := x) (y := x) n hv hv (val_zero f32) (by
    rw [eT, f32_max, f32_eta, abs_zero, zero_add]
    have a : T + n * (1 / 2 ^ 150) ≤ 2 ^ 126 + 1 := by norm_num at h2 ⊢; linarith
    have b : (1 + f32.u) ^ (n + 1) * (T + n * (1 / 2 ^ 150)) ≤ 2 * (2 ^ 126 + 1) := mul_le_mul hpow3 a (by
      have : (0:ℚ) ≤ T := le_trans (by positivity) h1
      positivity) (by norm_num)
    refine lt_of_le_of_lt b (by norm_num))
  rw [eT, eT2, abs_zero, zero_add] at z2
  have hT0 : 0 < T := lt_of_lt_of_le (by positivity) h1
  have z3 : |z - T| ≤ ((n + 1) / 2 ^ 23 + 1 / 2 ^ 28) * T := by
    refine le_trans z2 ?_
    have a : ((1 + f32.u) ^ (n + 1) - 1) * T ≤ ((n + 1) / 2 ^ 23) * T := by
      refine mul_le_mul_of_nonneg_right ?_ hT0.le
      rw [f32_u]
      norm_num at hpow ⊢
      linarith
    have b : (1 + f32.u) ^ n * (n * f32.eta) ≤ 1 / 2 ^ 28 * T := by
      rw [f32_eta]
      have c : (1 + f32.u) ^ n * (n * (1 / 2 ^ 150)) ≤ 2 * (1048576 * (1 / 2 ^ 150)) :=
        mul_le_mul hpow2 (mul_le_mul_of_nonneg_right hnq (by positivity)) (by positivity) (by norm_num)
      refine le_trans c ?_
      norm_num [zpow_neg] at h1 ⊢
      linarith
    linarith
  have hzpos : 0 < z := by
    have := (abs_le.1 z3).1
    have hc : ((n + 1) / 2 ^ 23 + 1 / 2 ^ 28 : ℚ) ≤ 1 / 2 := by norm_num; linarith
    have := mul_le_mul_of_nonneg_right hc hT0.le
    linarith
  obtain ⟨w, w1, w2⟩ := root_err z1 hzpos
  refine ⟨w, w1, ?_⟩
  have eR : ((T : ℚ) : ℝ) = ∑ i ∈ Finset.range n, (x i : ℝ) ^ 2 := by rw [hT]; exact (map_sum (Rat.castHom ℝ) _ _).trans (Finset.sum_congr rfl fun i _ => Rat.cast_pow _ _)
  rw [← eR]
  have hTR : (0:ℝ) < T := by exact_mod_cast hT0
  have z4 : |(z:ℝ) - T| ≤ ((n + 1) / 2 ^ 23 + 1 / 2 ^ 28) * T := by
    have := (Rat.cast_le (K := ℝ)).2 z3
    push_cast at this
    exact this
  have z5 := sqrt_near hTR z4
  have hnr : (n:ℝ) ≤ 1048576 := by exact_mod_cast hn
  have hS : 0 < Real.sqrt T := Real.sqrt_pos.2 hTR
  have hc : (((n:ℝ) + 1) / 2 ^ 23 + 1 / 2 ^ 28 : ℝ) ≤ 1 / 2 := by norm_num; linarith
  have z6 : Real.sqrt z ≤ 3 / 2 * Real.sqrt T := by
    have := (abs_le.1 z5).2
    have := mul_le_mul_of_nonneg_right hc hS.le
    linarith
  have e : (w:ℝ) - Real.sqrt T = (w - Real.sqrt z) + (Real.sqrt z - Real.sqrt T) := by ring
  rw [e]
  refine le_trans (abs_add_le _ _) ?_
  have a1 : Real.sqrt z / 2 ^ 23 = 1 / 2 ^ 23 * Real.sqrt z := by ring
  rw [a1] at w2
  have a2 : (1:ℝ) / 2 ^ 23 * Real.sqrt z ≤ 1 / 2 ^ 23 * ((1 + 1 / 4) * Real.sqrt T) := by
    refine mul_le_mul_of_nonneg_left ?_ (by positivity)
    have hc2 : (((n:ℝ) + 1) / 2 ^ 23 + 1 / 2 ^ 28 : ℝ) ≤ 1 / 4 := by norm_num; linarith
    have := (abs_le.1 z5).2
    have := mul_le_mul_of_nonneg_right hc2 hS.le
    linarith
  norm_num at w2 z5 a2 ⊢
  linarith

end HyperCV
