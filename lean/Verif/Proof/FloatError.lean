/- Rounding errors of sums and sums of products, for arbitrary values of the format. -/
import Verif.Proof.FloatOps
import Mathlib.Algebra.Order.BigOperators.Group.Finset

namespace HyperCV

/-- half the distance from 1 to the next number: `2^-24` for `float` -/
def Fmt.u (F : Fmt) : ℚ := 1 / 2 ^ (F.t + 1)

/-- half the smallest positive number: `2^-150` for `float` -/
def Fmt.eta (F : Fmt) : ℚ := 2 ^ F.emin / 2

theorem u_pos (F : Fmt) : 0 < F.u := by unfold Fmt.u; positivity

theorem eta_pos (F : Fmt) : 0 < F.eta := by unfold Fmt.eta; positivity

/-- relative error above the subnormal range -/
theorem rv_relF {F : Fmt} {q : ℚ} (h : (2:ℚ) ^ (F.emin + F.t) ≤ |q|) : |F.rv q - q| ≤ F.u * |q| := by
  have hq : 0 < |q| := lt_of_lt_of_le (by positivity) h
  have hl : F.emin + F.t ≤ Int.log 2 |q| := by
    rw [← Int.zpow_le_iff_le_log (by norm_num) hq]
    exact_mod_cast h
  have he : F.ulpExp q = Int.log 2 |q| - F.t := by unfold Fmt.ulpExp; exact max_eq_left (by omega)
  refine le_trans (rv_err F q) ?_
  rw [he, zpow_sub₀ (by norm_num), zpow_natCast]
  have h2 : (2:ℚ) ^ Int.log 2 |q| ≤ |q| := by exact_mod_cast Int.zpow_log_le_self (b := 2) (by norm_num) hq
  unfold Fmt.u
  rw [pow_succ, div_div, div_mul_eq_mul_div, one_mul]
  exact div_le_div_of_nonneg_right h2 (by positivity)

/-- multiples of the smallest number are rounded with a small relative error -/
theorem rv_grid {F : Fmt} {q : ℚ} (h : ∃ k : ℤ, q = k * 2 ^ F.emin) : |F.rv q - q| ≤ F.u * |q| := by
  by_cases hb : (2:ℚ) ^ (F.emin + F.t) ≤ |q|
  · exact rv_relF hb
  · obtain ⟨k, hk⟩ := h
    have hp : (0:ℚ) < 2 ^ F.emin := by positivity
    have h1 : |(k:ℚ)| < 2 ^ F.t := by
      rw [not_le, hk, abs_mul, abs_of_pos hp, zpow_add₀ (by norm_num), zpow_natCast, mul_comm] at hb
      exact lt_of_mul_lt_mul_left hb hp.le
    have h2 : |k| ≤ 2 ^ (F.t + 1) := by
      have : |k| < 2 ^ F.t := by exact_mod_cast h1
      have h3 : (2:ℤ) ^ F.t ≤ 2 ^ (F.t + 1) := pow_le_pow_right₀ (by norm_num) (by omega)
      omega
    have hg : F.GRep q := ⟨k, F.emin, hk, h2, le_refl _⟩
    have : F.rv q = q := rv_grep_self hg
    rw [this, sub_self, abs_zero]
    exact mul_nonneg (u_pos F).le (abs_nonneg _)

/-- the error of rounding any number -/
theorem rv_bound (F : Fmt) (q : ℚ) : |F.rv q - q| ≤ F.u * |q| + F.eta := by
  by_cases hb : (2:ℚ) ^ (F.emin + F.t) ≤ |q|
  · have := rv_relF hb
    have := eta_pos F
    linarith
  · by_cases hq : q = 0
    · subst hq
      rw [rv_zero]
      have := eta_pos F
      simp
      linarith
    · have he : F.ulpExp q = F.emin := by
        refine le_antisymm (ulpExp_le hq ?_ (le_refl _)) (le_max_right _ _)
        rw [not_le] at hb
        exact lt_of_lt_of_le hb (zpow_le_zpow_right₀ (by norm_num) (by omega))
      refine le_trans (rv_err F q) ?_
      rw [he]
      have := mul_nonneg (u_pos F).le (abs_nonneg q)
      unfold Fmt.eta
      linarith

theorem rep_grid {F : Fmt} {q : ℚ} (h : F.Rep q) : ∃ k : ℤ, q = k * 2 ^ F.emin := by
  obtain ⟨n, e, h1, -, h3, -⟩ := h
  refine ⟨n * 2 ^ (e - F.emin).toNat, ?_⟩
  rw [h1]
  push_cast
  rw [mul_assoc, ← zpow_natCast, ← zpow_add₀ (by norm_num), Int.toNat_of_nonneg (by omega)]
  congr 2
  omega

theorem grid_add {F : Fmt} {p q : ℚ} (hp : ∃ k : ℤ, p = k * 2 ^ F.emin) (hq : ∃ k : ℤ, q = k * 2 ^ F.emin) : ∃ k : ℤ, p + q = k * 2 ^ F.emin := by
  obtain ⟨a, rfl⟩ := hp
  obtain ⟨b, rfl⟩ := hq
  exact ⟨a + b, by push_cast; ring⟩

/-- a finite value of the format -/
def Fmt.Val (F : Fmt) (v : FV) (q : ℚ) : Prop := v.Is q ∧ F.Rep q

theorem val_zero (F : Fmt) : F.Val (.fin false 0) 0 := ⟨⟨false, rfl⟩, rep_zero F⟩

theorem good_val {F : Fmt} {v : FV} {q : ℚ} (hg : F.Good v) (h : v.Is q) : F.Val v q := by
  obtain ⟨s, rfl⟩ := h
  exact ⟨⟨s, rfl⟩, hg.1⟩

theorem rv_lt {F : Fmt} {q B : ℚ} (h : |F.rv q - q| ≤ F.u * |q|) (hB : (1 + F.u) * |q| < B) : |F.rv q| < B := by
  have h1 : |F.rv q| ≤ |F.rv q - q| + |q| := by
    have := abs_add_le (F.rv q - q) q
    rwa [sub_add_cancel] at this
  linarith

/-- addition of two values of the format -/
theorem val_add {F : Fmt} {a b : FV} {x y : ℚ} (ha : F.Val a x) (hb : F.Val b y) (h : (1 + F.u) * |x + y| < 2 ^ (2 ^ (F.w - 1))) :
    ∃ z, F.Val (F.add a b) z ∧ |z - (x + y)| ≤ F.u * |x + y| := by
  have e := rv_grid (F := F) (grid_add (rep_grid ha.2) (rep_grid hb.2))
  exact ⟨F.rv (x + y), good_val (good_add F a b) (rnd_add ha.1 hb.1 (rv_lt e h)), e⟩

theorem rep_neg' {F : Fmt} {x : ℚ} (h : F.Rep x) : F.Rep (-x) := by
  obtain ⟨n, e, h1, h2, h3, h4⟩ := h
  exact ⟨-n, e, by rw [h1]; push_cast; ring, by rwa [abs_neg], h3, by rwa [abs_neg]⟩

theorem val_neg {F : Fmt} {a : FV} {x : ℚ} (ha : F.Val a x) : F.Val a.neg (-x) := ⟨is_neg ha.1, rep_neg' ha.2⟩

/-- subtraction -/
theorem val_sub {F : Fmt} {a b : FV} {x y : ℚ} (ha : F.Val a x) (hb : F.Val b y) (h : (1 + F.u) * |x - y| < 2 ^ (2 ^ (F.w - 1))) :
    ∃ z, F.Val (F.sub a b) z ∧ |z - (x - y)| ≤ F.u * |x - y| := by
  rw [sub_eq_add_neg] at h ⊢
  exact val_add ha (val_neg hb) h

theorem rv_lt' {F : Fmt} {q B : ℚ} (hB : (1 + F.u) * |q| + F.eta < B) : |F.rv q| < B := by
  have h1 : |F.rv q| ≤ |F.rv q - q| + |q| := by
    have := abs_add_le (F.rv q - q) q
    rwa [sub_add_cancel] at this
  have := rv_bound F q
  linarith

/-- multiplication -/
theorem val_mul {F : Fmt} {a b : FV} {x y : ℚ} (ha : a.Is x) (hb : b.Is y) (h : (1 + F.u) * |x * y| + F.eta < 2 ^ (2 ^ (F.w - 1))) :
    ∃ z, F.Val (F.mul a b) z ∧ |z - x * y| ≤ F.u * |x * y| + F.eta :=
  ⟨F.rv (x * y), good_val (good_mul F a b) (rnd_mul ha hb (rv_lt' h)), rv_bound F _⟩

/-- division -/
theorem val_div {F : Fmt} {a b : FV} {x y : ℚ} (ha : a.Is x) (hb : b.Is y) (hy : y ≠ 0) (h : (1 + F.u) * |x / y| + F.eta < 2 ^ (2 ^ (F.w - 1))) :
    ∃ z, F.Val (F.div a b) z ∧ |z - x / y| ≤ F.u * |x / y| + F.eta := by
  refine ⟨F.rv (x / y), good_val (good_div F a b) ?_, rv_bound F _⟩
  obtain ⟨s, rfl⟩ := ha
  obtain ⟨s', rfl⟩ := hb
  show FV.Is (if y = 0 then _ else F.round _ (x / y)) _
  rw [if_neg hy]
  exact round_is (rv_lt' h)

/-- change of format -/
theorem val_conv {F : Fmt} {a : FV} {x : ℚ} (ha : a.Is x) (h : (1 + F.u) * |x| + F.eta < 2 ^ (2 ^ (F.w - 1))) :
    ∃ z, F.Val (F.conv a) z ∧ |z - x| ≤ F.u * |x| + F.eta := by
  refine ⟨F.rv x, good_val (good_conv F a) ?_, rv_bound F _⟩
  obtain ⟨s, rfl⟩ := ha
  exact round_is (rv_lt' h)

/-- conversion of an integer -/
theorem val_ofInt {F : Fmt} (n : ℤ) (h : (1 + F.u) * |(n:ℚ)| < 2 ^ (2 ^ (F.w - 1))) (he : F.emin ≤ 0) :
    ∃ z, F.Val (F.ofInt n) z ∧ |z - n| ≤ F.u * |(n:ℚ)| := by
  have e : |F.rv n - n| ≤ F.u * |(n:ℚ)| := by
    refine rv_grid ⟨n * 2 ^ (-F.emin).toNat, ?_⟩
    push_cast
    rw [mul_assoc, ← zpow_natCast, ← zpow_add₀ (by norm_num), Int.toNat_of_nonneg (by omega)]
    simp
  exact ⟨F.rv n, good_val (good_ofInt F n) (round_is (rv_lt e h)), e⟩

/-- **error of a sum** in the order of the terms, for any values of the format -/
theorem sum_err {F : Fmt} {v : Nat → FV} {x : Nat → ℚ} {w : FV} {a : ℚ} (n : Nat) (hv : ∀ i, i < n → F.Val (v i) (x i)) (hw : F.Val w a)
    (hb : (1 + F.u) ^ n * (|a| + ∑ i ∈ Finset.range n, |x i|) < 2 ^ (2 ^ (F.w - 1))) :
    ∃ z, F.Val ((List.range n).foldl (fun s i => F.add s (v i)) w) z ∧
      |z - (a + ∑ i ∈ Finset.range n, x i)| ≤ ((1 + F.u) ^ n - 1) * (|a| + ∑ i ∈ Finset.range n, |x i|) := by
  induction n with
  | zero => exact ⟨a, hw, by simp⟩
  | succ n ih =>
    have hu := u_pos F
    set A := |a| + ∑ i ∈ Finset.range n, |x i| with hA
    have hA0 : 0 ≤ A := by positivity
    have hA1 : |a| + ∑ i ∈ Finset.range (n+1), |x i| = A + |x n| := by rw [Finset.sum_range_succ, hA]; ring
    rw [hA1] at hb ⊢
    have hp1 : (1:ℚ) ≤ (1 + F.u) ^ n := one_le_pow₀ (by linarith)
    have hp2 : (1 + F.u) ^ (n + 1) = (1 + F.u) ^ n * (1 + F.u) := pow_succ _ _
    have hx0 := abs_nonneg (x n)
    have hle : (1 + F.u) ^ n * A ≤ (1 + F.u) ^ (n+1) * (A + |x n|) := by
      refine mul_le_mul ?_ (by linarith) hA0 (by positivity)
      rw [hp2]; exact le_mul_of_one_le_right (by positivity) (by linarith)
    obtain ⟨z, h1, h2⟩ := ih (fun i hi => hv i (by omega)) (lt_of_le_of_lt hle hb)
    have hS : |a + ∑ i ∈ Finset.range n, x i| ≤ A := by
      refine le_trans (abs_add_le _ _) ?_
      have := Finset.abs_sum_le_sum_abs x (Finset.range n)
      rw [hA]; linarith
    have hzx : |z + x n| ≤ (1 + F.u) ^ n * (A + |x n|) := by
      have e1 : z + x n = (z - (a + ∑ i ∈ Finset.range n, x i)) + ((a + ∑ i ∈ Finset.range n, x i) + x n) := by ring
      rw [e1]
      refine le_trans (abs_add_le _ _) ?_
      have e2 := abs_add_le (a + ∑ i ∈ Finset.range n, x i) (x n)
      nlinarith
    obtain ⟨z', h3, h4⟩ := val_add h1 (hv n (by omega)) (by
      refine lt_of_le_of_lt ?_ hb
      rw [hp2, mul_comm ((1 + F.u) ^ n), mul_assoc]
      exact mul_le_mul_of_nonneg_left hzx (by linarith))
    refine ⟨z', ?_, ?_⟩
    · rw [List.range_succ, List.foldl_append]; exact h3
    · rw [Finset.sum_range_succ]
      have e1 : z' - (a + (∑ i ∈ Finset.range n, x i + x n)) = (z' - (z + x n)) + (z - (a + ∑ i ∈ Finset.range n, x i)) := by ring
      rw [e1]
      refine le_trans (abs_add_le _ _) ?_
      have h5 : F.u * |z + x n| ≤ F.u * ((1 + F.u) ^ n * (A + |x n|)) := mul_le_mul_of_nonneg_left hzx hu.le
      have h6 : ((1 + F.u) ^ n - 1) * A ≤ ((1 + F.u) ^ n - 1) * (A + |x n|) := mul_le_mul_of_nonneg_left (by linarith) (by linarith)
      rw [hp2]
      nlinarith

/-- the factor `(1+u)^k` in a readable form -/
theorem pow_u_le (F : Fmt) (k : Nat) (hk : (k:ℚ) * F.u ≤ 1 / 2) : (1 + F.u) ^ k ≤ 1 + 2 * k * F.u := by
  have hu := u_pos F
  induction k with
  | zero => simp
  | succ k ih =>
    push_cast at hk ⊢
    have h1 := ih (by nlinarith)
    rw [pow_succ]
    have h2 : (1 + F.u) ^ k * (1 + F.u) ≤ (1 + 2 * k * F.u) * (1 + F.u) := mul_le_mul_of_nonneg_right h1 (by linarith)
    have h3 : (k:ℚ) * F.u ≤ 1/2 := by nlinarith
    nlinarith

/-- **error of a sum of products**, for any values of the format, underflow included -/
theorem dot_err {F : Fmt} {v w : Nat → FV} {x y : Nat → ℚ} {c : FV} {a : ℚ} (n : Nat) (hv : ∀ i, i < n → (v i).Is (x i)) (hw : ∀ i, i < n → (w i).Is (y i))
    (hc : F.Val c a)
    (hb : (1 + F.u) ^ (n + 1) * (|a| + ∑ i ∈ Finset.range n, |x i * y i| + n * F.eta) < 2 ^ (2 ^ (F.w - 1))) :
    ∃ z, F.Val ((List.range n).foldl (fun s i => F.add s (F.mul (v i) (w i))) c) z ∧
      |z - (a + ∑ i ∈ Finset.range n, x i * y i)| ≤ ((1 + F.u) ^ (n + 1) - 1) * (|a| + ∑ i ∈ Finset.range n, |x i * y i|) + (1 + F.u) ^ n * (n * F.eta) := by
  have hu := u_pos F
  have he := eta_pos F
  set P := ∑ i ∈ Finset.range n, |x i * y i| with hP
  have hP0 : 0 ≤ P := Finset.sum_nonneg fun _ _ => abs_nonneg _
  have hpn : (1:ℚ) ≤ (1 + F.u) ^ n := one_le_pow₀ (by linarith)
  have hp2 : (1 + F.u) ^ (n + 1) = (1 + F.u) ^ n * (1 + F.u) := pow_succ _ _
  have ha0 := abs_nonneg a
  have hn0 : (0:ℚ) ≤ n * F.eta := by positivity
  have hz : ∀ i, i < n → ∃ z, F.Val (F.mul (v i) (w i)) z ∧ |z - x i * y i| ≤ F.u * |x i * y i| + F.eta := by
    intro i hi
    refine val_mul (hv i hi) (hw i hi) (lt_of_le_of_lt ?_ hb)
    have h1 : |x i * y i| ≤ P := Finset.single_le_sum (f := fun i => |x i * y i|) (fun _ _ => abs_nonneg _) (Finset.mem_range.2 hi)
    have h2 : F.eta ≤ n * F.eta := le_mul_of_one_le_left he.le (by exact_mod_cast (by omega : 1 ≤ n))
    rw [hp2]
    have h3 : (1 + F.u) * |x i * y i| + F.eta ≤ (1 + F.u) * (|a| + P + n * F.eta) := by nlinarith
    refine le_trans h3 ?_
    rw [mul_assoc]
    exact le_mul_of_one_le_left (by positivity) hpn
  classical
  choose! z h1 h2 using hz
  have hzs : ∑ i ∈ Finset.range n, |z i - x i * y i| ≤ F.u * P + n * F.eta := by
    refine le_trans (Finset.sum_le_sum fun i hi => h2 i (Finset.mem_range.1 hi)) ?_
    rw [Finset.sum_add_distrib, ← Finset.mul_sum, Finset.sum_const, Finset.card_range, nsmul_eq_mul]
  have hza : ∑ i ∈ Finset.range n, |z i| ≤ (1 + F.u) * P + n * F.eta := by
    have : ∑ i ∈ Finset.range n, |z i| ≤ ∑ i ∈ Finset.range n, |z i - x i * y i| + P := by
      rw [hP, ← Finset.sum_add_distrib]
      refine Finset.sum_le_sum fun i _ => ?_
      have := abs_add_le (z i - x i * y i) (x i * y i)
      rwa [sub_add_cancel] at this
    linarith
  obtain ⟨r, h3, h4⟩ := sum_err n h1 hc (by
    refine lt_of_le_of_lt ?_ hb
    rw [hp2, mul_assoc]
    refine mul_le_mul_of_nonneg_left ?_ (by linarith)
    nlinarith)
  refine ⟨r, h3, ?_⟩
  have e1 : r - (a + ∑ i ∈ Finset.range n, x i * y i) = (r - (a + ∑ i ∈ Finset.range n, z i)) + ∑ i ∈ Finset.range n, (z i - x i * y i) := by
    rw [Finset.sum_sub_distrib]; ring
  rw [e1]
  refine le_trans (abs_add_le _ _) ?_
  have h5 := Finset.abs_sum_le_sum_abs (fun i => z i - x i * y i) (Finset.range n)
  have h6 : ((1 + F.u) ^ n - 1) * (|a| + ∑ i ∈ Finset.range n, |z i|) ≤ ((1 + F.u) ^ n - 1) * (|a| + ((1 + F.u) * P + n * F.eta)) :=
    mul_le_mul_of_nonneg_left (by linarith) (by linarith)
  rw [hp2]
  have h7 : 0 ≤ F.u * |a| * (1 + F.u) ^ n := by positivity
  nlinarith

end HyperCV
