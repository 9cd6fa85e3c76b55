/- Rounding errors of the Fourier transforms. -/
import Verif.Proof.Dft
import Verif.Proof.AtofError
import Verif.Proof.FloatSum
import Verif.Proof.FloatRoot
import Verif.Props.AccuracyStat
import Verif.Proof.Rotate
import Verif.Spec.Dft

namespace HyperCV
open Spec Finset

/-- the accumulation of a `double` in a `float` -/
theorem addD_err {v t : FV} {s x : ℚ} (hv : f32.Val v s) (ht : f64.Val t x) (hb : |s + x| ≤ 2 ^ 100) :
    ∃ z, f32.Val (addD v t) z ∧ |z - (s + x)| ≤ (1 / 2 ^ 24 + 1 / 2 ^ 50) * |s + x| + 1 / 2 ^ 150 := by
  unfold addD
  have c1 : f64.Val (f64.conv v) s := ⟨is_conv' hv.1 (f32_to_f64 hv.2), f32_to_f64 hv.2⟩
  obtain ⟨t', t1, t2⟩ := val_add c1 ht (by
    rw [f64_u, f64_max]
    refine lt_of_le_of_lt (b := 2 ^ 127) ?_ (pow_lt_pow_right₀ (by norm_num) (by decide))
    norm_num at hb ⊢
    linarith)
  rw [f64_u] at t2
  have t3 : |t'| ≤ (1 + 1 / 2 ^ 53) * |s + x| := by
    have := abs_add_le (t' - (s + x)) (s + x)
    rw [sub_add_cancel] at this
    linarith
  obtain ⟨z, z1, z2⟩ := val_conv (F := f32) t1.1 (by
    rw [f32_u, f32_eta, f32_max]
    norm_num at hb t3 ⊢
    linarith)
  refine ⟨z, z1, ?_⟩
  have e : z - (s + x) = (z - t') + (t' - (s + x)) := by ring
  rw [e]
  refine le_trans (abs_add_le _ _) ?_
  have hq : 0 ≤ |s + x| := abs_nonneg _
  rw [f32_u, f32_eta] at z2
  generalize |s + x| = T at *
  norm_num at *
  linarith

/-- a sum of `double`s accumulated in `float` -/
theorem accD_err {t : Nat → FV} {x : Nat → ℚ} {n : Nat} (hn : n ≤ 4194304) (ht : ∀ q, q < n → f64.Val (t q) (x q))
    (hb : ∑ q ∈ range n, |x q| ≤ 2 ^ 90) :
    ∃ z, f32.Val (accD t n) z ∧ |z - ∑ q ∈ range n, x q| ≤ n / 2 ^ 23 * (1 + 1 / 2 ^ 20) * ∑ q ∈ range n, |x q| + 1 / 2 ^ 120 := by
  have hnq : (n:ℚ) ≤ 4194304 := by exact_mod_cast hn
  have h0 : (0:ℚ) ≤ n := Nat.cast_nonneg _
  have he : (n:ℚ) * (1 / 2 ^ 24 + 1 / 2 ^ 50) ≤ 1 / 2 := by norm_num; linarith
  have inv : ∀ k, k ≤ n → SumInv f32 (1 / 2 ^ 24 + 1 / 2 ^ 50) (1 / 2 ^ 150) x k (accD t k) := by
    intro k
    induction k with
    | zero => intro _; exact sumInv_zero
    | succ k ih =>
      intro hk
      refine sumInv_succ (by norm_num) (by norm_num) (ih (by omega)) ?_
      intro s hs hs2
      refine addD_err hs (ht k (by omega)) ?_
      refine le_trans (step_bound (n := n) (by norm_num) (by norm_num) he (by omega) hs2) ?_
      generalize ∑ i ∈ range n, |x i| = A at *
      norm_num at hb ⊢
      linarith
  obtain ⟨z, z1, z2⟩ := (inv n le_rfl).bound (by norm_num) (by norm_num) he
  refine ⟨z, z1, le_trans z2 ?_⟩
  have hA : 0 ≤ ∑ q ∈ range n, |x q| := sum_nonneg fun _ _ => abs_nonneg _
  generalize ∑ i ∈ range n, |x i| = A at *
  have : (0:ℚ) ≤ n * A := mul_nonneg h0 hA
  norm_num
  nlinarith

/-- one of the two quotients of the phase -/
theorem quot_err {R i x : Nat} (hR : R ≤ 4096) (hi : i < R) (hx : x < R) :
    ∃ z, f32.Val (f32.div (f32.mul (f32.ofInt i) (f32.ofInt x)) (f32.ofInt R)) z ∧ |z - (i:ℚ) * x / R| ≤ R / 2 ^ 24 + 1 / 2 ^ 150 ∧
      0 ≤ (i:ℚ) * x / R ∧ (i:ℚ) * x / R ≤ R := by
  have h1 : i * x ≤ 16777216 := by nlinarith
  have hR0 : (0:ℚ) < R := by exact_mod_cast (by omega : 0 < R)
  have vi : (f32.ofInt i).Is (i:ℚ) := is_nat32 (by omega)
  have vx : (f32.ofInt x).Is (x:ℚ) := is_nat32 (by omega)
  have vR : (f32.ofInt R).Is (R:ℚ) := is_nat32 (by omega)
  have rep : f32.Rep ((i:ℚ) * x) := by
    have := rep32_int (n := ((i * x : Nat) : ℤ)) (by rw [abs_of_nonneg (by positivity)]; exact_mod_cast h1)
    push_cast at this
    exact this
  have vm := is_mul vi vx rep
  have hq : (i:ℚ) * x / R ≤ R := by
    rw [div_le_iff₀ hR0]
    have : i * x ≤ R * R := Nat.mul_le_mul (by omega) (by omega)
    exact_mod_cast this
  have hq0 : 0 ≤ (i:ℚ) * x / R := by positivity
  have hRq : (R:ℚ) ≤ 4096 := by exact_mod_cast hR
  obtain ⟨z, z1, z2⟩ := val_div (F := f32) vm vR hR0.ne' (by
    rw [f32_u, f32_eta, f32_max, abs_of_nonneg hq0]
    norm_num
    linarith)
  refine ⟨z, z1, le_trans z2 ?_, hq0, hq⟩
  rw [f32_u, f32_eta, abs_of_nonneg hq0]
  linarith

/-- the number of turns -/
theorem temp_err {R C i j x y : Nat} (hR : R ≤ 4096) (hC : C ≤ 4096) (hi : i < R) (hx : x < R) (hj : j < C) (hy : y < C) :
    ∃ z, f32.Val (dftTemp R C i j x y) z ∧ |z - ((i:ℚ) * x / R + (j:ℚ) * y / C)| ≤ (R + C) * (1 / 2 ^ 23 + 1 / 2 ^ 40) ∧ |z| ≤ 8200 := by
  obtain ⟨a, a1, a2, a3, a4⟩ := quot_err hR hi hx
  obtain ⟨b, b1, b2, b3, b4⟩ := quot_err hC hj hy
  have hRq : (R:ℚ) ≤ 4096 := by exact_mod_cast hR
  have hCq : (C:ℚ) ≤ 4096 := by exact_mod_cast hC
  have hR1 : (1:ℚ) ≤ R := by exact_mod_cast (by omega : 1 ≤ R)
  have hC1 : (1:ℚ) ≤ C := by exact_mod_cast (by omega : 1 ≤ C)
  have s1 : |(a + b) - ((i:ℚ) * x / R + (j:ℚ) * y / C)| ≤ (R + C) / 2 ^ 24 + 1 / 2 ^ 149 := by
    have e : (a + b) - ((i:ℚ) * x / R + (j:ℚ) * y / C) = (a - (i:ℚ) * x / R) + (b - (j:ℚ) * y / C) := by ring
    rw [e]
    refine le_trans (abs_add_le _ _) ?_
    norm_num at a2 b2 ⊢
    linarith
  have s2 : |a + b| ≤ (R + C) * (1 + 1 / 2 ^ 23) := by
    generalize (i:ℚ) * x / R = A at *
    generalize (j:ℚ) * y / C = B at *
    have h := abs_le.1 s1
    rw [abs_le]
    norm_num at h ⊢
    constructor <;> linarith
  obtain ⟨z, z1, z2⟩ := val_add (F := f32) a1 b1 (by
    rw [f32_u, f32_max]
    norm_num at s2 ⊢
    linarith)
  rw [f32_u] at z2
  have z3 : |z - ((i:ℚ) * x / R + (j:ℚ) * y / C)| ≤ (R + C) * (1 / 2 ^ 23 + 1 / 2 ^ 40) := by
    have e : z - ((i:ℚ) * x / R + (j:ℚ) * y / C) = (z - (a + b)) + ((a + b) - ((i:ℚ) * x / R + (j:ℚ) * y / C)) := by ring
    rw [e]
    refine le_trans (abs_add_le _ _) ?_
    norm_num at z2 s1 s2 ⊢
    linarith
  refine ⟨z, z1, z3, ?_⟩
  generalize (i:ℚ) * x / R = A at *
  generalize (j:ℚ) * y / C = B at *
  have h := abs_le.1 z3
  rw [abs_le]
  norm_num at h ⊢
  constructor <;> linarith

/-- `PI` -/
theorem piD_val : ∃ p, f64.Val piD p ∧ |p - 31415926 / 10000000| ≤ 1 / 2 ^ 50 := by
  unfold piD
  have h := rv_bound f64 (31415926 / 10000000)
  have he := f64_eta_small
  rw [f64_u, abs_of_pos (show (0:ℚ) < 31415926 / 10000000 by norm_num)] at h
  have h' : |f64.rv (31415926 / 10000000) - 31415926 / 10000000| ≤ 1 / 2 ^ 50 := by
    norm_num at h he ⊢
    linarith
  refine ⟨f64.rv (31415926 / 10000000), good_val (good_round _ _ _) (round_is ?_), h'⟩
  have h2 := abs_le.1 h'
  rw [f64_max]
  refine lt_of_le_of_lt (b := 2 ^ 4) ?_ (pow_lt_pow_right₀ (by norm_num) (by decide))
  rw [abs_le]
  norm_num at h2 ⊢
  constructor <;> linarith

/-- the argument of `cos` and `sin` -/
theorem angle_err {R C i j x y : Nat} {s : Int} (hs : s = 2 ∨ s = -2) (hR : R ≤ 4096) (hC : C ≤ 4096) (hi : i < R) (hx : x < R) (hj : j < C) (hy : y < C) :
    ∃ A : ℚ, f64.Val (dftAngle s (dftTemp R C i j x y)) A ∧ |A| ≤ 2 ^ 20 ∧
      |(A:ℝ) - s * Real.pi * ((i:ℝ) * x / R + (j:ℝ) * y / C)| ≤ (R + C) * (9 / 10 ^ 7) := by
  obtain ⟨T, t1, t2, t3⟩ := temp_err hR hC hi hx hj hy
  obtain ⟨p, p1, p2⟩ := piD_val
  have heta := f64_eta_small
  have hR1 : (1:ℚ) ≤ R := by exact_mod_cast (by omega : 1 ≤ R)
  have hC1 : (1:ℚ) ≤ C := by exact_mod_cast (by omega : 1 ≤ C)
  have hRq : (R:ℚ) ≤ 4096 := by exact_mod_cast hR
  have hCq : (C:ℚ) ≤ 4096 := by exact_mod_cast hC
  have vs : (f64.ofInt s).Is (s:ℚ) := is_ofInt (rep64_int (by rcases hs with rfl | rfl <;> decide))
  have sa : |(s:ℚ)| = 2 := by rcases hs with rfl | rfl <;> norm_num
  have c1 : (f64.conv (dftTemp R C i j x y)).Is T := is_conv' t1.1 (f32_to_f64 t1.2)
  have pb : |p| ≤ 4 := by
    have := abs_le.1 p2
    rw [abs_le]
    norm_num at this ⊢
    constructor <;> linarith
  have sp : |(s:ℚ) * p| ≤ 8 := by rw [abs_mul, sa]; linarith
  have big : ∀ q : ℚ, |q| ≤ 2 ^ 20 → (1 + f64.u) * |q| + f64.eta < 2 ^ (2 ^ (f64.w - 1)) := by
    intro q hq
    rw [f64_u, f64_max]
    refine lt_of_le_of_lt (b := 2 ^ 22) ?_ (pow_lt_pow_right₀ (by norm_num) (by decide))
    norm_num at hq heta ⊢
    linarith
  obtain ⟨p', q1, q2⟩ := val_mul (F := f64) vs p1.1 (big _ (le_trans sp (by norm_num)))
  rw [f64_u] at q2
  have q3 : |p' - s * (31415926 / 10000000)| ≤ 1 / 2 ^ 46 := by
    have e : p' - s * (31415926 / 10000000) = (p' - s * p) + s * (p - 31415926 / 10000000) := by ring
    rw [e]
    refine le_trans (abs_add_le _ _) ?_
    rw [abs_mul (s:ℚ), sa]
    generalize |(s:ℚ) * p| = X at *
    norm_num at q2 heta p2 sp ⊢
    linarith
  have q4 : |p'| ≤ 62832 / 10000 := by
    have e : p' = (p' - s * (31415926 / 10000000)) + s * (31415926 / 10000000) := by ring
    have h1 : |(s:ℚ) * (31415926 / 10000000)| = 62831852 / 10000000 := by rw [abs_mul, sa]; norm_num
    have h2 := abs_add_le (p' - s * (31415926 / 10000000)) (s * (31415926 / 10000000))
    rw [← e, h1] at h2
    norm_num at q3 h2 ⊢
    linarith
  have pT : |p' * T| ≤ 60000 := by
    rw [abs_mul]
    have := mul_le_mul q4 t3 (abs_nonneg _) (by norm_num)
    norm_num at this ⊢
    linarith
  obtain ⟨A, a1, a2⟩ := val_mul (F := f64) q1.1 c1 (big _ (le_trans pT (by norm_num)))
  rw [f64_u] at a2
  have a3 : |A - p' * T| ≤ 1 / 2 ^ 36 := by
    generalize |p' * T| = X at *
    norm_num at a2 heta pT ⊢
    linarith
  refine ⟨A, a1, ?_, ?_⟩
  · have h2 := abs_add_le (A - p' * T) (p' * T)
    rw [sub_add_cancel] at h2
    norm_num at a3 pT h2 ⊢
    linarith
  · obtain ⟨-, -, -, b3, b4⟩ := quot_err hR hi hx
    obtain ⟨-, -, -, d3, d4⟩ := quot_err hC hj hy
    have ecast : (((i:ℚ) * x / R + (j:ℚ) * y / C : ℚ) : ℝ) = (i:ℝ) * x / R + (j:ℝ) * y / C := by push_cast; ring
    rw [← ecast]
    generalize ht : (i:ℚ) * x / R + (j:ℚ) * y / C = t at *
    have tb : |t| ≤ R + C := by rw [abs_of_nonneg (by linarith)]; linarith
    have e : (A:ℝ) - s * Real.pi * t = ((A - p' * T : ℚ) : ℝ) + ((p' * (T - t) : ℚ) : ℝ) + ((((p' - s * (31415926 / 10000000)) * t : ℚ)) : ℝ)
        - s * ((Real.pi - 31415926 / 10000000) * t) := by push_cast; ring
    rw [e]
    have n1 : |((A - p' * T : ℚ) : ℝ)| ≤ 1 / 2 ^ 36 := by
      rw [← Rat.cast_abs]
      have h : ((|A - p' * T| : ℚ) : ℝ) ≤ ((1 / 2 ^ 36 : ℚ) : ℝ) := by exact_mod_cast a3
      push_cast at h ⊢
      exact h
    have n2 : |((p' * (T - t) : ℚ) : ℝ)| ≤ 62832 / 10000 * ((R + C) * (1 / 2 ^ 23 + 1 / 2 ^ 40)) := by
      rw [← Rat.cast_abs, abs_mul]
      have := mul_le_mul q4 t2 (abs_nonneg _) (by norm_num)
      have h : ((|p'| * |T - t| : ℚ) : ℝ) ≤ ((62832 / 10000 * ((R + C) * (1 / 2 ^ 23 + 1 / 2 ^ 40)) : ℚ) : ℝ) := by exact_mod_cast this
      push_cast at h ⊢
      exact h
    have n3 : |((((p' - s * (31415926 / 10000000)) * t : ℚ)) : ℝ)| ≤ 1 / 2 ^ 46 * (R + C) := by
      rw [← Rat.cast_abs, abs_mul]
      have := mul_le_mul q3 tb (abs_nonneg _) (by norm_num)
      have h : ((|p' - s * (31415926 / 10000000)| * |t| : ℚ) : ℝ) ≤ ((1 / 2 ^ 46 * (R + C) : ℚ) : ℝ) := by exact_mod_cast this
      push_cast at h ⊢
      exact h
    have tbR : |(t:ℝ)| ≤ R + C := by
      rw [← Rat.cast_abs]
      have h : ((|t| : ℚ) : ℝ) ≤ ((R + C : ℚ) : ℝ) := by exact_mod_cast tb
      push_cast at h ⊢
      exact h
    have hpi : |Real.pi - 31415926 / 10000000| ≤ 536 / 10 ^ 10 := by
      have h1 := Real.pi_gt_d20
      have h2 := Real.pi_lt_d20
      rw [abs_le]
      norm_num at h1 h2 ⊢
      constructor <;> linarith
    have n4 : |(s:ℝ) * ((Real.pi - 31415926 / 10000000) * t)| ≤ 2 * (536 / 10 ^ 10 * (R + C)) := by
      have sr : |(s:ℝ)| = 2 := by rcases hs with rfl | rfl <;> norm_num
      rw [abs_mul, abs_mul, sr]
      have := mul_le_mul hpi tbR (abs_nonneg _) (by norm_num)
      linarith
    have hR1' : (1:ℝ) ≤ R := by exact_mod_cast hR1
    have hC1' : (1:ℝ) ≤ C := by exact_mod_cast hC1
    have f1 := abs_add_le (((A - p' * T : ℚ) : ℝ)) (((p' * (T - t) : ℚ) : ℝ))
    have f2 := abs_add_le (((A - p' * T : ℚ) : ℝ) + ((p' * (T - t) : ℚ) : ℝ)) ((((p' - s * (31415926 / 10000000)) * t : ℚ)) : ℝ)
    have f3 := abs_sub (((A - p' * T : ℚ) : ℝ) + ((p' * (T - t) : ℚ) : ℝ) + ((((p' - s * (31415926 / 10000000)) * t : ℚ)) : ℝ)) (s * ((Real.pi - 31415926 / 10000000) * t))
    generalize ((A - p' * T : ℚ) : ℝ) = X1 at *
    generalize ((p' * (T - t) : ℚ) : ℝ) = X2 at *
    generalize ((((p' - s * (31415926 / 10000000)) * t : ℚ)) : ℝ) = X3 at *
    generalize (s:ℝ) * ((Real.pi - 31415926 / 10000000) * t) = X4 at *
    norm_num at n1 n2 n3 n4 ⊢
    linarith

/-- an implementation `f` of a function `g` like `cos` and `sin` -/
structure GoodFn (f : FV → FV) (g : ℝ → ℝ) : Prop where
  err : ∀ v q, f64.Val v q → |q| ≤ 2 ^ 20 → ∃ r : ℚ, f64.Val (f v) r ∧ |(r:ℝ) - g q| ≤ 1 / 2 ^ 50
  one : ∀ x, |g x| ≤ 1
  lip : ∀ x y, |g x - g y| ≤ |x - y|

theorem GoodTrig.fcos {L : Trig} (h : GoodTrig L) : GoodFn L.cos Real.cos := ⟨h.cos, Real.abs_cos_le_one, Real.abs_cos_sub_cos_le⟩
theorem GoodTrig.fsin {L : Trig} (h : GoodTrig L) : GoodFn L.sin Real.sin := ⟨h.sin, Real.abs_sin_le_one, Real.abs_sin_sub_sin_le⟩

/-- a value of the library -/
theorem GoodFn.at {f : FV → FV} {g : ℝ → ℝ} (h : GoodFn f g) {R C i j x y : Nat} {s : Int} (hs : s = 2 ∨ s = -2) (hR : R ≤ 4096) (hC : C ≤ 4096)
    (hi : i < R) (hx : x < R) (hj : j < C) (hy : y < C) :
    ∃ r : ℚ, f64.Val (f (dftAngle s (dftTemp R C i j x y))) r ∧ |r| ≤ 1 + 1 / 2 ^ 50 ∧
      |(r:ℝ) - g (s * Real.pi * ((i:ℝ) * x / R + (j:ℝ) * y / C))| ≤ (R + C) * (9 / 10 ^ 7) + 1 / 2 ^ 50 := by
  obtain ⟨A, a1, a2, a3⟩ := angle_err hs hR hC hi hx hj hy
  obtain ⟨r, r1, r2⟩ := h.err _ _ a1 a2
  refine ⟨r, r1, ?_, ?_⟩
  · have h1 := abs_add_le ((r:ℝ) - g A) (g A)
    rw [sub_add_cancel] at h1
    have h2 := h.one A
    have h3 : |(r:ℝ)| ≤ 1 + 1 / 2 ^ 50 := by linarith
    rw [← Rat.cast_abs] at h3
    have h4 : ((|r| : ℚ) : ℝ) ≤ ((1 + 1 / 2 ^ 50 : ℚ) : ℝ) := by push_cast; exact_mod_cast h3
    exact_mod_cast h4
  · have h1 := h.lip A (s * Real.pi * ((i:ℝ) * x / R + (j:ℝ) * y / C))
    have h2 := abs_add_le ((r:ℝ) - g A) (g A - g (s * Real.pi * ((i:ℝ) * x / R + (j:ℝ) * y / C)))
    rw [sub_add_sub_cancel] at h2
    linarith

/-- sizes of finite numbers that are far from the limits of `double` -/
theorem f64_room {q : ℚ} (hq : |q| ≤ 2 ^ 80) : (1 + f64.u) * |q| + f64.eta < 2 ^ (2 ^ (f64.w - 1)) := by
  have heta := f64_eta_small
  rw [f64_u, f64_max]
  refine lt_of_le_of_lt (b := 2 ^ 82) ?_ (pow_lt_pow_right₀ (by norm_num) (by decide))
  norm_num at hq heta ⊢
  linarith

/-- a value times a value of the library -/
theorem prod_err {f : FV → FV} {g : ℝ → ℝ} (h : GoodFn f g) {R C i j x y : Nat} {s : Int} (hs : s = 2 ∨ s = -2) (hR : R ≤ 4096) (hC : C ≤ 4096)
    (hi : i < R) (hx : x < R) (hj : j < C) (hy : y < C) {v : FV} {b : ℚ} (hv : v.Is b) (hb : |b| ≤ 2 ^ 60) :
    ∃ z : ℚ, f64.Val (f64.mul v (f (dftAngle s (dftTemp R C i j x y)))) z ∧ |z| ≤ |b| * (1 + 1 / 2 ^ 48) + 1 / 2 ^ 200 ∧
      |(z:ℝ) - b * g (s * Real.pi * ((i:ℝ) * x / R + (j:ℝ) * y / C))| ≤ |(b:ℝ)| * ((R + C) * (9 / 10 ^ 7) + 1 / 2 ^ 49) + 1 / 2 ^ 200 := by
  obtain ⟨r, r1, r2, r3⟩ := h.at hs hR hC hi hx hj hy
  have heta := f64_eta_small
  have hbr : |b * r| ≤ |b| * (1 + 1 / 2 ^ 50) := by
    rw [abs_mul]
    exact mul_le_mul_of_nonneg_left r2 (abs_nonneg _)
  have hb0 := abs_nonneg b
  obtain ⟨z, z1, z2⟩ := val_mul (F := f64) hv r1.1 (f64_room (by
    generalize |b * r| = X at *
    norm_num at hbr hb ⊢
    linarith))
  rw [f64_u] at z2
  have z3 : |z - b * r| ≤ |b| / 2 ^ 52 + 1 / 2 ^ 200 := by
    generalize |b * r| = X at *
    norm_num at z2 hbr heta ⊢
    linarith
  refine ⟨z, z1, ?_, ?_⟩
  · have h2 := abs_add_le (z - b * r) (b * r)
    rw [sub_add_cancel] at h2
    norm_num at z3 hbr h2 ⊢
    linarith
  · generalize g (s * Real.pi * ((i:ℝ) * x / R + (j:ℝ) * y / C)) = G at *
    have e : (z:ℝ) - b * G = ((z - b * r : ℚ) : ℝ) + b * (r - G) := by push_cast; ring
    rw [e]
    refine le_trans (abs_add_le _ _) ?_
    have n1 : |((z - b * r : ℚ) : ℝ)| ≤ |(b:ℝ)| / 2 ^ 52 + 1 / 2 ^ 200 := by
      rw [← Rat.cast_abs]
      have h : ((|z - b * r| : ℚ) : ℝ) ≤ ((|b| / 2 ^ 52 + 1 / 2 ^ 200 : ℚ) : ℝ) := by exact_mod_cast z3
      push_cast at h ⊢
      exact h
    rw [abs_mul]
    have n2 := mul_le_mul_of_nonneg_left r3 (abs_nonneg (b:ℝ))
    have n3 := abs_nonneg (b:ℝ)
    generalize |(b:ℝ)| = B at *
    have e2 : B * (((R:ℝ) + C) * (9 / 10 ^ 7) + 1 / 2 ^ 49) + 1 / 2 ^ 200 = B * (((R:ℝ) + C) * (9 / 10 ^ 7) + 1 / 2 ^ 50) + B / 2 ^ 50 + 1 / 2 ^ 200 := by ring
    rw [e2]
    have e3 : B / 2 ^ 52 ≤ B / 2 ^ 50 := by
      apply div_le_div_of_nonneg_left n3 <;> norm_num
    linarith

/-- a sum of terms that are near real numbers, accumulated in `float`; `b` bounds the terms, `k` is the relative error -/
theorem accD_real {t : Nat → FV} {n : Nat} (hn : n ≤ 4194304) {b : Nat → ℚ} {T : Nat → ℝ} {k : ℝ} (hb0 : ∀ q, q < n → 0 ≤ b q)
    (hB : ∑ q ∈ range n, b q ≤ 2 ^ 80)
    (ht : ∀ q, q < n → ∃ z : ℚ, f64.Val (t q) z ∧ |z| ≤ b q * (1 + 1 / 2 ^ 40) + 1 / 2 ^ 190 ∧ |(z:ℝ) - T q| ≤ b q * k + 1 / 2 ^ 190) :
    ∃ z : ℚ, f32.Val (accD t n) z ∧ |(z:ℝ) - ∑ q ∈ range n, T q| ≤ (k + n / 2 ^ 22) * (∑ q ∈ range n, b q : ℚ) + 1 / 2 ^ 100 := by
  have ex : ∀ q, ∃ z : ℚ, q < n → f64.Val (t q) z ∧ |z| ≤ b q * (1 + 1 / 2 ^ 40) + 1 / 2 ^ 190 ∧ |(z:ℝ) - T q| ≤ b q * k + 1 / 2 ^ 190 := by
    intro q
    by_cases hq : q < n
    · obtain ⟨z, hz⟩ := ht q hq
      exact ⟨z, fun _ => hz⟩
    · exact ⟨0, fun h => absurd h hq⟩
  choose x hx using ex
  have hnq : (n:ℚ) ≤ 4194304 := by exact_mod_cast hn
  have hn0 : (0:ℚ) ≤ n := Nat.cast_nonneg _
  have hB0 : 0 ≤ ∑ q ∈ range n, b q := sum_nonneg fun q hq => hb0 q (mem_range.1 hq)
  have sx : ∑ q ∈ range n, |x q| ≤ (∑ q ∈ range n, b q) * (1 + 1 / 2 ^ 40) + n * (1 / 2 ^ 190) := by
    have : ∑ q ∈ range n, |x q| ≤ ∑ q ∈ range n, (b q * (1 + 1 / 2 ^ 40) + 1 / 2 ^ 190) := sum_le_sum fun q hq => (hx q (mem_range.1 hq)).2.1
    refine le_trans this (le_of_eq ?_)
    rw [sum_add_distrib, ← sum_mul, sum_const, card_range, nsmul_eq_mul]
  obtain ⟨z, z1, z2⟩ := accD_err hn (fun q hq => (hx q hq).1) (by
    generalize ∑ q ∈ range n, |x q| = X at *
    generalize ∑ q ∈ range n, b q = Y at *
    norm_num at sx hB ⊢
    linarith)
  refine ⟨z, z1, ?_⟩
  have sT : |∑ q ∈ range n, ((x q : ℚ) : ℝ) - ∑ q ∈ range n, T q| ≤ k * (∑ q ∈ range n, b q : ℚ) + n * (1 / 2 ^ 190) := by
    rw [← sum_sub_distrib]
    refine le_trans (abs_sum_le_sum_abs _ _) ?_
    have : ∑ q ∈ range n, |((x q : ℚ) : ℝ) - T q| ≤ ∑ q ∈ range n, ((b q : ℝ) * k + 1 / 2 ^ 190) := sum_le_sum fun q hq => (hx q (mem_range.1 hq)).2.2
    refine le_trans this (le_of_eq ?_)
    rw [sum_add_distrib, ← sum_mul, sum_const, card_range, nsmul_eq_mul]
    push_cast
    ring
  have z3 : |z - ∑ q ∈ range n, x q| ≤ n / 2 ^ 22 * ∑ q ∈ range n, b q + 1 / 2 ^ 101 := by
    refine le_trans z2 ?_
    generalize ∑ q ∈ range n, |x q| = X at *
    generalize ∑ q ∈ range n, b q = Y at *
    have h1 : (n:ℚ) * X ≤ n * (Y * (1 + 1 / 2 ^ 40) + n * (1 / 2 ^ 190)) := mul_le_mul_of_nonneg_left sx hn0
    have h2 : (0:ℚ) ≤ n * Y := mul_nonneg hn0 hB0
    have h3 : (n:ℚ) * n ≤ 2 ^ 44 := by
      have := mul_le_mul hnq hnq hn0 (by norm_num)
      norm_num at this ⊢
      linarith
    have e1 : (n:ℚ) / 2 ^ 23 * (1 + 1 / 2 ^ 20) * X = (1 + 1 / 2 ^ 20) / 2 ^ 23 * (n * X) := by ring
    have e2 : (n:ℚ) / 2 ^ 22 * Y = 1 / 2 ^ 22 * (n * Y) := by ring
    have e3 : (n:ℚ) * (Y * (1 + 1 / 2 ^ 40) + n * (1 / 2 ^ 190)) = (1 + 1 / 2 ^ 40) * (n * Y) + (1 / 2 ^ 190) * (n * n) := by ring
    rw [e1, e2]
    rw [e3] at h1
    generalize (n:ℚ) * X = P at *
    generalize (n:ℚ) * Y = Q at *
    generalize (n:ℚ) * n = N at *
    norm_num at h1 h3 ⊢
    linarith
  have e : (z:ℝ) - ∑ q ∈ range n, T q = ((z - ∑ q ∈ range n, x q : ℚ) : ℝ) + (∑ q ∈ range n, ((x q : ℚ) : ℝ) - ∑ q ∈ range n, T q) := by push_cast; ring
  rw [e]
  refine le_trans (abs_add_le _ _) ?_
  have n1 : |((z - ∑ q ∈ range n, x q : ℚ) : ℝ)| ≤ n / 2 ^ 22 * ((∑ q ∈ range n, b q : ℚ) : ℝ) + 1 / 2 ^ 101 := by
    rw [← Rat.cast_abs]
    have h : ((|z - ∑ q ∈ range n, x q| : ℚ) : ℝ) ≤ ((n / 2 ^ 22 * ∑ q ∈ range n, b q + 1 / 2 ^ 101 : ℚ) : ℝ) := by exact_mod_cast z3
    rw [Rat.cast_add, Rat.cast_mul] at h
    push_cast at h ⊢
    exact h
  have hnr : (n:ℝ) ≤ 4194304 := by exact_mod_cast hn
  generalize ((∑ q ∈ range n, b q : ℚ) : ℝ) = Y at *
  rw [add_mul]
  norm_num at n1 sT ⊢
  linarith

end HyperCV
