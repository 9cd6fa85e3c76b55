/- The magnitude of two float images. -/
import Verif.Proof.SpecError

namespace HyperCV
open Spec Finset

/-- the square of a `float` is a `double` -/
theorem rep64_sq {x : ℚ} (h : f32.Rep x) : f64.Rep (x * x) := by
  obtain ⟨n, e, h1, h2, h3, h4⟩ := h
  have h2 : |n| ≤ 2 ^ 24 := h2
  have h3 : -149 ≤ e := h3
  refine ⟨n * n, e + e, ?_, ?_, ?_, ?_⟩
  · rw [h1, zpow_add₀ (by norm_num)]
    push_cast
    ring
  · rw [abs_mul]
    calc |n| * |n| ≤ 2 ^ 24 * 2 ^ 24 := mul_le_mul h2 h2 (abs_nonneg _) (by norm_num)
      _ ≤ 2 ^ (f64.t + 1) := by decide
  · show (-1074:ℤ) ≤ e + e
    omega
  · rw [f32_max] at h4
    rw [f64_max, abs_mul]
    calc |x| * |x| ≤ 2 ^ 128 * 2 ^ 128 := mul_le_mul h4.le h4.le (abs_nonneg _) (by norm_num)
      _ = 2 ^ 256 := by norm_num
      _ < 2 ^ 1024 := pow_lt_pow_right₀ (by norm_num) (by decide)

/-- the magnitude -/
theorem magnitudeF_err {a b : FV} {x y : ℚ} (ha : f32.Val a x) (hb : f32.Val b y) (hx : |x| ≤ 2 ^ 100) (hy : |y| ≤ 2 ^ 100) :
    ∃ w, f32.Val (magnitudeF a b) w ∧ |(w:ℝ) - Real.sqrt ((x:ℝ) ^ 2 + y ^ 2)| ≤ 1 / 2 ^ 23 * Real.sqrt ((x:ℝ) ^ 2 + y ^ 2) + 1 / 2 ^ 149 := by
  have ca := is_conv' ha.1 (f32_to_f64 ha.2)
  have cb := is_conv' hb.1 (f32_to_f64 hb.2)
  have va : f64.Val (f64.mul (f64.conv a) (f64.conv a)) (x * x) := ⟨is_mul ca ca (rep64_sq ha.2), rep64_sq ha.2⟩
  have vb : f64.Val (f64.mul (f64.conv b) (f64.conv b)) (y * y) := ⟨is_mul cb cb (rep64_sq hb.2), rep64_sq hb.2⟩
  have x0 := mul_self_nonneg x
  have y0 := mul_self_nonneg y
  have hsq : ∀ {t : ℚ}, |t| ≤ 2 ^ 100 → t * t ≤ 2 ^ 200 := by
    intro t ht
    rw [← abs_mul_abs_self t]
    calc |t| * |t| ≤ 2 ^ 100 * 2 ^ 100 := mul_le_mul ht ht (abs_nonneg _) (by norm_num)
      _ = 2 ^ 200 := by norm_num
  have hx2 := hsq hx
  have hy2 := hsq hy
  have e := rv_grid (F := f64) (grid_add (rep_grid va.2) (rep_grid vb.2))
  obtain ⟨T, t1, t2, t0⟩ : ∃ z, f64.Val (f64.add (f64.mul (f64.conv a) (f64.conv a)) (f64.mul (f64.conv b) (f64.conv b))) z ∧
      |z - (x * x + y * y)| ≤ f64.u * |x * x + y * y| ∧ 0 ≤ z :=
    ⟨f64.rv (x * x + y * y), good_val (good_add f64 _ _) (rnd_add va.1 vb.1 (rv_lt e (by
      rw [f64_u, f64_max, abs_of_nonneg (by linarith)]
      refine lt_of_le_of_lt (b := 2 ^ 202) ?_ (pow_lt_pow_right₀ (by norm_num) (by decide))
      generalize x * x = X at *
      generalize y * y = Y at *
      norm_num at hx2 hy2 ⊢
      linarith))), e, rv_nonneg (by linarith)⟩
  rw [f64_u, abs_of_nonneg (by linarith : 0 ≤ x * x + y * y)] at t2
  have tr : |(T:ℝ) - ((x:ℝ) ^ 2 + y ^ 2)| ≤ 1 / 2 ^ 53 * ((x:ℝ) ^ 2 + y ^ 2) := by
    have := cast_abs_le t2
    push_cast at this
    rw [sq, sq]
    norm_num at this ⊢
    exact this
  have hN : (0:ℝ) ≤ (x:ℝ) ^ 2 + y ^ 2 := by positivity
  have hle : Real.sqrt ((x:ℝ) ^ 2 + y ^ 2) ≤ 2 ^ 101 := by
    rw [Real.sqrt_le_left (by norm_num)]
    have c1 : ((x * x : ℚ) : ℝ) ≤ ((2 ^ 200 : ℚ) : ℝ) := by exact_mod_cast hx2
    have c2 : ((y * y : ℚ) : ℝ) ≤ ((2 ^ 200 : ℚ) : ℝ) := by exact_mod_cast hy2
    push_cast at c1 c2
    rw [sq, sq]
    norm_num at c1 c2 ⊢
    linarith
  have hs0 := Real.sqrt_nonneg ((x:ℝ) ^ 2 + y ^ 2)
  -- the root
  obtain ⟨s, s1, s2⟩ : ∃ s : ℚ, (f64.sqrt (f64.add (f64.mul (f64.conv a) (f64.conv a)) (f64.mul (f64.conv b) (f64.conv b)))).Is s ∧
      |(s:ℝ) - Real.sqrt ((x:ℝ) ^ 2 + y ^ 2)| ≤ 1 / 2 ^ 51 * Real.sqrt ((x:ℝ) ^ 2 + y ^ 2) := by
    rcases hN.eq_or_lt with h0 | h0
    · rw [← h0] at tr
      rw [mul_zero] at tr
      have hT : T = 0 := by
        have := abs_nonpos_iff.1 tr
        rw [sub_zero] at this
        exact_mod_cast this
      obtain ⟨⟨b', hb'⟩, -⟩ := t1
      rw [hb', hT]
      refine ⟨0, ⟨b', sqrt_zero⟩, ?_⟩
      rw [← h0]
      simp
    · have hTp : 0 < T := by
        have h1 := (abs_le.1 tr).1
        have : (0:ℝ) < T := by norm_num at h1; linarith
        exact_mod_cast this
      have hl : (-1074:ℤ) ≤ Int.log 2 T := by
        obtain ⟨n, e, h1, h2, h3, h4⟩ := t1.2
        have h3 : -1074 ≤ e := h3
        have hn : 1 ≤ n := by
          by_contra hc
          have : (n:ℚ) ≤ 0 := by exact_mod_cast (by omega : n ≤ 0)
          have hp : (0:ℚ) < 2 ^ e := by positivity
          rw [h1] at hTp
          nlinarith
        rw [← Int.zpow_le_iff_le_log (by norm_num) hTp]
        rw [h1]
        have hp : (2:ℚ) ^ (-1074:ℤ) ≤ 2 ^ e := zpow_le_zpow_right₀ (by norm_num) h3
        have hn' : (1:ℚ) ≤ n := by exact_mod_cast hn
        have hm : (2:ℚ) ^ e ≤ n * 2 ^ e := le_mul_of_one_le_left (by positivity) hn'
        exact_mod_cast le_trans hp hm
      obtain ⟨⟨b', hb'⟩, -⟩ := t1
      rw [hb']
      obtain ⟨s, s1, s2⟩ := sqrt_err (F := f64) (s := b') hTp (by
        have : f64.emin + f64.t ≤ -1000 := by decide
        omega)
      have s3 : |(s:ℝ) - Real.sqrt T| ≤ Real.sqrt T / 2 ^ 53 := s2
      have s4 := sqrt_near h0 tr
      refine ⟨s, ⟨false, s1⟩, ?_⟩
      have e2 : (s:ℝ) - Real.sqrt ((x:ℝ) ^ 2 + y ^ 2) = (s - Real.sqrt T) + (Real.sqrt T - Real.sqrt ((x:ℝ) ^ 2 + y ^ 2)) := by ring
      rw [e2]
      refine le_trans (abs_add_le _ _) ?_
      have g := (abs_le.1 s4).2
      generalize Real.sqrt ((x:ℝ) ^ 2 + y ^ 2) = H at *
      generalize Real.sqrt (T:ℝ) = Z at *
      norm_num at s3 s4 g ⊢
      linarith
  generalize Real.sqrt ((x:ℝ) ^ 2 + y ^ 2) = H at *
  have sb : |(s:ℝ)| ≤ (1 + 1 / 2 ^ 51) * H := by
    have := abs_add_le ((s:ℝ) - H) H
    rw [sub_add_cancel, abs_of_nonneg hs0] at this
    linarith
  have sq : |s| ≤ 2 ^ 102 := by
    have : ((|s| : ℚ) : ℝ) ≤ ((2 ^ 102 : ℚ) : ℝ) := by
      rw [Rat.cast_abs]
      push_cast
      norm_num at sb hle ⊢
      linarith
    exact_mod_cast this
  obtain ⟨w, w1, w2⟩ := val_conv (F := f32) s1 (by
    rw [f32_u, f32_eta, f32_max]
    norm_num at sq ⊢
    linarith)
  rw [f32_u, f32_eta] at w2
  refine ⟨w, w1, ?_⟩
  have w3 : |(w:ℝ) - s| ≤ 1 / 2 ^ 24 * |(s:ℝ)| + 1 / 2 ^ 150 := by
    have h : |w - s| ≤ 1 / 2 ^ 24 * |s| + 1 / 2 ^ 150 := by
      generalize |s| = X at *
      norm_num at w2 ⊢
      exact w2
    have := cast_abs_le h
    push_cast at this
    exact this
  have e3 : (w:ℝ) - H = (w - s) + (s - H) := by ring
  rw [e3]
  refine le_trans (abs_add_le _ _) ?_
  norm_num at w3 s2 sb ⊢
  linarith

end HyperCV
