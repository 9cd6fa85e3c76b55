/- Rounding errors of the inverse Fourier transform and of the spectrum. -/
import Verif.Proof.DftError
import Verif.Proof.Normalize

namespace HyperCV
open Spec Finset

theorem cast_abs_le {x b : ℚ} (h : |x| ≤ b) : |(x:ℝ)| ≤ b := by
  rw [← Rat.cast_abs]
  exact_mod_cast h

/-- `sqrt` of a positive integer -/
theorem sqrt_int {n : Nat} (h1 : 1 ≤ n) (h2 : n ≤ 2147483647) :
    ∃ s : ℚ, (f64.sqrt (f64.ofInt (n:Int))).Is s ∧ 0 < s ∧ |(s:ℝ) - Real.sqrt n| ≤ Real.sqrt n / 2 ^ 53 := by
  have hn : (f64.ofInt (n:Int)).Is (n:ℚ) := by
    have := is_ofInt (rep64_int (n := (n:ℤ)) (by rw [abs_of_nonneg (by positivity)]; omega))
    simpa using this
  obtain ⟨b, hb⟩ := hn
  rw [hb]
  have hp : (0:ℚ) < n := by exact_mod_cast h1
  obtain ⟨s, s1, s2⟩ := sqrt_err (F := f64) (s := b) hp (by
    have : (0:ℤ) ≤ Int.log 2 (n:ℚ) := by
      rw [Int.log_natCast]
      positivity
    have h3 : f64.emin + f64.t ≤ 0 := by decide
    have h4 : (0:ℤ) ≤ Int.log 2 (n:ℚ) / 2 := Int.ediv_nonneg this (by norm_num)
    omega)
  have e : ((n:ℚ):ℝ) = (n:ℝ) := by norm_cast
  rw [e] at s2
  have s3 : |(s:ℝ) - Real.sqrt n| ≤ Real.sqrt n / 2 ^ 53 := s2
  refine ⟨s, ⟨false, s1⟩, ?_, s3⟩
  have h5 : 0 < Real.sqrt n := Real.sqrt_pos.2 (by exact_mod_cast h1)
  have h6 := (abs_le.1 s3).1
  have : (0:ℝ) < s := by
    have : Real.sqrt n / 2 ^ 53 < Real.sqrt n := div_lt_self h5 (by norm_num)
    linarith
  exact_mod_cast this

/-- a quotient whose divisor has an error -/
theorem quot_near {z s r : ℝ} (hr : 0 < r) (h : |s - r| ≤ r / 2 ^ 50) : |z / s - z / r| ≤ |z| / r / 2 ^ 49 ∧ |z / s| ≤ |z| / r * (1 + 1 / 2 ^ 49) := by
  have h1 := abs_le.1 h
  have hs : r / 2 ≤ s := by
    have : r / 2 ^ 50 ≤ r / 2 := by apply div_le_div_of_nonneg_left hr.le <;> norm_num
    linarith
  have hs0 : 0 < s := by linarith
  have e : z / s - z / r = z / r * ((r - s) / s) := by field_simp
  have k : |(r - s) / s| ≤ 1 / 2 ^ 49 := by
    rw [abs_div, abs_of_pos hs0, div_le_iff₀ hs0, abs_sub_comm]
    refine le_trans h ?_
    norm_num at hs ⊢
    linarith
  have a : |z / s - z / r| ≤ |z| / r / 2 ^ 49 := by
    rw [e, abs_mul, abs_div, abs_of_pos hr]
    have := mul_le_mul_of_nonneg_left k (show 0 ≤ |z| / r by positivity)
    refine le_trans this (le_of_eq ?_)
    ring
  refine ⟨a, ?_⟩
  have h2 := abs_add_le (z / s - z / r) (z / r)
  rw [sub_add_cancel] at h2
  have h3 : |z / r| = |z| / r := by rw [abs_div, abs_of_pos hr]
  rw [h3] at h2
  have e2 : |z| / r * (1 + 1 / 2 ^ 49) = |z| / r / 2 ^ 49 + |z| / r := by ring
  rw [e2]
  linarith

/-- a number divided by a number near `r`, converted to `float` -/
theorem div_conv_err {a v : FV} {z s : ℚ} {r : ℝ} (ha : a.Is z) (hv : v.Is s) (hs : 0 < s) (hr : 1 ≤ r) (h : |(s:ℝ) - r| ≤ r / 2 ^ 50) (hz : |z| ≤ 2 ^ 60) :
    ∃ w, f32.Val (f32.conv (f64.div a v)) w ∧ |(w:ℝ) - z / r| ≤ |(z:ℝ)| / r / 2 ^ 23 + 1 / 2 ^ 140 := by
  have heta := f64_eta_small
  have hr0 : 0 < r := by linarith
  obtain ⟨n1, n2⟩ := quot_near (z := (z:ℝ)) hr0 h
  have hzr : |(z:ℝ)| ≤ 2 ^ 60 := by have := cast_abs_le hz; push_cast at this; exact this
  have hQ : |(z:ℝ)| / r ≤ 2 ^ 60 := le_trans (div_le_self (abs_nonneg _) hr) hzr
  have hQ0 : 0 ≤ |(z:ℝ)| / r := by positivity
  have q1 : |z / s| ≤ 2 ^ 61 := by
    have : ((|z / s| : ℚ) : ℝ) ≤ ((2 ^ 61 : ℚ) : ℝ) := by
      rw [Rat.cast_abs, Rat.cast_div]
      generalize |(z:ℝ)| / r = Q at *
      push_cast
      norm_num at n2 hQ ⊢
      linarith
    exact_mod_cast this
  obtain ⟨d, d1, d2⟩ := val_div (F := f64) ha hv hs.ne' (f64_room (le_trans q1 (by norm_num)))
  rw [f64_u] at d2
  have d3 : |d| ≤ 2 ^ 62 := by
    have := abs_add_le (d - z / s) (z / s)
    rw [sub_add_cancel] at this
    generalize |z / s| = X at *
    norm_num at this d2 q1 heta ⊢
    linarith
  obtain ⟨w, w1, w2⟩ := val_conv (F := f32) d1.1 (by
    rw [f32_u, f32_eta, f32_max]
    norm_num at d3 ⊢
    linarith)
  rw [f32_u, f32_eta] at w2
  refine ⟨w, w1, ?_⟩
  have d4 : |(d:ℝ) - z / s| ≤ |(z:ℝ) / s| / 2 ^ 53 + 1 / 2 ^ 200 := by
    have h1 : |d - z / s| ≤ |z / s| / 2 ^ 53 + 1 / 2 ^ 200 := by
      generalize |z / s| = X at *
      norm_num at d2 heta ⊢
      linarith
    have := cast_abs_le h1
    push_cast at this
    exact this
  have d5 : |(d:ℝ) - z / r| ≤ |(z:ℝ)| / r / 2 ^ 48 + 1 / 2 ^ 200 := by
    have e : (d:ℝ) - z / r = (d - z / s) + ((z:ℝ) / s - z / r) := by ring
    rw [e]
    refine le_trans (abs_add_le _ _) ?_
    generalize |(z:ℝ)| / r = Q at *
    norm_num at n1 n2 d4 ⊢
    linarith
  have d6 : |(d:ℝ)| ≤ |(z:ℝ)| / r * (1 + 1 / 2 ^ 48) + 1 / 2 ^ 200 := by
    have := abs_add_le ((d:ℝ) - z / r) (z / r)
    rw [sub_add_cancel, abs_div (z:ℝ), abs_of_pos hr0] at this
    generalize |(z:ℝ)| / r = Q at *
    norm_num at this d5 ⊢
    linarith
  have w3 : |(w:ℝ) - d| ≤ |(d:ℝ)| / 2 ^ 24 + 1 / 2 ^ 150 := by
    have h1 : |w - d| ≤ |d| / 2 ^ 24 + 1 / 2 ^ 150 := by
      generalize |d| = X at *
      norm_num at w2 ⊢
      linarith
    have := cast_abs_le h1
    push_cast at this
    exact this
  have e : (w:ℝ) - z / r = (w - d) + (d - z / r) := by ring
  rw [e]
  refine le_trans (abs_add_le _ _) ?_
  generalize |(z:ℝ)| / r = Q at *
  norm_num at w3 d5 d6 ⊢
  linarith

/-- the cast to `unsigned char` of a value near `E` -/
theorem sat_clamp_real {v : FV} {r : ℚ} {E δ : ℝ} (hv : v.Is r) (h : |(r:ℝ) - E| ≤ δ) :
    |((saturate_cast_float2uchar v).toNat : ℝ) - max 0 (min 255 E)| ≤ 1 / 2 + δ := by
  have hd : 0 ≤ δ := le_trans (abs_nonneg _) h
  refine le_trans ?_ (add_le_add_right h (1/2))
  have k : ∀ x : ℝ, |(max 0 (min 255 x)) - max 0 (min 255 E)| ≤ |x - E| := by
    intro x
    refine le_trans (abs_max_sub_max_le_max _ _ _ _) ?_
    rw [sub_self, abs_zero, max_eq_right (abs_nonneg _)]
    refine le_trans (abs_min_sub_min_le_max _ _ _ _) ?_
    rw [sub_self, abs_zero, max_eq_right (abs_nonneg _)]
  have h2 := saturate_fin hv
  have h3 := (rne_spec r).1
  have h4 : ((saturate_cast_float2uchar v).toNat : ℝ) = ((clamp 0 255 (rne r) : ℤ) : ℝ) := by rw [← h2]; rfl
  have h5 : ((clamp 0 255 (rne r) : ℤ) : ℝ) = max 0 (min 255 ((rne r : ℤ) : ℝ)) := by
    unfold clamp
    split
    · next hc =>
      have : ((rne r : ℤ) : ℝ) ≤ 0 := by exact_mod_cast hc.le
      rw [min_eq_right (by linarith), max_eq_left this]
      norm_num
    · split
      · next hc =>
        have : (255:ℝ) ≤ ((rne r : ℤ) : ℝ) := by exact_mod_cast hc.le
        rw [min_eq_left this]
        norm_num
      · next c1 c2 =>
        have a1 : (0:ℝ) ≤ ((rne r : ℤ) : ℝ) := by exact_mod_cast not_lt.1 c1
        have a2 : ((rne r : ℤ) : ℝ) ≤ 255 := by exact_mod_cast not_lt.1 c2
        rw [min_eq_right a2, max_eq_right a1]
  rw [h4, h5]
  refine le_trans (k _) ?_
  have h6 : |((rne r : ℤ) : ℝ) - r| ≤ 1 / 2 := by
    rw [abs_sub_comm]
    have := cast_abs_le h3
    push_cast at this
    exact this
  have e : ((rne r : ℤ) : ℝ) - E = (((rne r : ℤ) : ℝ) - r) + (r - E) := by ring
  rw [e]
  refine le_trans (abs_add_le _ _) ?_
  linarith

/-- one term of the inverse transform -/
theorem idftTerm_err {L : Trig} (hL : GoodTrig L) {R C i j q : Nat} {r v : Nat → Nat → Nat → Nat} (hR : R ≤ 4096) (hC : C ≤ 4096) (hi : i < R) (hj : j < C)
    (hq : q < R * C) {x y : ℚ} (hx : FloatIs f32 (r (q / C) (q % C) 0) x) (hy : FloatIs f32 (v (q / C) (q % C) 0) y) (bx : |x| ≤ 2 ^ 50) (bY : |y| ≤ 2 ^ 50)
    (gx : f32.Rep x) (gy : f32.Rep y) :
    ∃ z : ℚ, f64.Val (idftTerm L R C r v i j q) z ∧ |z| ≤ (|x| + |y|) * (1 + 1 / 2 ^ 40) + 1 / 2 ^ 190 ∧
      |(z:ℝ) - (x * Real.cos ((2:ℤ) * Real.pi * ((i:ℝ) * (q / C : Nat) / R + (j:ℝ) * (q % C : Nat) / C))
        - y * Real.sin ((2:ℤ) * Real.pi * ((i:ℝ) * (q / C : Nat) / R + (j:ℝ) * (q % C : Nat) / C)))|
        ≤ ((|x| + |y| : ℚ) : ℝ) * ((R + C) / 2 ^ 20) + 1 / 2 ^ 190 := by
  have pC : 0 < C := by omega
  have h1 : q / C < R := Nat.div_lt_of_lt_mul (by rwa [mul_comm])
  have h2 : q % C < C := Nat.mod_lt _ pC
  unfold idftTerm
  have cx : (f64.conv (f32.decode (r (q / C) (q % C) 0))).Is x := is_conv' hx (f32_to_f64 gx)
  have cy : (f64.conv (f32.decode (v (q / C) (q % C) 0))).Is y := is_conv' hy (f32_to_f64 gy)
  obtain ⟨a, a1, a2, a3⟩ := prod_err (GoodTrig.fcos hL) (s := 2) (Or.inl rfl) hR hC hi h1 hj h2 cx (le_trans bx (by norm_num))
  obtain ⟨b, b1, b2, b3⟩ := prod_err (GoodTrig.fsin hL) (s := 2) (Or.inl rfl) hR hC hi h1 hj h2 cy (le_trans bY (by norm_num))
  have hx0 := abs_nonneg x
  have hy0 := abs_nonneg y
  have ab : |a - b| ≤ (|x| + |y|) * (1 + 1 / 2 ^ 48) + 1 / 2 ^ 199 := by
    have := abs_sub a b
    generalize |x| = X at *
    generalize |y| = Y at *
    norm_num at this a2 b2 ⊢
    linarith
  obtain ⟨z, z1, z2⟩ := val_sub a1 b1 (by
    have := f64_room (q := a - b) (by
      generalize |x| = X at *
      generalize |y| = Y at *
      norm_num at ab bx bY ⊢
      linarith)
    have h0 : 0 < f64.eta := by rw [f64_eta]; positivity
    linarith)
  rw [f64_u] at z2
  refine ⟨z, z1, ?_, ?_⟩
  · have := abs_add_le (z - (a - b)) (a - b)
    rw [sub_add_cancel] at this
    generalize |x| = X at *
    generalize |y| = Y at *
    generalize |a - b| = W at *
    norm_num at this z2 ab ⊢
    linarith
  · generalize Real.cos _ = cc at *
    generalize Real.sin _ = ss at *
    have n0 : |((z:ℝ) - (a - b))| ≤ (|(x:ℝ)| + |(y:ℝ)|) / 2 ^ 52 + 1 / 2 ^ 199 := by
      have : |z - (a - b)| ≤ (|x| + |y|) / 2 ^ 52 + 1 / 2 ^ 199 := by
        generalize |x| = X at *
        generalize |y| = Y at *
        generalize |a - b| = W at *
        norm_num at z2 ab ⊢
        linarith
      have := cast_abs_le this
      push_cast at this
      exact this
    have e : (z:ℝ) - (x * cc - y * ss) = (z - (a - b)) + (a - x * cc) - (b - y * ss) := by ring
    rw [e]
    refine le_trans (abs_sub _ _) ?_
    have n1 := abs_add_le ((z:ℝ) - (a - b)) (a - x * cc)
    have n3 := abs_nonneg (x:ℝ)
    have n4 := abs_nonneg (y:ℝ)
    have hR1 : (1:ℝ) ≤ R := by exact_mod_cast (by omega : 1 ≤ R)
    have hC1 : (1:ℝ) ≤ C := by exact_mod_cast (by omega : 1 ≤ C)
    push_cast
    generalize |(x:ℝ)| = X at *
    generalize |(y:ℝ)| = Y at *
    generalize hK : (R:ℝ) + C = K at *
    have h1 : K * (9 / 10 ^ 7) + 1 / 2 ^ 48 ≤ K / 2 ^ 20 := by norm_num; linarith
    have h2 := mul_le_mul_of_nonneg_left h1 (add_nonneg n3 n4)
    have e3 : (X + Y) * (K * (9 / 10 ^ 7) + 1 / 2 ^ 48) = X * (K * (9 / 10 ^ 7) + 1 / 2 ^ 49) + Y * (K * (9 / 10 ^ 7) + 1 / 2 ^ 49) + (X + Y) / 2 ^ 49 := by ring
    rw [e3] at h2
    generalize X * (K * (9 / 10 ^ 7) + 1 / 2 ^ 49) = P at *
    generalize Y * (K * (9 / 10 ^ 7) + 1 / 2 ^ 49) = Q at *
    norm_num at n0 n1 a3 b3 h2 ⊢
    linarith

end HyperCV
