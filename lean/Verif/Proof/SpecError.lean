/- Rounding errors of the spectrum and of the magnitude. -/
import Verif.Proof.IdftError
import Verif.Props.Dft

namespace HyperCV
open Spec Finset

theorem dftMove_eq (x y : Nat) : dftMove x y = (-1) ^ (x + y) := by
  unfold dftMove
  have e : ((x:Int) + y).tmod 2 = (((x + y) % 2 : Nat) : Int) := by
    rw [← Nat.cast_add, Int.tmod_eq_emod_of_nonneg (by positivity)]
    rfl
  rw [e]
  rcases Nat.even_or_odd (x + y) with h | h
  · rw [if_pos (by rw [Nat.even_iff.1 h]; rfl), h.neg_one_pow]
  · rw [if_neg (by rw [Nat.odd_iff.1 h]; decide), h.neg_one_pow]

/-- a value times 1 or -1 -/
theorem val_sign {v : FV} {z : ℚ} (hv : f64.Val v z) (n : Nat) : f64.Val (f64.mul v (f64.ofInt ((-1) ^ n))) (z * (-1) ^ n) := by
  have h1 : (f64.ofInt ((-1:Int) ^ n)).Is (((-1:Int) ^ n : ℤ) : ℚ) := is_ofInt (rep64_int (by
    rw [abs_pow]
    norm_num))
  push_cast at h1
  have hr : f64.Rep (z * (-1) ^ n) := by
    rcases Nat.even_or_odd n with h | h
    · rw [h.neg_one_pow, mul_one]; exact hv.2
    · rw [h.neg_one_pow, mul_neg, mul_one]; exact rep_neg' hv.2
  exact ⟨is_mul hv.1 h1 hr, hr⟩

section
variable {R C : Nat} {px : Nat → Nat → Nat → Nat} {L : Trig}

theorem specTerm_err {f : FV → FV} {g : ℝ → ℝ} (hf : GoodFn f g) (hR : R ≤ 4096) (hC : C ≤ 4096) (ha : ∀ i j, i < R → j < C → px i j 0 < 65536)
    {u v : Nat} (hu : u < R) (hv : v < C) {q : Nat} (hq : q < R * C) :
    ∃ z : ℚ, f64.Val (specTerm f R C px u v q) z ∧ |z| ≤ ((px (q / C) (q % C) 0 : Nat) : ℚ) * (1 + 1 / 2 ^ 40) + 1 / 2 ^ 190 ∧
      |(z:ℝ) - ((-1) ^ (q / C + q % C) * (px (q / C) (q % C) 0 : Nat)) * g ((-2:ℤ) * Real.pi * ((u:ℝ) * (q / C : Nat) / R + (v:ℝ) * (q % C : Nat) / C))|
        ≤ (((px (q / C) (q % C) 0 : Nat) : ℚ) : ℝ) * ((R + C) / 2 ^ 20) + 1 / 2 ^ 190 := by
  obtain ⟨z, z1, z2, z3⟩ := dftTerm_err (a := px) hf hR hC ha hu hv hq
  refine ⟨z * (-1) ^ (q / C + q % C), ?_, ?_, ?_⟩
  · unfold specTerm
    rw [dftMove_eq]
    exact val_sign z1 _
  · rw [abs_mul, abs_pow]
    norm_num at z2 ⊢
    exact z2
  · have e : (((z * (-1) ^ (q / C + q % C) : ℚ)) : ℝ) - ((-1) ^ (q / C + q % C) * (px (q / C) (q % C) 0 : Nat)) * g ((-2:ℤ) * Real.pi * ((u:ℝ) * (q / C : Nat) / R + (v:ℝ) * (q % C : Nat) / C))
        = (-1) ^ (q / C + q % C) * ((z:ℝ) - (px (q / C) (q % C) 0 : Nat) * g ((-2:ℤ) * Real.pi * ((u:ℝ) * (q / C : Nat) / R + (v:ℝ) * (q % C : Nat) / C))) := by
      push_cast
      ring
    rw [e, abs_mul, abs_pow, abs_neg, abs_one, one_pow, one_mul]
    exact z3

theorem specAcc_err {f : FV → FV} {g : ℝ → ℝ} (hf : GoodFn f g) (hR : R ≤ 4096) (hC : C ≤ 4096) (hn : R * C ≤ 4194304) (ha : ∀ i j, i < R → j < C → px i j 0 < 65536)
    {u v : Nat} (hu : u < R) (hv : v < C) :
    ∃ z : ℚ, f32.Val (accD (specTerm f R C px u v) (R * C)) z ∧
      |(z:ℝ) - ∑ q ∈ range (R * C), ((-1) ^ (q / C + q % C) * (px (q / C) (q % C) 0 : Nat)) * g ((-2:ℤ) * Real.pi * ((u:ℝ) * (q / C : Nat) / R + (v:ℝ) * (q % C : Nat) / C))|
        ≤ ((R + C) / 2 ^ 20 + R * C / 2 ^ 22) * greySum R C px + 1 / 2 ^ 100 := by
  have pC : 0 < C := by omega
  have hsum : (∑ q ∈ range (R * C), ((px (q / C) (q % C) 0 : Nat) : ℚ)) = (greySum R C px : ℚ) := by
    rw [pixelSum_flat]; push_cast; rfl
  have hle : greySum R C px ≤ 2 ^ 38 := by
    rw [pixelSum_flat]
    have : ∑ q ∈ range (R * C), px (q / C) (q % C) 0 ≤ ∑ q ∈ range (R * C), 65536 := sum_le_sum fun q hq => by
      have hq := mem_range.1 hq
      exact (ha _ _ (Nat.div_lt_of_lt_mul (by rwa [mul_comm])) (Nat.mod_lt _ pC)).le
    rw [sum_const, card_range, smul_eq_mul] at this
    refine le_trans this ?_
    calc R * C * 65536 ≤ 4194304 * 65536 := Nat.mul_le_mul_right _ hn
      _ = 2 ^ 38 := by norm_num
  obtain ⟨z, z1, z2⟩ := accD_real hn (b := fun q => ((px (q / C) (q % C) 0 : Nat) : ℚ)) (fun q _ => by positivity)
    (by rw [hsum]; have : (greySum R C px : ℚ) ≤ 2 ^ 38 := by exact_mod_cast hle
        refine le_trans this (by norm_num)) (fun q hq => specTerm_err hf hR hC ha hu hv hq)
  refine ⟨z, z1, le_trans z2 (le_of_eq ?_)⟩
  rw [hsum]
  push_cast
  rfl

end

/-- square roots of numbers that are near each other -/
theorem sqrt_mixed {T N k e : ℝ} (hT : 0 ≤ T) (hN : 0 ≤ N) (he : 0 < e) (h : |T - N| ≤ k * N + e ^ 2) (hk : 0 ≤ k) (hk1 : k ≤ 1) :
    |Real.sqrt T - Real.sqrt N| ≤ k * Real.sqrt N + 2 * e := by
  have a := Real.mul_self_sqrt hT
  have b := Real.mul_self_sqrt hN
  have s1 := Real.sqrt_nonneg T
  have s2 := Real.sqrt_nonneg N
  generalize Real.sqrt T = t at *
  generalize Real.sqrt N = n at *
  subst a
  subst b
  have h1 := abs_le.1 h
  rw [abs_le]
  constructor
  · by_contra hc
    rw [not_le] at hc
    -- t < n - k n - 2 e
    have h2 : t + e < n := by nlinarith
    nlinarith
  · by_contra hc
    rw [not_le] at hc
    have kn : 0 ≤ k * n := mul_nonneg hk s2
    have h2 : (n + (k * n + 2 * e)) * (n + (k * n + 2 * e)) ≤ t * t := mul_self_le_mul_self (by linarith) (by linarith)
    have h3 : 0 ≤ n * (k * n) := mul_nonneg s2 kn
    have h4 : 0 ≤ n * e := mul_nonneg s2 he.le
    have h5 : 0 < e * e := mul_pos he he
    have h6 : 0 ≤ (k * n) * e := mul_nonneg kn he.le
    have h7 : 0 ≤ (k * n) * (k * n) := mul_self_nonneg _
    have e1 : (n + (k * n + 2 * e)) * (n + (k * n + 2 * e)) = n * n + 2 * (n * (k * n)) + 4 * (n * e) + (k * n) * (k * n) + 4 * ((k * n) * e) + 4 * (e * e) := by ring
    have e2 : k * (n * n) = n * (k * n) := by ring
    rw [e1] at h2
    rw [e2] at h1
    have h8 := h1.2
    rw [sq] at h8
    linarith

/-- `sqrt` of a `float` that is not negative -/
theorem sqrt_float {a : FV} {z : ℚ} (ha : f32.Val a z) (hz : 0 ≤ z) :
    ∃ s : ℚ, (f64.sqrt (f64.conv a)).Is s ∧ 0 ≤ s ∧ |(s:ℝ) - Real.sqrt z| ≤ Real.sqrt z / 2 ^ 53 := by
  obtain ⟨b, hb⟩ := is_conv' ha.1 (f32_to_f64 ha.2)
  rw [hb]
  rcases hz.eq_or_lt with rfl | hz
  · exact ⟨0, ⟨b, sqrt_zero⟩, le_rfl, by simp⟩
  · obtain ⟨s, s1, s2⟩ := sqrt_err (F := f64) (s := b) hz (by
      obtain ⟨n, e, h1, h2, h3, h4⟩ := ha.2
      have hn : 1 ≤ n := by
        by_contra hc
        have : (n:ℚ) ≤ 0 := by exact_mod_cast (by omega : n ≤ 0)
        have hp : (0:ℚ) < 2 ^ e := by positivity
        rw [h1] at hz
        nlinarith
      have : (2:ℚ) ^ (-149:ℤ) ≤ z := by
        rw [h1]
        have hp : (2:ℚ) ^ (-149:ℤ) ≤ 2 ^ e := zpow_le_zpow_right₀ (by norm_num) (by exact h3)
        have hn' : (1:ℚ) ≤ n := by exact_mod_cast hn
        nlinarith [show (0:ℚ) < 2 ^ e by positivity]
      have hl : (-149:ℤ) ≤ Int.log 2 z := by
        rw [← Int.zpow_le_iff_le_log (by norm_num) hz]
        exact_mod_cast this
      have h3 : f64.emin + f64.t ≤ -75 := by decide
      omega)
    have s3 : |(s:ℝ) - Real.sqrt z| ≤ Real.sqrt z / 2 ^ 53 := s2
    refine ⟨s, ⟨false, s1⟩, ?_, s3⟩
    have h5 : 0 < Real.sqrt z := Real.sqrt_pos.2 (by exact_mod_cast hz)
    have h6 := (abs_le.1 s3).1
    have : (0:ℝ) ≤ s := by
      have : Real.sqrt z / 2 ^ 53 < Real.sqrt z := div_lt_self h5 (by norm_num)
      linarith
    exact_mod_cast this

/-- the sum of two squares in `float` -/
theorem squares_err {a b : FV} {x y : ℚ} (ha : f32.Val a x) (hb : f32.Val b y) (hx : |x| ≤ 2 ^ 50) (hy : |y| ≤ 2 ^ 50) :
    ∃ z, f32.Val (f32.add (f32.mul a a) (f32.mul b b)) z ∧ 0 ≤ z ∧ |z - (x * x + y * y)| ≤ 1 / 2 ^ 22 * (x * x + y * y) + 1 / 2 ^ 148 := by
  have sq : ∀ {c : FV} {t : ℚ}, f32.Val c t → |t| ≤ 2 ^ 50 → ∃ z, f32.Val (f32.mul c c) z ∧ |z - t * t| ≤ 1 / 2 ^ 24 * (t * t) + 1 / 2 ^ 150 ∧ t * t ≤ 2 ^ 100 ∧ 0 ≤ z := by
    intro c t hc ht
    have h1 : |t * t| ≤ 2 ^ 100 := by
      rw [abs_mul]
      calc |t| * |t| ≤ 2 ^ 50 * 2 ^ 50 := mul_le_mul ht ht (abs_nonneg _) (by norm_num)
        _ = 2 ^ 100 := by norm_num
    obtain ⟨z, z1, z2, z0⟩ : ∃ z, f32.Val (f32.mul c c) z ∧ |z - t * t| ≤ f32.u * |t * t| + f32.eta ∧ 0 ≤ z :=
      ⟨f32.rv (t * t), good_val (good_mul f32 c c) (rnd_mul hc.1 hc.1 (rv_lt' (by
        rw [f32_u, f32_eta, f32_max]
        generalize |t * t| = X at *
        norm_num at h1 ⊢
        linarith))), rv_bound f32 _, rv_nonneg (mul_self_nonneg t)⟩
    rw [f32_u, f32_eta, abs_of_nonneg (mul_self_nonneg t)] at z2
    rw [abs_of_nonneg (mul_self_nonneg t)] at h1
    refine ⟨z, z1, ?_, h1, z0⟩
    generalize t * t = X at *
    norm_num at z2 ⊢
    linarith
  obtain ⟨p, p1, p2, p3, p4⟩ := sq ha hx
  obtain ⟨q, q1, q2, q3, q4⟩ := sq hb hy
  have x0 := mul_self_nonneg x
  have y0 := mul_self_nonneg y
  have pq : |(p + q) - (x * x + y * y)| ≤ 1 / 2 ^ 24 * (x * x + y * y) + 1 / 2 ^ 149 := by
    have e : (p + q) - (x * x + y * y) = (p - x * x) + (q - y * y) := by ring
    rw [e]
    refine le_trans (abs_add_le _ _) ?_
    generalize x * x = X at *
    generalize y * y = Y at *
    norm_num at p2 q2 ⊢
    linarith
  have ps : |p + q| ≤ (1 + 1 / 2 ^ 24) * (x * x + y * y) + 1 / 2 ^ 149 := by
    have := abs_add_le ((p + q) - (x * x + y * y)) (x * x + y * y)
    rw [sub_add_cancel, abs_of_nonneg (by linarith : 0 ≤ x * x + y * y)] at this
    generalize x * x = X at *
    generalize y * y = Y at *
    norm_num at pq this ⊢
    linarith
  have e := rv_grid (F := f32) (grid_add (rep_grid p1.2) (rep_grid q1.2))
  obtain ⟨z, z1, z2, z0⟩ : ∃ z, f32.Val (f32.add (f32.mul a a) (f32.mul b b)) z ∧ |z - (p + q)| ≤ f32.u * |p + q| ∧ 0 ≤ z :=
    ⟨f32.rv (p + q), good_val (good_add f32 _ _) (rnd_add p1.1 q1.1 (rv_lt e (by
      rw [f32_u, f32_max]
      generalize x * x = X at *
      generalize y * y = Y at *
      norm_num at ps p3 q3 ⊢
      linarith))), e, rv_nonneg (by linarith)⟩
  rw [f32_u] at z2
  have hz : |z - (x * x + y * y)| ≤ 1 / 2 ^ 22 * (x * x + y * y) + 1 / 2 ^ 148 := by
    have e : z - (x * x + y * y) = (z - (p + q)) + ((p + q) - (x * x + y * y)) := by ring
    rw [e]
    refine le_trans (abs_add_le _ _) ?_
    generalize x * x = X at *
    generalize y * y = Y at *
    norm_num at z2 pq ps ⊢
    linarith
  exact ⟨z, z1, z0, hz⟩

/-- the value of the spectrum: the length of the vector (`x`, `y`) divided by the root of `n` -/
theorem specValue_err {a b : FV} {x y : ℚ} {n : Nat} (ha : f32.Val a x) (hb : f32.Val b y) (hx : |x| ≤ 2 ^ 50) (hy : |y| ≤ 2 ^ 50) (h1 : 1 ≤ n) (h2 : n ≤ 2147483647) :
    ∃ w, f32.Val (specValue a b n) w ∧ |(w:ℝ) - Real.sqrt ((x:ℝ) ^ 2 + y ^ 2) / Real.sqrt n| ≤ 1 / 2 ^ 20 * (Real.sqrt ((x:ℝ) ^ 2 + y ^ 2) / Real.sqrt n) + 1 / 2 ^ 70 := by
  obtain ⟨z, z1, z0, z2⟩ := squares_err ha hb hx hy
  obtain ⟨s, s1, s0, s2⟩ := sqrt_float z1 z0
  obtain ⟨r, r1, r0, r2⟩ := sqrt_int h1 h2
  have hr1 : (1:ℝ) ≤ Real.sqrt n := by rw [Real.one_le_sqrt]; exact_mod_cast h1
  have hN : (0:ℝ) ≤ (x:ℝ) ^ 2 + y ^ 2 := by positivity
  have zr : |(z:ℝ) - ((x:ℝ) ^ 2 + y ^ 2)| ≤ 1 / 2 ^ 22 * ((x:ℝ) ^ 2 + y ^ 2) + (1 / 2 ^ 74) ^ 2 := by
    have := cast_abs_le z2
    push_cast at this
    rw [sq, sq]
    norm_num at this ⊢
    exact this
  have sm := sqrt_mixed (by exact_mod_cast z0) hN (by norm_num) zr (by norm_num) (by norm_num)
  have hs0 := Real.sqrt_nonneg ((x:ℝ) ^ 2 + y ^ 2)
  have hle : Real.sqrt ((x:ℝ) ^ 2 + y ^ 2) ≤ 2 ^ 51 := by
    rw [Real.sqrt_le_left (by norm_num)]
    have c1 := cast_abs_le hx
    have c2 := cast_abs_le hy
    push_cast at c1 c2
    have d1 : (x:ℝ) ^ 2 ≤ (2 ^ 50) ^ 2 := sq_le_sq' (abs_le.1 c1).1 (abs_le.1 c1).2
    have d2 : (y:ℝ) ^ 2 ≤ (2 ^ 50) ^ 2 := sq_le_sq' (abs_le.1 c2).1 (abs_le.1 c2).2
    norm_num at d1 d2 ⊢
    linarith
  generalize Real.sqrt ((x:ℝ) ^ 2 + y ^ 2) = H at *
  have hsH : |(s:ℝ) - H| ≤ (1 / 2 ^ 22 + 1 / 2 ^ 50) * H + 1 / 2 ^ 72 := by
    have e : (s:ℝ) - H = (s - Real.sqrt z) + (Real.sqrt z - H) := by ring
    rw [e]
    refine le_trans (abs_add_le _ _) ?_
    have g := (abs_le.1 sm).2
    generalize Real.sqrt (z:ℝ) = Z at *
    norm_num at s2 sm g ⊢
    linarith
  have sb : |s| ≤ 2 ^ 60 := by
    have : ((|s| : ℚ) : ℝ) ≤ ((2 ^ 60 : ℚ) : ℝ) := by
      rw [Rat.cast_abs]
      have := abs_add_le ((s:ℝ) - H) H
      rw [sub_add_cancel, abs_of_nonneg hs0] at this
      push_cast
      norm_num at this hsH hle ⊢
      linarith
    exact_mod_cast this
  have hr0 : 0 < Real.sqrt n := by linarith
  obtain ⟨w, w1, w2⟩ := div_conv_err s1 r1 r0 hr1 (le_trans r2 (by apply div_le_div_of_nonneg_left hr0.le <;> norm_num)) sb
  refine ⟨w, w1, ?_⟩
  generalize Real.sqrt (n:ℝ) = ρ at *
  have hsr : |(s:ℝ)| = s := abs_of_nonneg (by exact_mod_cast s0)
  rw [hsr] at w2
  have e : (w:ℝ) - H / ρ = (w - s / ρ) + (s - H) / ρ := by ring
  rw [e]
  refine le_trans (abs_add_le _ _) ?_
  rw [abs_div, abs_of_pos hr0]
  have hq0 : 0 ≤ H / ρ := by positivity
  have d1 : |(s:ℝ) - H| / ρ ≤ (1 / 2 ^ 22 + 1 / 2 ^ 50) * (H / ρ) + 1 / 2 ^ 72 := by
    have g1 := div_le_div_of_nonneg_right hsH hr0.le
    have g2 : (1 / 2 ^ 72 : ℝ) / ρ ≤ 1 / 2 ^ 72 := div_le_self (by norm_num) hr1
    have g3 : ((1 / 2 ^ 22 + 1 / 2 ^ 50) * H + 1 / 2 ^ 72) / ρ = (1 / 2 ^ 22 + 1 / 2 ^ 50) * (H / ρ) + 1 / 2 ^ 72 / ρ := by ring
    rw [g3] at g1
    linarith
  have d2 : (s:ℝ) / ρ ≤ 2 * (H / ρ) + 1 / 2 ^ 72 := by
    have g0 : (s:ℝ) ≤ 2 * H + 1 / 2 ^ 72 := by
      have := (abs_le.1 hsH).2
      norm_num at this ⊢
      linarith
    have g1 := div_le_div_of_nonneg_right g0 hr0.le
    have g2 : (1 / 2 ^ 72 : ℝ) / ρ ≤ 1 / 2 ^ 72 := div_le_self (by norm_num) hr1
    have g3 : (2 * H + 1 / 2 ^ 72) / ρ = 2 * (H / ρ) + 1 / 2 ^ 72 / ρ := by ring
    rw [g3] at g1
    linarith
  generalize (s:ℝ) / ρ = Q1 at *
  generalize |(s:ℝ) - H| / ρ = Q2 at *
  generalize H / ρ = Q at *
  norm_num at w2 d1 d2 ⊢
  linarith

end HyperCV
