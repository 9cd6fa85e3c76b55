import Verif.Proof.SpecError
import Verif.Proof.FloatError
import Mathlib.Data.Real.Archimedean

namespace HyperCV

/-! Values known up to an error relative to a bound of their magnitude: `Ap v v' X B k` says that the doubles `v` and `v'` are equal (perhaps zeros of different
sign), and are the real `X`, of magnitude at most `B`, up to `k` units of `B / 2^52`. -/

def Ap (v v' : FV) (X B : ℝ) (k : Nat) : Prop := |X| ≤ B ∧ ∃ z : ℚ, v.Is z ∧ v'.Is z ∧ |(z:ℝ) - X| ≤ B * k / 2 ^ 52

theorem rv_bound_real (q : ℚ) : |((f64.rv q : ℚ) : ℝ) - q| ≤ |(q:ℝ)| / 2 ^ 53 + 1 / 2 ^ 500 := by
  have b := rv_bound f64 q
  have he : f64.eta ≤ 1 / 2 ^ 500 := by
    rw [f64_eta]
    have h : (2:ℚ) ^ (-1074 : ℤ) ≤ 2 ^ (-500:ℤ) := zpow_le_zpow_right₀ (by norm_num) (by norm_num)
    have h2 : (2:ℚ) ^ (-500:ℤ) = 1 / 2 ^ 500 := by rw [zpow_neg, one_div]; norm_cast
    rw [← h2]
    first
      | exact h
      | (refine le_trans ?_ h; linarith [zpow_pos (show (0:ℚ) < 2 by norm_num) (-1074)])
  rw [f64_u] at b
  have b' : |f64.rv q - q| ≤ |q| / 2 ^ 53 + 1 / 2 ^ 500 := by
    refine le_trans b ?_
    refine add_le_add (le_of_eq ?_) he
    ring
  have b2 : ((|f64.rv q - q| : ℚ) : ℝ) ≤ ((|q| / 2 ^ 53 + 1 / 2 ^ 500 : ℚ) : ℝ) := Rat.cast_le.2 b'
  rw [Rat.cast_abs, Rat.cast_sub, Rat.cast_add, Rat.cast_div, Rat.cast_div, Rat.cast_abs, Rat.cast_pow, Rat.cast_pow, Rat.cast_one] at b2
  exact b2

/-- rounding a value known up to `k` units adds one unit -/
theorem ap_round {q : ℚ} {X B : ℝ} {k : Nat} (hX : |X| ≤ B) (h : |(q:ℝ) - X| ≤ B * k / 2 ^ 52) (hk : k ≤ 1000) (hB : 1 / 2 ^ 400 ≤ B) (hB' : B ≤ 2 ^ 400) :
    |((f64.rv q : ℚ) : ℝ) - X| ≤ B * (k + 1 : Nat) / 2 ^ 52 ∧ |f64.rv q| < 2 ^ (2 ^ (f64.w - 1)) := by
  have hk' : (k:ℝ) ≤ 1000 := by exact_mod_cast hk
  have hB0 : 0 < B := lt_of_lt_of_le (by positivity) hB
  have hq : |(q:ℝ)| ≤ B + B * k / 2 ^ 52 := by
    have := abs_add_le ((q:ℝ) - X) X
    rw [sub_add_cancel] at this
    linarith
  have hBk : B * k ≤ B * 1000 := mul_le_mul_of_nonneg_left hk' hB0.le
  have b := rv_bound_real q
  have e1 : (1:ℝ) / 2 ^ 500 ≤ B / 2 ^ 100 := by
    have : (1:ℝ) / 2 ^ 500 = 1 / 2 ^ 400 / 2 ^ 100 := by
      rw [div_div, ← pow_add]
    rw [this]
    exact div_le_div_of_nonneg_right hB (by positivity)
  have e2 : B / 2 ^ 100 ≤ B / 2 ^ 60 := by
    refine div_le_div_of_nonneg_left hB0.le (by positivity) (by norm_num)
  have main : |((f64.rv q : ℚ) : ℝ) - q| ≤ B / 2 ^ 52 := by
    refine le_trans b ?_
    have : |(q:ℝ)| / 2 ^ 53 + 1 / 2 ^ 500 ≤ (B + B * 1000 / 2 ^ 52) / 2 ^ 53 + B / 2 ^ 60 := by
      refine add_le_add (div_le_div_of_nonneg_right (le_trans hq ?_) (by positivity)) (le_trans e1 e2)
      have := div_le_div_of_nonneg_right hBk (show (0:ℝ) ≤ 2 ^ 52 by positivity)
      linarith
    refine le_trans this ?_
    norm_num
    linarith
  constructor
  · have := abs_add_le (((f64.rv q : ℚ) : ℝ) - q) ((q:ℝ) - X)
    rw [sub_add_sub_cancel] at this
    refine le_trans this (le_trans (add_le_add main h) (le_of_eq ?_))
    push_cast
    ring
  · have h1 : |((f64.rv q : ℚ) : ℝ)| ≤ B * 4 := by
      have := abs_add_le (((f64.rv q : ℚ) : ℝ) - q) q
      rw [sub_add_cancel] at this
      have h2 : B * k / 2 ^ 52 ≤ B * 1000 / 2 ^ 52 := div_le_div_of_nonneg_right hBk (by positivity)
      norm_num at h2 hq main
      linarith
    have h3 : |((f64.rv q : ℚ) : ℝ)| < 2 ^ 1024 := by
      refine lt_of_le_of_lt h1 (lt_of_le_of_lt (b := 2 ^ 402) ?_ (pow_lt_pow_right₀ (by norm_num) (by norm_num)))
      have : (2:ℝ) ^ 402 = 2 ^ 400 * 4 := by rw [show (402:ℕ) = 400 + 2 by norm_num, pow_add]; norm_num
      rw [this]
      linarith
    have h4 : |f64.rv q| < 2 ^ 1024 := by exact_mod_cast h3
    rw [f64_max]
    exact h4

theorem Ap.mul {a a' b b' : FV} {X Y B D : ℝ} {k l : Nat} (ha : Ap a a' X B k) (hb : Ap b b' Y D l) (hk : k ≤ 100) (hl : l ≤ 100) (h1 : 1 / 2 ^ 400 ≤ B * D) (h2 : B * D ≤ 2 ^ 400) :
    Ap (f64.mul a b) (f64.mul a' b') (X * Y) (B * D) (k + l + 2) := by
  obtain ⟨hX, x, hx, hx', ex⟩ := ha
  obtain ⟨hY, y, hy, hy', ey⟩ := hb
  have hB : 0 ≤ B := le_trans (abs_nonneg _) hX
  have hD : 0 ≤ D := le_trans (abs_nonneg _) hY
  have hk' : (k:ℝ) ≤ 100 := by exact_mod_cast hk
  have hl' : (l:ℝ) ≤ 100 := by exact_mod_cast hl
  have hXY : |X * Y| ≤ B * D := by rw [abs_mul]; exact mul_le_mul hX hY (abs_nonneg _) hB
  have hxa : |(x:ℝ)| ≤ B + B * k / 2 ^ 52 := by
    have := abs_add_le ((x:ℝ) - X) X
    rw [sub_add_cancel] at this
    linarith
  have e : |((x * y : ℚ) : ℝ) - X * Y| ≤ B * D * (k + l + 1 : Nat) / 2 ^ 52 := by
    have e1 : ((x * y : ℚ) : ℝ) - X * Y = x * (y - Y) + (x - X) * Y := by push_cast; ring
    rw [e1]
    refine le_trans (abs_add_le _ _) ?_
    rw [abs_mul, abs_mul]
    have t1 : |(x:ℝ)| * |(y:ℝ) - Y| ≤ (B + B * k / 2 ^ 52) * (D * l / 2 ^ 52) := mul_le_mul hxa ey (abs_nonneg _) (by positivity)
    have t2 : |(x:ℝ) - X| * |Y| ≤ B * k / 2 ^ 52 * D := mul_le_mul ex hY (abs_nonneg _) (by positivity)
    have t3 : (B + B * k / 2 ^ 52) * (D * l / 2 ^ 52) + B * k / 2 ^ 52 * D = B * D * (k + l + (k * l : ℝ) / 2 ^ 52) / 2 ^ 52 := by ring
    refine le_trans (add_le_add t1 t2) ?_
    rw [t3]
    refine div_le_div_of_nonneg_right (mul_le_mul_of_nonneg_left ?_ (mul_nonneg hB hD)) (by positivity)
    push_cast
    have : (k * l : ℝ) / 2 ^ 52 ≤ 1 := by
      rw [div_le_one (by positivity)]
      calc (k * l : ℝ) ≤ 100 * 100 := mul_le_mul hk' hl' (by positivity) (by norm_num)
        _ ≤ 2 ^ 52 := by norm_num
    linarith
  obtain ⟨r1, r2⟩ := ap_round hXY e (by omega) h1 h2
  exact ⟨hXY, _, rnd_mul hx hy r2, rnd_mul hx' hy' r2, r1⟩

theorem Ap.add {a a' b b' : FV} {X Y B D : ℝ} {k l : Nat} (ha : Ap a a' X B k) (hb : Ap b b' Y D l) (hk : k ≤ 100) (hl : l ≤ 100) (h1 : 1 / 2 ^ 400 ≤ B + D) (h2 : B + D ≤ 2 ^ 400) :
    Ap (f64.add a b) (f64.add a' b') (X + Y) (B + D) (max k l + 1) := by
  obtain ⟨hX, x, hx, hx', ex⟩ := ha
  obtain ⟨hY, y, hy, hy', ey⟩ := hb
  have hB : 0 ≤ B := le_trans (abs_nonneg _) hX
  have hD : 0 ≤ D := le_trans (abs_nonneg _) hY
  have hXY : |X + Y| ≤ B + D := le_trans (abs_add_le _ _) (add_le_add hX hY)
  have e : |((x + y : ℚ) : ℝ) - (X + Y)| ≤ (B + D) * (max k l : Nat) / 2 ^ 52 := by
    have e1 : ((x + y : ℚ) : ℝ) - (X + Y) = (x - X) + (y - Y) := by push_cast; ring
    rw [e1]
    refine le_trans (abs_add_le _ _) (le_trans (add_le_add ex ey) ?_)
    rw [← add_div, add_mul]
    refine div_le_div_of_nonneg_right (add_le_add (mul_le_mul_of_nonneg_left ?_ hB) (mul_le_mul_of_nonneg_left ?_ hD)) (by positivity)
    · exact_mod_cast le_max_left k l
    · exact_mod_cast le_max_right k l
  obtain ⟨r1, r2⟩ := ap_round hXY e (by omega) h1 h2
  exact ⟨hXY, _, rnd_add hx hy r2, rnd_add hx' hy' r2, r1⟩

theorem Ap.neg {a a' : FV} {X B : ℝ} {k : Nat} (ha : Ap a a' X B k) : Ap a.neg a'.neg (-X) B k := by
  obtain ⟨hX, x, hx, hx', ex⟩ := ha
  refine ⟨by rwa [abs_neg], -x, ?_, ?_, ?_⟩
  · obtain ⟨s, rfl⟩ := hx
    exact ⟨_, rfl⟩
  · obtain ⟨s, rfl⟩ := hx'
    exact ⟨_, rfl⟩
  · rw [← abs_neg] at ex
    convert ex using 2
    push_cast
    ring

theorem Ap.sub {a a' b b' : FV} {X Y B D : ℝ} {k l : Nat} (ha : Ap a a' X B k) (hb : Ap b b' Y D l) (hk : k ≤ 100) (hl : l ≤ 100) (h1 : 1 / 2 ^ 400 ≤ B + D) (h2 : B + D ≤ 2 ^ 400) :
    Ap (f64.sub a b) (f64.sub a' b') (X - Y) (B + D) (max k l + 1) := by
  rw [sub_eq_add_neg]
  exact Ap.add ha hb.neg hk hl h1 h2

/-- a quotient by a value known up to `2^-50` -/
theorem Ap.div {a a' p p' : FV} {M P : ℚ} {W B : ℝ} (ha : a.Is M) (ha' : a'.Is M) (hp : p.Is P) (hp' : p'.Is P) (hW : 0 < W) (hP : |(P:ℝ) - W| ≤ W / 2 ^ 50) (hB : |(M:ℝ) / W| ≤ B) (h1 : 1 / 2 ^ 400 ≤ B)
    (h2 : B ≤ 2 ^ 400) : Ap (f64.div a p) (f64.div a' p') (M / W) B 6 := by
  have hP' := abs_le.1 hP
  have hP0 : W * (1 - 1 / 2 ^ 50) ≤ P := by linarith [hP'.1]
  have hPpos : (0:ℝ) < P := lt_of_lt_of_le (mul_pos hW (by norm_num)) hP0
  have hPq : P ≠ 0 := by
    intro h; rw [h] at hPpos; simp at hPpos
  have e : |((M / P : ℚ) : ℝ) - M / W| ≤ B * (5 : Nat) / 2 ^ 52 := by
    have e1 : ((M / P : ℚ) : ℝ) - M / W = (M / W) * ((W - P) / P) := by
      push_cast
      field_simp
    rw [e1, abs_mul]
    have t : |(W - P) / (P:ℝ)| ≤ 5 / 2 ^ 52 := by
      rw [abs_div, abs_of_pos hPpos, div_le_iff₀ hPpos, abs_sub_comm]
      refine le_trans hP ?_
      have : 5 / 2 ^ 52 * (W * (1 - 1 / 2 ^ 50)) ≤ 5 / 2 ^ 52 * (P:ℝ) := mul_le_mul_of_nonneg_left hP0 (by positivity)
      refine le_trans ?_ this
      norm_num
      linarith
    calc |(M:ℝ) / W| * |(W - P) / (P:ℝ)| ≤ B * (5 / 2 ^ 52) := mul_le_mul hB t (abs_nonneg _) (le_trans (abs_nonneg _) hB)
      _ = B * (5 : Nat) / 2 ^ 52 := by push_cast; ring
  obtain ⟨r1, r2⟩ := ap_round hB e (by omega) h1 h2
  exact ⟨hB, _, rnd_div ha hp hPq r2, rnd_div ha' hp' hPq r2, r1⟩

/-- a constant -/
theorem ap_const {q : ℚ} {B : ℝ} (s : Bool) (h : |(q:ℝ)| ≤ B) : Ap (.fin s q) (.fin s q) q B 0 := ⟨h, q, ⟨s, rfl⟩, ⟨s, rfl⟩, by simp⟩

end HyperCV
