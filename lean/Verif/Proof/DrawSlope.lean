/- The row that `draw_line` computes for a column, for any slope: rounding errors. -/
import Verif.Proof.Magnitude
import Verif.Props.Draw

namespace HyperCV
open Spec

theorem lim32 {q : ℚ} (h : |q| ≤ 2 ^ 60) : (1 + f32.u) * |q| + f32.eta < 2 ^ (2 ^ (f32.w - 1)) := by
  rw [f32_u, f32_eta, f32_max]
  have : (1:ℚ) / 2 ^ 150 ≤ 1 := by norm_num
  have := abs_nonneg q
  norm_num at *
  linarith

theorem lim32' {q : ℚ} (h : |q| ≤ 2 ^ 60) : (1 + f32.u) * |q| < 2 ^ (2 ^ (f32.w - 1)) :=
  lt_of_le_of_lt (by have := eta_pos f32; linarith) (lim32 h)

/-- division -/
theorem div32_err {a b : FV} {x y : ℚ} (ha : a.Is x) (hb : b.Is y) (hy : y ≠ 0) (h : |x / y| ≤ 2 ^ 60) :
    ∃ z, f32.Val (f32.div a b) z ∧ |z - x / y| ≤ 1 / 2 ^ 24 * |x / y| + 1 / 2 ^ 150 := by
  have := val_div (F := f32) ha hb hy (lim32 h)
  rwa [f32_u, f32_eta] at this

/-- multiplication of a rounded slope `k'` and a coordinate -/
theorem mulSlope_err {a b : FV} {k k' x : ℚ} (ha : a.Is k') (hb : b.Is x) (hk : |k' - k| ≤ 1 / 2 ^ 24 * |k| + 1 / 2 ^ 150) (hx : |x| ≤ 2 ^ 13)
    (hkb : |k| ≤ 2 ^ 14) : (∃ z, f32.Val (f32.mul a b) z ∧ |z - k * x| ≤ 3 / 2 ^ 24 * |k * x| + 1 / 2 ^ 100) ∧
    ∃ z, f32.Val (f32.mul b a) z ∧ |z - k * x| ≤ 3 / 2 ^ 24 * |k * x| + 1 / 2 ^ 100 := by
  have e1 : |k' * x - k * x| ≤ 1 / 2 ^ 24 * |k * x| + 1 / 2 ^ 137 := by
    rw [← sub_mul, abs_mul, abs_mul]
    have h0 := abs_nonneg x
    have h1 := mul_le_mul_of_nonneg_right hk h0
    have h2 : 1 / 2 ^ 150 * |x| ≤ (1:ℚ) / 2 ^ 137 := by
      calc 1 / 2 ^ 150 * |x| ≤ (1:ℚ) / 2 ^ 150 * 2 ^ 13 := mul_le_mul_of_nonneg_left hx (by norm_num)
        _ = 1 / 2 ^ 137 := by norm_num
    linarith [h1, h2]
  have hb1 : |k * x| ≤ 2 ^ 27 := by
    rw [abs_mul]
    calc |k| * |x| ≤ 2 ^ 14 * 2 ^ 13 := mul_le_mul hkb hx (abs_nonneg _) (by norm_num)
      _ = 2 ^ 27 := by norm_num
  have e2 : |k' * x| ≤ |k * x| + (1 / 2 ^ 24 * |k * x| + 1 / 2 ^ 137) := by
    have := abs_add_le (k' * x - k * x) (k * x)
    rw [sub_add_cancel] at this
    linarith
  have hp := abs_nonneg (k * x)
  have key : ∀ z, |z - k' * x| ≤ f32.u * |k' * x| + f32.eta → |z - k * x| ≤ 3 / 2 ^ 24 * |k * x| + 1 / 2 ^ 100 := by
    intro z z2
    rw [f32_u, f32_eta] at z2
    have := abs_sub_le z (k' * x) (k * x)
    norm_num at *
    linarith
  have lim := lim32 (q := k' * x) (by norm_num at *; linarith)
  constructor
  · obtain ⟨z, z1, z2⟩ := val_mul (F := f32) ha hb lim
    exact ⟨z, z1, key z z2⟩
  · obtain ⟨z, z1, z2⟩ := val_mul (F := f32) hb ha (by rwa [mul_comm x])
    rw [mul_comm x] at z2
    exact ⟨z, z1, key z z2⟩

/-- a sum with operands that carry errors -/
theorem add32_err {a b : FV} {x y X Y d e : ℚ} (ha : f32.Val a x) (hb : f32.Val b y) (hd : |x - X| ≤ d) (he : |y - Y| ≤ e) (h : |X| + |Y| + d + e ≤ 2 ^ 60) :
    ∃ z, f32.Val (f32.add a b) z ∧ |z - (X + Y)| ≤ 1 / 2 ^ 24 * (|X| + |Y|) + 2 * (d + e) := by
  have h1 : |(x + y) - (X + Y)| ≤ d + e := by
    rw [show x + y - (X + Y) = (x - X) + (y - Y) by ring]
    exact le_trans (abs_add_le _ _) (by linarith)
  have h2 : |x + y| ≤ |X| + |Y| + d + e := by
    have := abs_add_le ((x + y) - (X + Y)) (X + Y)
    rw [sub_add_cancel] at this
    have := abs_add_le X Y
    linarith
  obtain ⟨z, z1, z2⟩ := val_add ha hb (lim32' (by linarith))
  rw [f32_u] at z2
  refine ⟨z, z1, ?_⟩
  have := abs_sub_le z (x + y) (X + Y)
  have d0 : 0 ≤ d := le_trans (abs_nonneg _) hd
  have e0 : 0 ≤ e := le_trans (abs_nonneg _) he
  norm_num at *
  linarith

theorem add64_half {a : FV} {x : ℚ} (ha : f64.Val a x) (h : |x| ≤ 2 ^ 60) :
    ∃ z, (f64.add a (.fin false (1 / 2))).Is z ∧ |z - (x + 1 / 2)| ≤ 1 / 2 ^ 52 * (|x| + 1) := by
  have hh : f64.Val (.fin false (1 / 2)) (1 / 2) := ⟨⟨_, rfl⟩, by simpa using rep64_half (n := 0) (by norm_num)⟩
  have h2 : |x + 1 / 2| ≤ |x| + 1 := by
    refine le_trans (abs_add_le _ _) ?_
    rw [show |(1:ℚ) / 2| = 1 / 2 by norm_num [abs_of_pos]]
    linarith
  obtain ⟨z, z1, z2⟩ := val_add ha hh (by
    rw [f64_u, f64_max]
    refine lt_of_le_of_lt (b := 2 ^ 62) ?_ (pow_lt_pow_right₀ (by norm_num) (by decide))
    norm_num at *
    linarith)
  rw [f64_u] at z2
  refine ⟨z, z1.1, le_trans z2 ?_⟩
  have x0 : 0 ≤ |x| + 1 := by have := abs_nonneg x; linarith
  have : (1:ℚ) / 2 ^ 53 * |x + 1 / 2| ≤ 1 / 2 ^ 53 * (|x| + 1) := mul_le_mul_of_nonneg_left h2 (by norm_num)
  norm_num at *
  linarith

namespace Spec
/-- the line has two end points in different rows, and all coordinates and the width of the image are at most 8192 -/
structure Moderate (C : Nat) (x1 y1 x2 y2 : ℤ) : Prop where
  rows : y1 ≠ y2
  x1 : |x1| ≤ 8192
  y1 : |y1| ≤ 8192
  x2 : |x2| ≤ 8192
  y2 : |y2| ≤ 8192
  cols : C ≤ 8192

/-- the slope as the code takes it: the difference of the columns divided by that of the rows -/
def lineSlope (x1 y1 x2 y2 : ℤ) : ℚ := ((x2 - x1 : ℤ) : ℚ) / ((y2 - y1 : ℤ) : ℚ)

/-- a bound for the rounding errors of the row in column `j` -/
def lineErr (x1 y1 x2 y2 : ℤ) (j : Nat) : ℚ := (|lineSlope x1 y1 x2 y2| * (j + |(x1:ℚ)|) + |(y1:ℚ)| + 1) / 2 ^ 20
end Spec

theorem slope_le {C : Nat} {x1 y1 x2 y2 : ℤ} (h : Moderate C x1 y1 x2 y2) : |lineSlope x1 y1 x2 y2| ≤ 2 ^ 14 := by
  have h1 := abs_le.1 h.x1
  have h2 := abs_le.1 h.x2
  have hd : 1 ≤ |y2 - y1| := Int.one_le_abs (by have := h.rows; omega)
  have hx : |x2 - x1| ≤ 2 ^ 14 := by rw [abs_le]; constructor <;> omega
  unfold lineSlope
  rw [abs_div, div_le_iff₀ (by have : (1:ℚ) ≤ |((y2 - y1 : ℤ) : ℚ)| := by exact_mod_cast hd
                               linarith)]
  have e1 : |((x2 - x1 : ℤ) : ℚ)| ≤ 2 ^ 14 := by exact_mod_cast hx
  have e2 : (1:ℚ) ≤ |((y2 - y1 : ℤ) : ℚ)| := by exact_mod_cast hd
  linarith

/-- the value of which the row is the whole part lies within the rounding errors of the exact one -/
theorem line_value {C : Nat} {x1 y1 x2 y2 : ℤ} (h : Moderate C x1 y1 x2 y2) {j : Nat} (hj : j < C) :
    ∃ z : ℚ, (f64.add (f64.conv (f32.add (f32.mul (f32.ofInt j) (f32.div (f32.ofInt (x2 - x1)) (f32.ofInt (y2 - y1))))
        (f32.sub (f32.ofInt y1) (f32.mul (f32.div (f32.ofInt (x2 - x1)) (f32.ofInt (y2 - y1))) (f32.ofInt x1))))) (.fin false (1 / 2))).Is z ∧
      |z - (y1 + lineSlope x1 y1 x2 y2 * (j - x1) + 1 / 2)| ≤ lineErr x1 y1 x2 y2 j := by
  have hk14 := slope_le h
  have h1 := abs_le.1 h.x1
  have h2 := abs_le.1 h.x2
  have h3 := abs_le.1 h.y1
  have h4 := abs_le.1 h.y2
  have hC := h.cols
  have q1 : |(x1:ℚ)| ≤ 2 ^ 13 := by have := h.x1; exact_mod_cast this
  have q3 : |(y1:ℚ)| ≤ 2 ^ 13 := by have := h.y1; exact_mod_cast this
  have qj : |(j:ℚ)| ≤ 2 ^ 13 := by rw [Nat.abs_cast]; exact_mod_cast (by omega : j ≤ 2 ^ 13)
  obtain ⟨k', k1, k2⟩ := div32_err (is_ofInt (rep32_int (n := x2 - x1) (by rw [abs_le]; constructor <;> omega)))
    (is_ofInt (rep32_int (n := y2 - y1) (by rw [abs_le]; constructor <;> omega)))
    (by have : y2 - y1 ≠ 0 := by have := h.rows; omega
        exact_mod_cast this) (by
      have : |lineSlope x1 y1 x2 y2| ≤ 2 ^ 60 := by norm_num at *; linarith
      exact this)
  change |k' - lineSlope x1 y1 x2 y2| ≤ 1 / 2 ^ 24 * |lineSlope x1 y1 x2 y2| + _ at k2
  generalize f32.div (f32.ofInt (x2 - x1)) (f32.ofInt (y2 - y1)) = kf at *
  have hrx := rep32_int (n := x1) (by rw [abs_le]; constructor <;> omega)
  have hry := rep32_int (n := y1) (by rw [abs_le]; constructor <;> omega)
  have hrj := rep32_int (n := (j:ℤ)) (by rw [abs_le]; constructor <;> omega)
  obtain ⟨⟨p, p1, p2⟩, -⟩ := mulSlope_err k1.1 (is_ofInt hrx) k2 q1 hk14
  obtain ⟨-, q, w1, w2⟩ := mulSlope_err (b := f32.ofInt (j:ℤ)) k1.1 (is_ofInt hrj) k2 (by exact_mod_cast qj) hk14
  rw [Int.cast_natCast] at w2
  have bx : |lineSlope x1 y1 x2 y2 * x1| ≤ 2 ^ 27 := by
    rw [abs_mul]
    calc _ ≤ (2:ℚ) ^ 14 * 2 ^ 13 := mul_le_mul hk14 q1 (abs_nonneg _) (by norm_num)
      _ = 2 ^ 27 := by norm_num
  have bj : |lineSlope x1 y1 x2 y2 * j| ≤ 2 ^ 27 := by
    rw [abs_mul]
    calc _ ≤ (2:ℚ) ^ 14 * 2 ^ 13 := mul_le_mul hk14 qj (abs_nonneg _) (by norm_num)
      _ = 2 ^ 27 := by norm_num
  have E : lineErr x1 y1 x2 y2 j = (|lineSlope x1 y1 x2 y2 * j| + |lineSlope x1 y1 x2 y2 * x1| + |(y1:ℚ)| + 1) / 2 ^ 20 := by
    unfold lineErr
    rw [abs_mul, abs_mul, Nat.abs_cast]
    ring
  rw [E, show (y1:ℚ) + lineSlope x1 y1 x2 y2 * (j - x1) + 1 / 2 = (lineSlope x1 y1 x2 y2 * j + (y1 + -(lineSlope x1 y1 x2 y2 * x1))) + 1 / 2 by ring]
  generalize lineSlope x1 y1 x2 y2 * j = J at *
  generalize lineSlope x1 y1 x2 y2 * x1 = X at *
  have J0 := abs_nonneg J
  have X0 := abs_nonneg X
  have Y0 := abs_nonneg (y1:ℚ)
  have p2' : |-p - -X| ≤ 3 / 2 ^ 24 * |X| + 1 / 2 ^ 100 := by
    rw [show -p - -X = -(p - X) by ring, abs_neg]; exact p2
  obtain ⟨b, b1, b2⟩ := add32_err (X := (y1:ℚ)) (d := 0) ⟨is_ofInt hry, hry⟩ (val_neg p1) (by simp) p2' (by
    rw [abs_neg]; norm_num at *; linarith)
  rw [abs_neg] at b2
  have bB : |(y1:ℚ) + -X| ≤ |(y1:ℚ)| + |X| := by
    have := abs_add_le (y1:ℚ) (-X)
    rwa [abs_neg] at this
  obtain ⟨s, s1, s2⟩ := add32_err w1 b1 w2 b2 (by norm_num at *; linarith)
  have s3 : |s| ≤ |J| + |(y1:ℚ) + -X| + (1 / 2 ^ 24 * (|J| + |(y1:ℚ) + -X|) + 2 * (3 / 2 ^ 24 * |J| + 1 / 2 ^ 100 +
      (1 / 2 ^ 24 * (|(y1:ℚ)| + |X|) + 2 * (0 + (3 / 2 ^ 24 * |X| + 1 / 2 ^ 100))))) := by
    have e1 := abs_add_le (s - (J + (y1 + -X))) (J + (y1 + -X))
    rw [sub_add_cancel] at e1
    have e2 := abs_add_le J ((y1:ℚ) + -X)
    linarith
  obtain ⟨z, z1, z2⟩ := add64_half (a := f64.conv _) ⟨is_conv s1.1 (f32_to_f64 s1.2), f32_to_f64 s1.2⟩ (by norm_num at *; linarith)
  refine ⟨z, z1, ?_⟩
  have f := abs_sub_le z (s + 1 / 2) (J + (y1 + -X) + 1 / 2)
  rw [show s + 1 / 2 - (J + (y1 + -X) + 1 / 2) = s - (J + (y1 + -X)) by ring] at f
  generalize |(y1:ℚ) + -X| = B at *
  generalize |z - (J + (y1 + -X) + 1 / 2)| = G at *
  generalize |s - (J + (y1 + -X))| = H at *
  generalize |z - (s + 1 / 2)| = I at *
  generalize |s| = s' at *
  generalize |J| = J' at *
  generalize |X| = X' at *
  generalize |(y1:ℚ)| = Y' at *
  clear w2 b2 p2 p2' k2 hk14 q1 q3 qj
  norm_num at *
  linarith

end HyperCV
