/- C47: lines of any slope. -/
import Verif.Proof.DrawSlope

namespace HyperCV
open Spec

namespace Spec
/-- the row `n` is `e`, rounded to a whole number, up to an error of `d`; rows above the image (negative ones) are rounded the wrong way, towards zero -/
structure RoundedRow (e d : ℚ) (n : ℤ) : Prop where
  low : -(1 / 2) - d ≤ n - e
  high : n - e ≤ 3 / 2 + d
  near : 0 < n ∨ -(1 / 2) + d ≤ e → |(n:ℚ) - e| ≤ 1 / 2 + d
end Spec

theorem tq_rounded {z e d : ℚ} (h : |z - (e + 1 / 2)| ≤ d) : RoundedRow e d (tq z) := by
  rw [abs_le] at h
  by_cases hz : 0 ≤ z
  · have hn : tq z = ⌊z⌋ := if_pos hz
    have f1 := Int.floor_le z
    have f2 := Int.lt_floor_add_one z
    rw [hn]
    refine ⟨by linarith, by linarith, fun _ => ?_⟩
    rw [abs_le]; constructor <;> linarith
  · have hn : tq z = -⌊-z⌋ := if_neg hz
    have f1 := Int.floor_le (-z)
    have f2 := Int.lt_floor_add_one (-z)
    have f3 : 0 ≤ ⌊-z⌋ := Int.floor_nonneg.2 (by linarith)
    rw [hn]
    refine ⟨by push_cast; linarith, by push_cast; linarith, ?_⟩
    rintro (h0 | h0)
    · omega
    · exfalso; linarith

section
variable {m : Mem} {sp dp R C ch : Nat} {px old : Nat → Nat → Nat → UInt8}

theorem lineErr_le {x1 y1 x2 y2 : ℤ} (h : Moderate C x1 y1 x2 y2) {j : Nat} (hj : j < C) :
    lineErr x1 y1 x2 y2 j ≤ (|lineSlope x1 y1 x2 y2| + 1) / 64 := by
  have hC := h.cols
  have q1 : |(x1:ℚ)| ≤ 2 ^ 13 := by have := h.x1; exact_mod_cast this
  have q3 : |(y1:ℚ)| ≤ 2 ^ 13 := by have := h.y1; exact_mod_cast this
  have qj : (j:ℚ) ≤ 2 ^ 13 := by exact_mod_cast (by omega : j ≤ 2 ^ 13)
  have := mul_le_mul_of_nonneg_left (show (j:ℚ) + |(x1:ℚ)| ≤ 2 ^ 14 by linarith) (abs_nonneg (lineSlope x1 y1 x2 y2))
  unfold lineErr
  rw [div_le_div_iff₀ (by norm_num) (by norm_num)]
  norm_num at *
  linarith

/-- the row of every column is defined and is the exact row, rounded, up to the rounding errors of `float` -/
theorem line_row_any {x1 y1 x2 y2 : ℤ} (h : Moderate C x1 y1 x2 y2) {j : Nat} (hj : j < C) :
    ∃ n, lineVal (f32.div (f32.ofInt (x2 - x1)) (f32.ofInt (y2 - y1)))
      (f32.sub (f32.ofInt y1) (f32.mul (f32.div (f32.ofInt (x2 - x1)) (f32.ofInt (y2 - y1))) (f32.ofInt x1))) j = some n ∧
      RoundedRow (y1 + lineSlope x1 y1 x2 y2 * (j - x1)) (lineErr x1 y1 x2 y2 j) n := by
  obtain ⟨z, z1, z2⟩ := line_value h hj
  have hr := tq_rounded z2
  refine ⟨tq z, ?_, hr⟩
  unfold lineVal
  rw [trunc_is z1, if_pos]
  have hk := slope_le h
  have he := lineErr_le h hj
  have hC := h.cols
  have q1 : |(x1:ℚ)| ≤ 2 ^ 13 := by have := h.x1; exact_mod_cast this
  have q3 := abs_le.1 (show |(y1:ℚ)| ≤ 2 ^ 13 by have := h.y1; exact_mod_cast this)
  have qj : |(j:ℚ)| ≤ 2 ^ 13 := by rw [Nat.abs_cast]; exact_mod_cast (by omega : j ≤ 2 ^ 13)
  have hp : |lineSlope x1 y1 x2 y2 * (j - x1)| ≤ 2 ^ 28 := by
    rw [abs_mul]
    have : |(j:ℚ) - x1| ≤ 2 ^ 14 := by
      have := abs_sub (j:ℚ) x1
      linarith
    calc _ ≤ (2:ℚ) ^ 14 * 2 ^ 14 := mul_le_mul hk this (abs_nonneg _) (by norm_num)
      _ = 2 ^ 28 := by norm_num
  have hp' := abs_le.1 hp
  have l := hr.low
  have u := hr.high
  generalize lineSlope x1 y1 x2 y2 * (j - x1) = P at *
  constructor
  · have : (-2147483648:ℚ) ≤ tq z := by norm_num at *; linarith
    exact_mod_cast this
  · have : (tq z : ℚ) ≤ 2147483647 := by norm_num at *; linarith
    exact_mod_cast this

namespace Spec
/-- the pixels drawn when the line has row `row j` in column `j` -/
def OnRows (C : Nat) (row : Nat → ℤ) (th r c : Nat) : Prop := ∃ j : Nat, j < C ∧ |(c:Int) - j| ≤ (th / 2 : Nat) ∧ (r:Int) = row j
end Spec

/-- **C47, lines of any slope**: for coordinates up to 8192 and end points in different rows the call returns and changes exactly the pixels of a line with one row
per column, which is `y1 + k * (j - x1)` with `k = (x2 - x1) / (y2 - y1)`, rounded, up to the stated error, and their neighbours up to half the thickness;
images that do not have three channels are only copied. -/
theorem C47_any_slope (a : DrawArgs m sp dp R C ch px old) {x1 y1 x2 y2 : ℤ} (h : Moderate C x1 y1 x2 y2) (color : RGB) {th : Nat}
    (hth : th ≤ 2147483647) (hthC : C + th / 2 ≤ 2147483647) :
    ∃ (m' : Mem) (out : Nat → Nat → Nat → UInt8) (row : Nat → ℤ),
      draw_line (some sp) (some dp) x1 y1 x2 y2 color th m = .ok ((), m') ∧ IsImage8 m' dp R C ch out ∧ OnlyPixels m m' dp ∧
      (∀ j, j < C → RoundedRow (y1 + lineSlope x1 y1 x2 y2 * (j - x1)) (lineErr x1 y1 x2 y2 j) (row j)) ∧
      ∀ r c q, r < R → c < C → q < ch →
        (ch = 3 ∧ OnRows C row th r c → out r c q = rgb color q) ∧ (¬ (ch = 3 ∧ OnRows C row th r c) → out r c q = px r c q) := by
  obtain ⟨sd, si, s1, s2⟩ := img8_lit a.src
  obtain ⟨dd, di, d1, d2⟩ := img8_lit a.dst
  have h1 := abs_le.1 h.x1
  have h2 := abs_le.1 h.x2
  have h3 := abs_le.1 h.y1
  have h4 := abs_le.1 h.y2
  have ex : ∀ j, ∃ n, j < C → lineVal (f32.div (f32.ofInt (x2 - x1)) (f32.ofInt (y2 - y1)))
      (f32.sub (f32.ofInt y1) (f32.mul (f32.div (f32.ofInt (x2 - x1)) (f32.ofInt (y2 - y1))) (f32.ofInt x1))) (j:Nat) = some n ∧
      RoundedRow (y1 + lineSlope x1 y1 x2 y2 * (j - x1)) (lineErr x1 y1 x2 y2 j) n := by
    intro j
    by_cases hj : j < C
    · obtain ⟨n, hn⟩ := line_row_any h hj
      exact ⟨n, fun _ => hn⟩
    · exact ⟨0, fun hj' => absurd hj' hj⟩
  choose row hrow using ex
  have hf := line_fills (m := m) (dd := dd) (R := R) (C := C) (ch := ch) a.size a.src.posCh color hth hthC (fun j hj => (hrow j hj).1)
  have e1 : (CI.lit x2 - CI.lit x1 : CI) = CI.lit (x2 - x1) := CI.sub_ok (by constructor <;> omega)
  have e2 : (CI.lit y2 - CI.lit y1 : CI) = CI.lit (y2 - y1) := CI.sub_ok (by constructor <;> omega)
  have hf2 : Fills (do
      let dx ← ev (CI.lit x2 - CI.lit x1)
      let dy ← ev (CI.lit y2 - CI.lit y1)
      let k := f32.div (f32.ofInt dx) (f32.ofInt dy)
      let b := f32.sub (f32.ofInt y1) (f32.mul k (f32.ofInt x1))
      forI 0 (R:Int) fun i => forI 0 (C:Int) fun j => lineStep dd C ch color th k b i j) m dd (R * C * ch) _ _ := Fills.bind (fun g => ev_ok e1 _) (Fills.bind (fun g => ev_ok e2 _) hf)
  obtain ⟨m', out, r1, r2, r3, r4⟩ := draw_fills (x := fun sd => do
      let dx ← ev (CI.lit x2 - CI.lit x1)
      let dy ← ev (CI.lit y2 - CI.lit y1)
      let k := f32.div (f32.ofInt dx) (f32.ofInt dy)
      let b := f32.sub (f32.ofInt y1) (f32.mul k (f32.ofInt x1))
      forI 0 sd.1.rows fun i => forI 0 sd.1.cols fun j => lineStep sd.2.data sd.1.cols sd.1.channels color th k b i j) a s1 d1 hf2
  refine ⟨m', out, row, r1, r2, r3, fun j hj => (hrow j hj).2, ?_⟩
  intro r c q hr hc hq
  obtain ⟨t1, t2⟩ := r4 r c q hr hc hq
  have hiff : (∃ i, i < R ∧ ∃ j, j < C ∧ ch = 3 ∧ (i:Int) = row j ∧ ∃ c' : Nat, c' < C ∧ |(c':Int) - (j:Nat)| ≤ (th / 2 : Nat) ∧
      OnPixel C ch i c' ((r * C + c) * ch + q)) ↔ (ch = 3 ∧ OnRows C row th r c) := by
    constructor
    · rintro ⟨i, hi, j, hj, h3, he, c', hc', hd, ho⟩
      obtain ⟨rfl, rfl⟩ := (onPixel_iff hc hc' hq).1 ho
      exact ⟨h3, j, hj, hd, he⟩
    · rintro ⟨h3, j, hj, hd, he⟩
      exact ⟨r, hr, j, hj, h3, he, c, hc, hd, (onPixel_iff hc hc hq).2 ⟨rfl, rfl⟩⟩
  constructor
  · intro hd
    rw [t1 (hiff.2 hd), mix_mod hq]
    obtain rfl := hd.1
    exact rgb_eq hq
  · intro hd
    exact t2 fun h' => hd (hiff.1 h')

/-- the row computed for the column of the second end point is off by more than one if the line is not diagonal -/
theorem slope_miss {x1 y1 x2 y2 : ℤ} (hy : y1 ≠ y2) (hd : |x2 - x1| ≠ |y2 - y1|) :
    |lineSlope x1 y1 x2 y2| + 1 ≤ |(y2:ℚ) - (y1 + lineSlope x1 y1 x2 y2 * (x2 - x1))| := by
  have hdy : ((y2 - y1 : ℤ) : ℚ) ≠ 0 := by exact_mod_cast (by omega : y2 - y1 ≠ 0)
  unfold lineSlope
  have e : (y2:ℚ) - (y1 + ((x2 - x1 : ℤ) : ℚ) / ((y2 - y1 : ℤ) : ℚ) * (x2 - x1)) =
      (((y2 - y1 : ℤ) : ℚ) ^ 2 - ((x2 - x1 : ℤ) : ℚ) ^ 2) / ((y2 - y1 : ℤ) : ℚ) := by
    field_simp
    push_cast
    ring
  rw [e]
  generalize x2 - x1 = u at *
  generalize y2 - y1 = v at *
  rw [abs_div, abs_div, ← sub_nonneg]
  have hv : 0 < |(v:ℚ)| := abs_pos.2 hdy
  have key : |(u:ℚ)| + |(v:ℚ)| ≤ |(v:ℚ) ^ 2 - (u:ℚ) ^ 2| := by
    have i1 : |u| + |v| ≤ |v ^ 2 - u ^ 2| := by
      rw [show v ^ 2 - u ^ 2 = (|v| - |u|) * (|v| + |u|) by
        rw [← sq_abs v, ← sq_abs u]; ring]
      rw [abs_mul, abs_of_nonneg (a := |v| + |u|) (by positivity)]
      have : 1 ≤ |(|v| - |u|)| := Int.one_le_abs (by omega)
      have h0 : 0 ≤ |v| + |u| := by positivity
      nlinarith
    exact_mod_cast i1
  rw [sub_nonneg, div_add_one hv.ne']
  exact div_le_div_of_nonneg_right key hv.le

/-- C47 is false for all slopes: unless the line is diagonal its second end point, an image pixel outside the first row, is not drawn. -/
theorem C47_refuted_end_point_any (a : DrawArgs m sp dp R C 3 px old) {x1 y1 : ℤ} {x2 y2 : Nat} (h : Moderate C x1 y1 x2 y2)
    (hdiag : |(x2:ℤ) - x1| ≠ |(y2:ℤ) - y1|) (color : RGB) {th : Nat} (hth : th ≤ 1) (hx : x2 < C) (hy : y2 < R) (hy1 : 1 ≤ y2) :
    ∃ m' out, draw_line (some sp) (some dp) x1 y1 x2 y2 color th m = .ok ((), m') ∧ IsImage8 m' dp R C 3 out ∧
      ∀ q, q < 3 → out y2 x2 q = px y2 x2 q := by
  have hC := h.cols
  obtain ⟨m', out, row, r1, r2, -, r3, r4⟩ := C47_any_slope a h color (th := th) (by omega) (by omega)
  refine ⟨m', out, r1, r2, ?_⟩
  intro q hq
  refine (r4 y2 x2 q hy hx hq).2 ?_
  rintro ⟨-, j, hj, hd, he⟩
  have h0 : th / 2 = 0 := by omega
  rw [h0] at hd
  have hjx : j = x2 := by
    have := abs_nonpos_iff.1 hd; omega
  subst hjx
  have n1 := (r3 j hj).near (Or.inl (by omega))
  have n2 := slope_miss h.rows hdiag
  have n3 := lineErr_le h hj
  rw [← he] at n1
  have n4 := abs_nonneg (lineSlope x1 y1 j y2)
  push_cast at n1 n2
  generalize |(y2:ℚ) - (y1 + lineSlope x1 y1 j y2 * (j - x1))| = D at *
  linarith

/-- **C47**, a part that holds for all slopes: the first end point, if it is a pixel of a colour image, is drawn; the columns may be at most 30 times as far apart as the rows.
Missing: steeper lines, where the rounding errors of `float` grow, and the rest of the segment, where the property is false. -/
theorem C47_first_point_partial (a : DrawArgs m sp dp R C 3 px old) {x1 y1 : Nat} {x2 y2 : ℤ} (h : Moderate C x1 y1 x2 y2)
    (hs : |x2 - x1| ≤ 30 * |y2 - y1|) (color : RGB) {th : Nat} (hth : th ≤ 2147483647) (hthC : C + th / 2 ≤ 2147483647) (hx : x1 < C) (hy : y1 < R) :
    ∃ m' out, draw_line (some sp) (some dp) x1 y1 x2 y2 color th m = .ok ((), m') ∧ IsImage8 m' dp R C 3 out ∧
      ∀ q, q < 3 → out y1 x1 q = rgb color q := by
  obtain ⟨m', out, row, r1, r2, -, r3, r4⟩ := C47_any_slope a h color hth hthC
  refine ⟨m', out, r1, r2, ?_⟩
  intro q hq
  refine (r4 y1 x1 q hy hx hq).1 ⟨rfl, x1, hx, by rw [sub_self, abs_zero]; omega, ?_⟩
  have n3 := lineErr_le h hx
  have hk : |lineSlope x1 y1 x2 y2| ≤ 30 := by
    have hdy : 1 ≤ |y2 - (y1:ℤ)| := Int.one_le_abs (by have := h.rows; omega)
    unfold lineSlope
    rw [abs_div, div_le_iff₀ (by
      have : (1:ℚ) ≤ |((y2 - (y1:ℤ) : ℤ) : ℚ)| := by exact_mod_cast hdy
      linarith)]
    exact_mod_cast hs
  have n0 : 0 ≤ lineErr x1 y1 x2 y2 x1 := by unfold lineErr; positivity
  have n1 := (r3 x1 hx).near (Or.inr (by
    push_cast
    rw [sub_self, mul_zero, add_zero]
    have : (0:ℚ) ≤ y1 := by positivity
    linarith))
  push_cast at n1
  rw [sub_self, mul_zero, add_zero, abs_le] at n1
  have i1 : (row x1 : ℚ) - y1 < 1 := by linarith
  have i2 : (-1:ℚ) < (row x1 : ℚ) - y1 := by linarith
  have j1 : row x1 - (y1:ℤ) < 1 := by exact_mod_cast i1
  have j2 : -1 < row x1 - (y1:ℤ) := by exact_mod_cast i2
  omega

end

/-! ### Non-vacuity -/

/-- a line from (0, 0) to (1, 2): the slope is not integral -/
theorem demoModerate : Moderate 3 0 0 1 2 := ⟨by decide, by decide, by decide, by decide, by decide, by decide⟩

example : ∃ (m' : Mem) (out : Nat → Nat → Nat → UInt8) (row : Nat → ℤ),
    draw_line (some 1) (some 3) 0 0 1 2 ⟨1, 2, 3⟩ 1 (demoImgs 3) = .ok ((), m') ∧ IsImage8 m' 3 2 3 3 out ∧
      (∀ j : Nat, j < 3 → RoundedRow ((0:ℤ) + lineSlope 0 0 1 2 * (j - (0:ℤ))) (lineErr 0 0 1 2 j) (row j)) := by
  obtain ⟨m', out, row, h1, h2, -, h3, -⟩ := C47_any_slope (demoDraw (ch := 3) (by decide) (by decide)) demoModerate ⟨1, 2, 3⟩ (th := 1) (by decide) (by decide)
  exact ⟨m', out, row, h1, h2, h3⟩

/-- the line from (0, -2) to (2, 1), of slope 2/3, misses its second end point -/
example : ∃ m' out, draw_line (some 1) (some 3) 0 (-2) 2 1 ⟨1, 2, 3⟩ 1 (demoImgs 3) = .ok ((), m') ∧ IsImage8 m' 3 2 3 3 out ∧
    ∀ q, q < 3 → out 1 2 q = demoPx 1 2 q 0 :=
  C47_refuted_end_point_any (x2 := 2) (y2 := 1) (th := 1) (demoDraw (ch := 3) (by decide) (by decide))
    ⟨by decide, by decide, by decide, by decide, by decide, by decide⟩ (by decide) ⟨1, 2, 3⟩ (by decide) (by decide) (by decide) (by decide)

/-- the line from (1, 1) to (0, 4) starts in its first end point -/
example : ∃ m' out, draw_line (some 1) (some 3) 1 1 0 4 ⟨1, 2, 3⟩ 1 (demoImgs 3) = .ok ((), m') ∧ IsImage8 m' 3 2 3 3 out ∧
    ∀ q, q < 3 → out 1 1 q = rgb ⟨1, 2, 3⟩ q :=
  C47_first_point_partial (x1 := 1) (y1 := 1) (th := 1) (demoDraw (ch := 3) (by decide) (by decide))
    ⟨by decide, by decide, by decide, by decide, by decide, by decide⟩ (by decide) ⟨1, 2, 3⟩ (by decide) (by decide) (by decide) (by decide)

end HyperCV
