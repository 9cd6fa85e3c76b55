/- C92: the edge signal energy. -/
import Verif.Proof.EdgeEnergy
import Verif.Spec.EdgeEnergy
import Verif.Props.AccuracyFilter
import Verif.Props.AccuracyStat

namespace HyperCV
open Spec Finset

/-! ### The responses -/

/-- `1/6` as a `float` -/
def sixth : ℚ := 11184811 / 67108864

theorem edge_weight {n : Int} (h : n = 4 ∨ n = 1 ∨ n = -1) : (f32.div (f32.ofInt n) (f32.ofInt 6)).Is (n * sixth) := by
  rcases h with rfl | rfl | rfl
  · exact ⟨false, by decide +kernel⟩
  · exact ⟨false, by decide +kernel⟩
  · exact ⟨true, by decide +kernel⟩

theorem edgeWeight1_cases (t : Int) : edgeWeight1 t = 4 ∨ edgeWeight1 t = 1 ∨ edgeWeight1 t = -1 := by
  unfold edgeWeight1; split <;> [left; split] <;> simp

theorem edgeWeight2_cases (t : Int) : edgeWeight2 t = 4 ∨ edgeWeight2 t = 1 ∨ edgeWeight2 t = -1 := by
  unfold edgeWeight2; split <;> [left; split] <;> simp

section
variable {R C : Nat} {px : Nat → Nat → Nat → UInt8}

/-- the pixel read at tap `t` -/
def edgePx (R C : Nat) (px : Nat → Nat → Nat → UInt8) (i j t : Nat) : Nat :=
  (px (oneTap R ((i:Int) + (t / 3 : Nat) - (3 / 2 : Nat))) (oneTap C ((j:Int) + (t % 3 : Nat) - (3 / 2 : Nat))) 0).toNat

theorem edgeAcc_fold (w : Int → Int) (i j n : Nat) :
    f32.decode ((edgeCorr w R C px).acc (fun _ _ _ => 0) i j 0 n)
      = (List.range n).foldl (fun s t => f32.add s (f32.mul (f32.decode (edgeBits w t)) (f32.ofInt (edgePx R C px i j t : Int)))) (.fin false 0) := by
  induction n with
  | zero =>
    show f32.decode 0 = FV.fin false 0
    decide +kernel
  | succ n ih =>
    rw [List.range_succ, List.foldl_append, ← ih]
    show f32.decode (f32.encode (f32.add _ _)) = _
    rw [f32_dec_enc (good_add _ _ _)]
    rfl

theorem edgePx_le (i j t : Nat) : edgePx R C px i j t ≤ 255 := by
  unfold edgePx
  have := (px (oneTap R ((i:Int) + (t / 3 : Nat) - (3 / 2 : Nat))) (oneTap C ((j:Int) + (t % 3 : Nat) - (3 / 2 : Nat))) 0).toNat_lt
  omega

theorem edgeAcc_err {w : Int → Int} (hw : ∀ t, w t = 4 ∨ w t = 1 ∨ w t = -1) (hs : ∑ t ∈ range 9, |(w t : ℚ)| = 12) (i j : Nat) :
    ∃ z, f32.Val (f32.decode ((edgeCorr w R C px).acc (fun _ _ _ => 0) i j 0 9)) z ∧
      |z - sixth * ∑ t ∈ range 9, (w t : ℚ) * edgePx R C px i j t| ≤ 511 * 10 / 2 ^ 23 + 1 / 2 ^ 100 := by
  rw [edgeAcc_fold]
  have hA : ∑ t ∈ range 9, |((w t : ℚ) * sixth) * (edgePx R C px i j t : ℚ)| ≤ 511 := by
    have : ∀ t ∈ range 9, |((w t : ℚ) * sixth) * (edgePx R C px i j t : ℚ)| ≤ |(w t : ℚ)| * (sixth * 255) := by
      intro t _
      have h1 : ((edgePx R C px i j t : Nat) : ℚ) ≤ 255 := by exact_mod_cast edgePx_le i j t
      have h0 : (0:ℚ) ≤ ((edgePx R C px i j t : Nat) : ℚ) := by positivity
      have hk : (0:ℚ) ≤ sixth := by unfold sixth; norm_num
      rw [abs_mul, abs_mul, abs_of_nonneg h0, abs_of_nonneg hk, mul_assoc]
      exact mul_le_mul_of_nonneg_left (mul_le_mul_of_nonneg_left h1 hk) (abs_nonneg _)
    refine (sum_le_sum this).trans ?_
    rw [← sum_mul, hs]
    unfold sixth
    norm_num
  obtain ⟨z, z1, z2⟩ := dot_f32 (n := 9) (v := fun t => f32.decode (edgeBits w t)) (w := fun t => f32.ofInt (edgePx R C px i j t : Int))
    (x := fun t => (w t : ℚ) * sixth) (y := fun t => (edgePx R C px i j t : ℚ)) (c := .fin false 0) (a := 0) (by norm_num) (by
      intro t _
      unfold edgeBits
      rw [f32_dec_enc (good_div _ _ _)]
      exact edge_weight (hw t)) (by
      intro t _
      have := edgePx_le (R := R) (C := C) (px := px) i j t
      have := is_nat32 (n := edgePx R C px i j t) (by omega)
      exact this) (val_zero _) (by
      rw [abs_zero, zero_add]
      exact hA.trans (by norm_num))
  refine ⟨z, z1, ?_⟩
  rw [abs_zero, zero_add, zero_add] at z2
  have e : ∑ t ∈ range 9, (w t : ℚ) * sixth * (edgePx R C px i j t : ℚ) = sixth * ∑ t ∈ range 9, (w t : ℚ) * edgePx R C px i j t := by
    rw [mul_sum]
    exact sum_congr rfl fun t _ => by ring
  rw [e] at z2
  refine z2.trans ?_
  have : ((9:Nat):ℚ) = 9 := by norm_num
  rw [this]
  norm_num at hA ⊢
  linarith

/-- the exact responses, with the image as rational numbers -/
abbrev edgeX (px : Nat → Nat → Nat → UInt8) (i j : Nat) : ℚ := ((px i j 0).toNat : ℚ)

theorem oneTap_self {n i : Nat} (h : i < n) : oneTap n (i:Int) = i := by
  unfold oneTap
  rw [if_pos (by omega)]; simp

theorem edge_exact {i j : Nat} (hi : i < R) (hj : j < C) :
    ∑ t ∈ range 9, (edgeWeight1 t : ℚ) * edgePx R C px i j t + ∑ t ∈ range 9, (edgeWeight2 t : ℚ) * edgePx R C px i j t
      = 6 * edgeResponse R C (edgeX px) i j := by
  have e1 : edgePx R C px i j 1 = (px (edgeIndex R ((i:Int) - 1)) j 0).toNat := by
    unfold edgePx
    rw [show ((j:Int) + (1 % 3 : Nat) - (3 / 2 : Nat)) = j by norm_num, oneTap_self hj]
    rfl
  have e3 : edgePx R C px i j 3 = (px i (edgeIndex C ((j:Int) - 1)) 0).toNat := by
    unfold edgePx
    rw [show ((i:Int) + (3 / 3 : Nat) - (3 / 2 : Nat)) = i by norm_num, oneTap_self hi]
    rfl
  have e4 : edgePx R C px i j 4 = (px i j 0).toNat := by
    unfold edgePx
    rw [show ((i:Int) + (4 / 3 : Nat) - (3 / 2 : Nat)) = i by norm_num, oneTap_self hi,
      show ((j:Int) + (4 % 3 : Nat) - (3 / 2 : Nat)) = j by norm_num, oneTap_self hj]
  have e5 : edgePx R C px i j 5 = (px i (edgeIndex C ((j:Int) + 1)) 0).toNat := by
    unfold edgePx
    rw [show ((i:Int) + (5 / 3 : Nat) - (3 / 2 : Nat)) = i by norm_num, oneTap_self hi,
      show ((j:Int) + (5 % 3 : Nat) - (3 / 2 : Nat)) = j + 1 by norm_num; ring]
    rfl
  have e7 : edgePx R C px i j 7 = (px (edgeIndex R ((i:Int) + 1)) j 0).toNat := by
    unfold edgePx
    rw [show ((j:Int) + (7 % 3 : Nat) - (3 / 2 : Nat)) = j by norm_num, oneTap_self hj,
      show ((i:Int) + (7 / 3 : Nat) - (3 / 2 : Nat)) = i + 1 by norm_num; ring]
    rfl
  rw [← sum_add_distrib]
  simp only [sum_range_succ, sum_range_zero]
  rw [e1, e3, e4, e5, e7]
  simp [edgeWeight1, edgeWeight2, edgeResponse, edgeX]
  ring

theorem edgeResponse_le (i j : Nat) : |edgeResponse R C (edgeX px) i j| ≤ 340 := by
  have h : ∀ i j, 0 ≤ edgeX px i j ∧ edgeX px i j ≤ 255 := by
    intro i j
    have := (px i j 0).toNat_lt
    exact ⟨by unfold edgeX; positivity, by unfold edgeX; exact_mod_cast (by omega : (px i j 0).toNat ≤ 255)⟩
  unfold edgeResponse
  have h0 := h i j
  have h1 := h (edgeIndex R ((i:Int) - 1)) j
  have h2 := h (edgeIndex R ((i:Int) + 1)) j
  have h3 := h i (edgeIndex C ((j:Int) - 1))
  have h4 := h i (edgeIndex C ((j:Int) + 1))
  rw [abs_le]
  constructor <;> linarith [h0.1, h0.2, h1.1, h1.2, h2.1, h2.2, h3.1, h3.2, h4.1, h4.2]

/-- the computed response -/
theorem edgeResp_err {q : Nat} (hq : q < R * C) :
    ∃ y, f32.Val (edgeResp R C px q) y ∧ |y - edgeResponse R C (edgeX px) (q / C) (q % C)| ≤ 1 / 512 := by
  obtain ⟨hi, hj, -⟩ := flat_split hq
  obtain ⟨z1, a1, b1⟩ := edgeAcc_err (R := R) (C := C) (px := px) edgeWeight1_cases (by simp [sum_range_succ, edgeWeight1]; norm_num) (q / C) (q % C)
  obtain ⟨z2, a2, b2⟩ := edgeAcc_err (R := R) (C := C) (px := px) edgeWeight2_cases (by simp [sum_range_succ, edgeWeight2]; norm_num) (q / C) (q % C)
  have ex := edge_exact (px := px) hi hj
  have hr := edgeResponse_le (R := R) (C := C) (px := px) (q / C) (q % C)
  generalize edgeResponse R C (edgeX px) (q / C) (q % C) = r at *
  generalize ∑ t ∈ range 9, (edgeWeight1 t : ℚ) * edgePx R C px (q / C) (q % C) t = S1 at *
  generalize ∑ t ∈ range 9, (edgeWeight2 t : ℚ) * edgePx R C px (q / C) (q % C) t = S2 at *
  have c : |z1 + z2 - r| ≤ 1 / 800 := by
    have e : z1 + z2 - r = (z1 - sixth * S1) + (z2 - sixth * S2) + (6 * sixth - 1) * r := by
      have : sixth * S1 + sixth * S2 = 6 * sixth * r := by rw [← mul_add, ex]; ring
      linear_combination this
    rw [e]
    refine (abs_add_le _ _).trans ?_
    refine (add_le_add (abs_add_le _ _) (le_refl _)).trans ?_
    rw [abs_mul, show |6 * sixth - 1| = 1 / 2 ^ 25 by unfold sixth; norm_num]
    generalize |z1 - sixth * S1| = A at *
    generalize |z2 - sixth * S2| = B at *
    norm_num at b1 b2 hr ⊢
    linarith
  have c2 : |z1 + z2| ≤ 341 := by
    have := abs_add_le (z1 + z2 - r) r
    rw [sub_add_cancel] at this
    linarith
  obtain ⟨y, y1, y2⟩ := val_add a1 a2 (by rw [f32_u, f32_max]; norm_num; linarith)
  refine ⟨y, y1, ?_⟩
  rw [f32_u] at y2
  have e : y - r = (y - (z1 + z2)) + (z1 + z2 - r) := by ring
  rw [e]
  refine (abs_add_le _ _).trans ?_
  generalize |y - (z1 + z2)| = A at *
  generalize |z1 + z2 - r| = B at *
  norm_num at y2 ⊢
  linarith

/-! ### The sum of squares -/

theorem edgeTotal_err (hC : 0 < C) (hn : R * C ≤ 4194304) :
    ∃ s D, f32.Val (edgeTotal R C px (R * C)) s ∧ 0 ≤ D ∧ D ≤ 2 ^ 60 ∧
      |s - D| ≤ 2 * (R * C) * (1 / 2 ^ 24 + 1 / 2 ^ 52) * D + 2 * (R * C) * (1 / 2 ^ 150) ∧
      |D - ∑ i ∈ range R, ∑ j ∈ range C, edgeResponse R C (edgeX px) i j ^ 2| ≤ (R * C) * (4 / 3) := by
  have hnq : ((R * C : Nat) : ℚ) ≤ 4194304 := by exact_mod_cast hn
  have hy : ∀ q, ∃ y, q < R * C → f32.Val (edgeResp R C px q) y ∧ |y - edgeResponse R C (edgeX px) (q / C) (q % C)| ≤ 1 / 512 := by
    intro q
    by_cases hq : q < R * C
    · obtain ⟨y, y1⟩ := edgeResp_err (px := px) hq
      exact ⟨y, fun _ => y1⟩
    · exact ⟨0, fun h => absurd h hq⟩
  choose y hy using hy
  have he0 : (0:ℚ) ≤ f32.u + 1 / 2 ^ 52 := by rw [f32_u]; norm_num
  have hne : ((R * C : Nat) : ℚ) * (f32.u + 1 / 2 ^ 52) ≤ 1 / 2 := by rw [f32_u]; norm_num at hnq ⊢; linarith
  have eDa : ∑ q ∈ range (R * C), |y q * y q| = ∑ q ∈ range (R * C), y q * y q := sum_congr rfl fun q _ => abs_of_nonneg (mul_self_nonneg _)
  have hyb : ∀ q ∈ range (R * C), |y q * y q - edgeResponse R C (edgeX px) (q / C) (q % C) ^ 2| ≤ 4 / 3 := by
    intro q hq
    have h1 := (hy q (mem_range.1 hq)).2
    have h2 := edgeResponse_le (R := R) (C := C) (px := px) (q / C) (q % C)
    generalize edgeResponse R C (edgeX px) (q / C) (q % C) = r at *
    rw [show y q * y q - r ^ 2 = (y q - r) * ((y q - r) + 2 * r) by ring, abs_mul]
    have h3 : |y q - r + 2 * r| ≤ 1 / 512 + 2 * 340 := by
      refine (abs_add_le _ _).trans (add_le_add h1 ?_)
      rw [abs_mul, abs_of_pos (by norm_num : (0:ℚ) < 2)]
      linarith
    calc |y q - r| * |y q - r + 2 * r| ≤ 1 / 512 * (1 / 512 + 2 * 340) := mul_le_mul h1 h3 (abs_nonneg _) (by norm_num)
      _ ≤ 4 / 3 := by norm_num
  have hDQ : |∑ q ∈ range (R * C), y q * y q - ∑ i ∈ range R, ∑ j ∈ range C, edgeResponse R C (edgeX px) i j ^ 2| ≤ (R * C) * (4 / 3) := by
    have e := total_flat R C (fun i j => edgeResponse R C (edgeX px) i j ^ 2) hC
    unfold total at e
    rw [e, ← sum_sub_distrib]
    refine (abs_sum_le_sum_abs _ _).trans ((sum_le_sum hyb).trans ?_)
    rw [sum_const, card_range, nsmul_eq_mul]
    push_cast
    exact le_refl _
  have hD0 : 0 ≤ ∑ q ∈ range (R * C), y q * y q := sum_nonneg fun _ _ => mul_self_nonneg _
  have hDb : ∑ q ∈ range (R * C), y q * y q ≤ 2 ^ 60 := by
    have : ∀ q ∈ range (R * C), y q * y q ≤ 116000 := by
      intro q hq
      have h1 := (abs_le.1 (hyb q hq)).2
      have h2 := edgeResponse_le (R := R) (C := C) (px := px) (q / C) (q % C)
      generalize edgeResponse R C (edgeX px) (q / C) (q % C) = r at *
      have h3 : r ^ 2 ≤ 340 ^ 2 := by rw [← sq_abs]; exact pow_le_pow_left₀ (abs_nonneg _) h2 2
      norm_num at h3
      linarith
    refine (sum_le_sum this).trans ?_
    rw [sum_const, card_range, nsmul_eq_mul]
    norm_num at hnq ⊢
    linarith
  generalize hw : (fun q => y q * y q) = w at *
  have hwq : ∀ q, y q * y q = w q := fun q => congrFun hw q
  simp only [hwq] at eDa hDQ hD0 hDb
  have inv : ∀ k, k ≤ R * C → SumInv f32 (f32.u + 1 / 2 ^ 52) f32.eta w k (edgeTotal R C px k) := by
    intro k
    induction k with
    | zero => intro _; exact sumInv_zero
    | succ k ih =>
      intro hk
      refine sumInv_succ he0 (eta_pos f32).le (ih (by omega)) ?_
      intro s s1 s2
      have s3 := step_bound (n := R * C) he0 (eta_pos f32).le hne (by omega : k < R * C) s2
      rw [eDa] at s3
      rw [← hwq k] at s3 ⊢
      show ∃ z, f32.Val (addSquare (edgeTotal R C px k) (f64.conv (edgeResp R C px k))) z ∧ _
      refine addSquare_err s1 (hy k (by omega)).1 ?_
      rw [f32_eta] at s3
      generalize ∑ q ∈ range (R * C), w q = D at *
      generalize ((R * C : Nat) : ℚ) = n at *
      norm_num at hDb s3 hnq ⊢
      linarith
  obtain ⟨s, s1, s2⟩ := (inv _ (le_refl _)).bound he0 (eta_pos f32).le hne
  rw [eDa, f32_eta, f32_u] at s2
  push_cast at s2
  exact ⟨s, _, s1, hD0, hDb, s2, hDQ⟩

/-- the arithmetic of the bound -/
theorem edge_tail_bound {n r c s D Q z1 z2 : ℚ} (hr : 1 ≤ r) (hc : 1 ≤ c) (hn : n = r * c) (hn1 : 4 ≤ n) (hn2 : n ≤ 4194304) (hD0 : 0 ≤ D) (hQ0 : 0 ≤ Q)
    (hs : |s - D| ≤ 2 * n * (1 / 2 ^ 24 + 1 / 2 ^ 52) * D + 2 * n * (1 / 2 ^ 150)) (hQ : |D - Q| ≤ n * (4 / 3))
    (h1 : |z1 - s / r| ≤ 1 / 2 ^ 24 * |s / r| + 1 / 2 ^ 150) (h2 : |z2 - z1 / c| ≤ 1 / 2 ^ 24 * |z1 / c| + 1 / 2 ^ 150) :
    |z2 - Q / n| ≤ n / 2 ^ 22 * (Q / n) + 5 / 2 := by
  have hn0 : 0 < n := by linarith
  have hr0 : 0 < r := by linarith
  have hc0 : 0 < c := by linarith
  -- everything per pixel
  have a0 : |s / n - D / n| ≤ 2 * n * (1 / 2 ^ 24 + 1 / 2 ^ 52) * (D / n) + 2 * (1 / 2 ^ 150) := by
    rw [← sub_div, abs_div, abs_of_pos hn0, div_le_iff₀ hn0]
    refine hs.trans (le_of_eq ?_)
    field_simp
  have b0 : |D / n - Q / n| ≤ 4 / 3 := by
    rw [← sub_div, abs_div, abs_of_pos hn0, div_le_iff₀ hn0]
    linarith
  have c0 : |z1 / c - s / n| ≤ 1 / 2 ^ 24 * |s / n| + 1 / 2 ^ 150 := by
    have e : z1 / c - s / n = (z1 - s / r) / c := by rw [hn]; field_simp
    rw [e, abs_div, abs_of_pos hc0, div_le_iff₀ hc0]
    have e2 : |s / r| = |s / n| * c := by
      rw [hn, ← abs_of_pos hc0, ← abs_mul, abs_of_pos hc0]
      congr 1
      field_simp
    rw [e2] at h1
    refine h1.trans ?_
    have : (1:ℚ) / 2 ^ 150 * 1 ≤ 1 / 2 ^ 150 * c := mul_le_mul_of_nonneg_left hc (by positivity)
    nlinarith
  have hd0 : 0 ≤ D / n := div_nonneg hD0 hn0.le
  have hq0 : 0 ≤ Q / n := div_nonneg hQ0 hn0.le
  generalize s / n = S at *
  generalize D / n = d at *
  generalize Q / n = q at *
  generalize z1 / c = Z at *
  have hd : d ≤ q + 4 / 3 := by have := (abs_le.1 b0).2; linarith
  have k1 : 2 * n * (1 / 2 ^ 24 + 1 / 2 ^ 52) * d ≤ (n / 2 ^ 23 + 1 / 2 ^ 28) * (q + 4 / 3) := by
    refine mul_le_mul ?_ hd hd0 (by positivity)
    norm_num; linarith
  have sS : |S| ≤ 2 * (q + 4 / 3) + 1 := by
    have h := abs_add_le (S - d) d
    rw [sub_add_cancel, abs_of_nonneg hd0] at h
    have k2 : (n / 2 ^ 23 + 1 / 2 ^ 28) * (q + 4 / 3) ≤ (3 / 4) * (q + 4 / 3) := by
      refine mul_le_mul_of_nonneg_right ?_ (by linarith)
      norm_num; linarith
    generalize (n / 2 ^ 23 + 1 / 2 ^ 28) * (q + 4 / 3) = X at *
    norm_num at a0 k1 h ⊢
    linarith
  have sZ : |Z| ≤ 3 * (q + 4 / 3) + 2 := by
    have h := abs_add_le (Z - S) S
    rw [sub_add_cancel] at h
    generalize |Z - S| = X at *
    generalize |S| = Y at *
    norm_num at c0 ⊢
    linarith
  have e : z2 - q = (z2 - Z) + (Z - S) + (S - d) + (d - q) := by ring
  rw [e]
  refine (abs_add_le _ _).trans ?_
  refine (add_le_add (abs_add_le _ _) (le_refl _)).trans ?_
  refine (add_le_add (add_le_add (abs_add_le _ _) (le_refl _)) (le_refl _)).trans ?_
  have fin : (n / 2 ^ 23 + 1 / 2 ^ 28) * (q + 4 / 3) = n / 2 ^ 23 * q + 1 / 2 ^ 28 * q + n / 2 ^ 23 * (4 / 3) + 1 / 2 ^ 28 * (4 / 3) := by ring
  have hnq : 4 * q ≤ n * q := mul_le_mul_of_nonneg_right hn1 hq0
  rw [fin] at k1
  have f2 : n / 2 ^ 22 * q = n * q / 2 ^ 22 := by ring
  have f3 : n / 2 ^ 23 * q = n * q / 2 ^ 23 := by ring
  rw [f2]
  rw [f3] at k1
  generalize n * q = Y at *
  generalize |z2 - Z| = A at *
  generalize |Z - S| = B at *
  generalize |S - d| = E at *
  generalize |d - q| = G at *
  generalize |S| = H at *
  generalize |Z| = I at *
  norm_num at h2 c0 a0 k1 b0 sS sZ ⊢
  linarith

/-- **C92**, for grey images of at least two rows and two columns: the returned number is the mean square response of the two edge
operators, up to the stated rounding error, and no memory is changed, leaked or released that should not be.  Missing for the full
property: the header of any other image is changed (`C92_header`), images of one row are read out of bounds (`C92_one_row`), and the
addresses of the two intermediate images must suit `delete_simple_mat`. -/
theorem C92_energy_partial {m : Mem} (wf : m.WF) {p : Nat} (h : IsImage8 m p R C 1 px) (hR : 2 ≤ R) (hC : 2 ≤ C) (hn : R * C ≤ 4194304)
    (ha : m.addr (m.next + 3) % 16 = 0 ∧ m.addr (m.next + 3) % 64 ≠ 48) (hc : m.addr (m.next + 5) % 16 = 0 ∧ m.addr (m.next + 5) % 64 ≠ 48) :
    ∃ v e, cal_edge_signal_energy (some p) m = .ok (v, { m with next := m.next + 6 }) ∧ v.Is e ∧
      |e - edgeEnergy R C (fun i j => ((px i j 0).toNat : ℚ))| ≤ (R * C) / 2 ^ 22 * edgeEnergy R C (fun i j => ((px i j 0).toNat : ℚ)) + 5 / 2 := by
  obtain ⟨sd, si, s1, s2⟩ := img8_lit h
  have run := edge_tail (px := px) wf s1 (show R * C ≤ R * C * 1 by omega) s2 hR hC (by omega) rfl rfl rfl ha hc
  obtain ⟨s, D, t1, t2, t3, t4, t5⟩ := edgeTotal_err (R := R) (C := C) (px := px) (by omega) hn
  have hnq : ((R:ℚ) * C) ≤ 4194304 := by exact_mod_cast hn
  have hr1 : (1:ℚ) ≤ R := by exact_mod_cast (by omega : 1 ≤ R)
  have hc1 : (1:ℚ) ≤ C := by exact_mod_cast (by omega : 1 ≤ C)
  have hRle : R ≤ R * C := Nat.le_mul_of_pos_right _ (by omega)
  have hCle : C ≤ R * C := Nat.le_mul_of_pos_left _ (by omega)
  have hn4 : (4:ℚ) ≤ R * C := by
    have : 2 * 2 ≤ R * C := Nat.mul_le_mul hR hC
    exact_mod_cast this
  have rR : (f32.ofInt R).Is (R:ℚ) := is_nat32 (by omega)
  have rC : (f32.ofInt C).Is (C:ℚ) := is_nat32 (by omega)
  have sB : |s| ≤ 2 ^ 61 := by
    have h1 := abs_add_le (s - D) D
    rw [sub_add_cancel, abs_of_nonneg t2] at h1
    have k : 2 * ((R:ℚ) * C) * (1 / 2 ^ 24 + 1 / 2 ^ 52) * D ≤ 3 / 4 * D := by
      refine mul_le_mul_of_nonneg_right ?_ t2
      norm_num at hnq ⊢; linarith
    generalize 2 * ((R:ℚ) * C) * (1 / 2 ^ 24 + 1 / 2 ^ 52) * D = X at *
    generalize (R:ℚ) * C = n at *
    norm_num at t3 t4 k ⊢
    linarith
  have sR : |s / R| ≤ 2 ^ 61 := by
    rw [abs_div, abs_of_pos (by linarith : (0:ℚ) < R)]
    exact (div_le_self (abs_nonneg _) hr1).trans sB
  obtain ⟨z1, y1, y2⟩ := val_div (F := f32) t1.1 rR (by linarith) (by
    rw [f32_u, f32_eta, f32_max]; norm_num at sR ⊢; linarith)
  rw [f32_u, f32_eta] at y2
  have zB : |z1| ≤ 2 ^ 63 := by
    have h1 := abs_add_le (z1 - s / R) (s / R)
    rw [sub_add_cancel] at h1
    generalize |z1 - s / R| = A at *
    generalize |s / R| = B at *
    norm_num at y2 sR ⊢; linarith
  have zC : |z1 / C| ≤ 2 ^ 63 := by
    rw [abs_div, abs_of_pos (by linarith : (0:ℚ) < C)]
    exact (div_le_self (abs_nonneg _) hc1).trans zB
  obtain ⟨z2, y3, y4⟩ := val_div (F := f32) y1.1 rC (by linarith) (by
    rw [f32_u, f32_eta, f32_max]; norm_num at zC ⊢; linarith)
  rw [f32_u, f32_eta] at y4
  refine ⟨_, z2, ?_, y3.1, ?_⟩
  · unfold cal_edge_signal_energy
    rw [nonNull_some]
    refine (bind_ok (getS_ok s1)).trans ?_
    refine (bind_ok (setS_self s1)).trans ?_
    refine (bind_ok (getS_ok s1)).trans ?_
    refine (bind_ok (setS_self s1)).trans ?_
    exact run
  · unfold edgeEnergy
    exact edge_tail_bound hr1 hc1 rfl hn4 hnq t2 (sum_nonneg fun _ _ => sum_nonneg fun _ _ => sq_nonneg _) t4 t5 y2 y4

/-- the response to a constant grey level -/
def flatResp (w : Int → Int) (v : Nat) : FV :=
  (List.range 9).foldl (fun s t => f32.add s (f32.mul (f32.decode (edgeBits w t)) (f32.ofInt (v : Int)))) (.fin false 0)

theorem flat_zero : ∀ v, v < 256 → f32.add (flatResp edgeWeight1 v) (flatResp edgeWeight2 v) = .fin false 0 := by decide +kernel

theorem oneTap_lt {n : Nat} (h : 2 ≤ n) (p : Int) : oneTap n p < n := by
  unfold oneTap
  split <;> omega

theorem edgeTotal_zero {v : UInt8} (hR : 2 ≤ R) (hC : 2 ≤ C) (hv : ∀ i j, i < R → j < C → px i j 0 = v) (n : Nat) : edgeTotal R C px n = .fin false 0 := by
  have e : ∀ i j t, edgePx R C px i j t = v.toNat := by
    intro i j t
    unfold edgePx
    rw [hv _ _ (oneTap_lt hR _) (oneTap_lt hC _)]
  have r : ∀ q, edgeResp R C px q = .fin false 0 := by
    intro q
    unfold edgeResp
    rw [edgeAcc_fold, edgeAcc_fold]
    simp only [e]
    exact flat_zero v.toNat v.toNat_lt
  induction n with
  | zero => rfl
  | succ n ih =>
    show addSquare (edgeTotal R C px n) (f64.conv (edgeResp R C px n)) = _
    rw [ih, r]
    decide +kernel

/-- **C92**: an image without edges, that is of one grey level, has energy exactly zero. -/
theorem C92_constant {m : Mem} (wf : m.WF) {p : Nat} {v : UInt8} (h : IsImage8 m p R C 1 px) (hR : 2 ≤ R) (hC : 2 ≤ C) (hn : R * C * 4 ≤ 2147483551)
    (hv : ∀ i j, i < R → j < C → px i j 0 = v) (hn' : R ≤ 16777216 ∧ C ≤ 16777216)
    (ha : m.addr (m.next + 3) % 16 = 0 ∧ m.addr (m.next + 3) % 64 ≠ 48) (hc : m.addr (m.next + 5) % 16 = 0 ∧ m.addr (m.next + 5) % 64 ≠ 48) :
    ∃ e, cal_edge_signal_energy (some p) m = .ok (e, { m with next := m.next + 6 }) ∧ e.Is 0 := by
  obtain ⟨sd, si, s1, s2⟩ := img8_lit h
  have run := edge_tail (px := px) wf s1 (show R * C ≤ R * C * 1 by omega) s2 hR hC (by omega) rfl rfl rfl ha hc
  rw [edgeTotal_zero hR hC hv] at run
  refine ⟨f32.div (f32.div (.fin false 0) (f32.ofInt R)) (f32.ofInt C), ?_, ?_⟩
  rotate_left
  · have rR : (f32.ofInt R).Is (R:ℚ) := is_nat32 (by omega)
    have rC : (f32.ofInt C).Is (C:ℚ) := is_nat32 (by omega)
    have hR0 : (R:ℚ) ≠ 0 := by exact_mod_cast (by omega : R ≠ 0)
    have hC0 : (C:ℚ) ≠ 0 := by exact_mod_cast (by omega : C ≠ 0)
    have d1 : (f32.div (.fin false 0) (f32.ofInt R)).Is 0 := by
      have := is_div (F := f32) ⟨false, rfl⟩ rR hR0 (show f32.Rep (0 / (R:ℚ)) by rw [zero_div]; exact rep_zero _)
      rwa [zero_div] at this
    have := is_div (F := f32) d1 rC hC0 (show f32.Rep (0 / (C:ℚ)) by rw [zero_div]; exact rep_zero _)
    rwa [zero_div] at this
  · unfold cal_edge_signal_energy
    rw [nonNull_some]
    refine (bind_ok (getS_ok s1)).trans ?_
    refine (bind_ok (setS_self s1)).trans ?_
    refine (bind_ok (getS_ok s1)).trans ?_
    refine (bind_ok (setS_self s1)).trans ?_
    exact run

end

/-- **C92 is false** of images that are not grey byte images: they are not rejected but turned into grey byte images.  Any image of at
least two rows and two columns that has several channels or another data type is no longer that image after the call. -/
theorem C92_header {m : Mem} (wf : m.WF) {p R C ch E : Nat} {dt : Int} {px : Nat → Nat → Nat → Nat → UInt8} (h : IsImage m p R C dt ch E px)
    (hR : 2 ≤ R) (hC : 2 ≤ C) (hn : R * C * 4 ≤ 2147483551) (hx : ch ≠ 1 ∨ dt ≠ 1)
    (ha : m.addr (m.next + 3) % 16 = 0 ∧ m.addr (m.next + 3) % 64 ≠ 48) (hc : m.addr (m.next + 5) % 16 = 0 ∧ m.addr (m.next + 5) % 64 ≠ 48) :
    ∃ e m', cal_edge_signal_energy (some p) m = .ok (e, m') ∧ ∀ px', ¬ IsImage m' p R C dt ch E px' := by
  obtain ⟨data, inl, h1, h2⟩ := img_lit h
  have hp : p < m.next := by
    by_contra hp
    have := (wf p (by omega)).2.2
    rw [h1] at this; cases this
  have pch := h.posCh
  have pE : 0 < E := by
    have := h.size
    unfold elemBytes at this
    split at this <;> simp_all <;> omega
  let f := imgBytes C ch E px
  have h2' : Holds m data (R * C * ch * E) (imgBytes C 1 1 (fun i j _ _ => f (i * C + j))) := by
    refine h2.congr ?_
    intro q hq
    have e : q = ((q / C) * C + q % C) * 1 + 0 := by
      rw [Nat.mul_one, Nat.add_zero, Nat.div_add_mod']
    conv_rhs => rw [e]
    rw [imgBytes_at8 (px := fun i j _ => f (i * C + j)) (Nat.mod_lt _ (by omega)) (by omega), Nat.div_add_mod']
  let s' : SimpleMat := ⟨R, C, 1, 1, E, data, inl⟩
  let m0 := (m.withS p ⟨R, C, dt, 1, E, data, inl⟩).withS p s'
  have wf0 : m0.WF := by
    intro q hq
    have := wf q hq
    refine ⟨this.1, this.2.1, ?_⟩
    show (if q = p then some s' else if q = p then _ else m.sm q) = none
    have hq' : m.next ≤ q := hq
    rw [if_neg (by omega), if_neg (by omega)]
    exact this.2.2
  have g0 : m0.sm p = some s' := if_pos rfl
  have hN : R * C ≤ R * C * ch * E := (Nat.le_mul_of_pos_right _ pch).trans (Nat.le_mul_of_pos_right _ pE)
  have run := edge_tail (m := m0) (px := fun i j _ => f (i * C + j)) wf0 g0 hN h2' hR hC hn rfl rfl rfl ha hc
  refine ⟨f32.div (f32.div (edgeTotal R C (fun i j _ => f (i * C + j)) (R * C)) (f32.ofInt R)) (f32.ofInt C), { m0 with next := m0.next + 6 }, ?_, ?_⟩
  · unfold cal_edge_signal_energy
    rw [nonNull_some]
    refine (bind_ok (getS_ok h1)).trans ?_
    refine (bind_ok (setS_ok h1)).trans ?_
    have g1 : (m.withS p ⟨R, C, dt, 1, E, data, inl⟩).sm p = some ⟨R, C, dt, 1, E, data, inl⟩ := if_pos rfl
    refine (bind_ok (getS_ok g1)).trans ?_
    refine (bind_ok (setS_ok g1)).trans ?_
    exact run
  · intro px' hi
    obtain ⟨data', inl', k1, -⟩ := img_lit hi
    have k2 : m0.sm p = _ := k1
    rw [g0] at k2
    injection k2 with k2
    have e1 := congrArg SimpleMat.channels k2
    have e2 := congrArg SimpleMat.data_type k2
    have e1' : (1:Int) = ch := e1
    have e2' : (1:Int) = dt := e2
    omega

theorem forI_first {n : Nat} {body : Int → M Unit} {m : Mem} {e : Err} (hn : 0 < n) (he : body 0 m = .error e) : forI 0 (n:Int) body m = .error e :=
  forI_err (b := 0) (fun _ => m) hn (fun _ h => absurd h (Nat.not_lt_zero _)) he

/-- **C92 is false** of grey images with a single row: row 1, which stands for the rows outside the image, does not exist, and memory
after the pixels is read. -/
theorem C92_one_row {m : Mem} (wf : m.WF) {p C : Nat} {px : Nat → Nat → Nat → UInt8} (h : IsImage8 m p 1 C 1 px) (hn : C * 4 ≤ 2147483551) :
    cal_edge_signal_energy (some p) m = .error (.ub .oob) := by
  obtain ⟨sd, si, s1, s2⟩ := img8_lit h
  have pC := h.posC
  have hsd := s2.lt_next wf
  have hp : p < m.next := by
    by_contra hp
    have := (wf p (by omega)).2.2
    rw [s1] at this; cases this
  unfold cal_edge_signal_energy
  rw [nonNull_some]
  refine (bind_ok (getS_ok s1)).trans ?_
  refine (bind_ok (setS_self s1)).trans ?_
  refine (bind_ok (getS_ok s1)).trans ?_
  refine (bind_ok (setS_self s1)).trans ?_
  rw [bind_ok (edgeKernel_run _ m)]
  let m1 := m.grow 36 (encN 4 (edgeBits edgeWeight1))
  have w1 : m1.WF := grow_WF wf _ _
  rw [bind_ok (edgeKernel_run _ m1)]
  let m2 := m1.grow 36 (encN 4 (edgeBits edgeWeight2))
  have w2 : m2.WF := grow_WF w1 _ _
  have p2 : m2.sm p = some ⟨(1:Nat), C, 1, (1:Nat), 1, sd, si⟩ := s1
  rw [bind_ok (getS_ok p2)]
  have c1 := create_sm_ok (m := m2) (R := 1) (C := C) (dt := 4) (ch := 1) (E := 4) (by omega) (by omega) (by omega) rfl (by omega)
  refine (bind_ok c1).trans ?_
  generalize (fun q => if q < 1 * C * 4 then (0:UInt8) else m2.junk m2.next q) = g1
  let m3 := m2.newImage 1 C 4 1 4 g1
  have w3 : m3.WF := newImage_WF w2
  have c2 := create_sm_ok (m := m3) (R := 1) (C := C) (dt := 4) (ch := 1) (E := 4) (by omega) (by omega) (by omega) rfl (by omega)
  refine (bind_ok c2).trans ?_
  generalize (fun q => if q < 1 * C * 4 then (0:UInt8) else m3.junk m3.next q) = g2
  let m4 := m3.newImage 1 C 4 1 4 g2
  have k1 : HoldsN m4 m.next 4 9 (edgeBits edgeWeight1) := by
    refine ⟨newImage_holds_old w3 (newImage_holds_old w2 ?_), fun i _ => edgeBits_lt _ _⟩
    show Holds m2 m.next 36 _
    unfold Holds
    rw [grow_blk_ne _ _ _ (show m.next ≠ m1.next by show m.next ≠ m.next + 1; omega)]
    exact grow_holds m 36 _
  have hs4 : Holds m4 sd (1 * C * 1) (imgBytes C 1 1 (fun i j c _ => px i j c)) := by
    refine newImage_holds_old w3 (newImage_holds_old w2 ?_)
    show Holds m2 _ _ _
    unfold Holds
    rw [grow_blk_ne _ _ _ (show sd ≠ m1.next by show sd ≠ m.next + 1; omega)]
    show m1.blk sd = _
    rw [grow_blk_ne _ _ _ (show sd ≠ m.next by omega)]
    exact s2
  have q1 : m4.sm p = some ⟨(1:Nat), C, 1, (1:Nat), 1, sd, si⟩ := by
    show (m3.newImage 1 C 4 1 4 _).sm p = _
    rw [newImage_sm_old _ (show p ≠ m3.next + 1 by show p ≠ m.next + 4 + 1; omega)]
    show (m2.newImage 1 C 4 1 4 _).sm p = _
    rw [newImage_sm_old _ (show p ≠ m2.next + 1 by show p ≠ m.next + 2 + 1; omega)]
    exact s1
  have q2 : m4.sm (m.next + 3) = some (newSHdr m2 1 C 4 1 4) := by
    show (m3.newImage 1 C 4 1 4 _).sm (m.next + 3) = _
    rw [newImage_sm_old _ (show m.next + 3 ≠ m3.next + 1 by show m.next + 3 ≠ m.next + 4 + 1; omega)]
    exact newImage_sm m2 1 C 4 1 4 _
  refine bind_err ?_
  show hypercv_filter2D (some p) (some (m.next + 3)) (some m.next) 3 3 0 m4 = _
  unfold hypercv_filter2D
  rw [nonNull_some, nonNull_some, nonNull_some, bind_ok (getS_ok q2)]
  have e : ({ newSHdr m2 1 C 4 1 4 with data_type := 4 } : SimpleMat) = newSHdr m2 1 C 4 1 4 := rfl
  refine (bind_ok ((congrArg (fun x => setS (m.next + 3) x m4) e).trans (setS_self q2))).trans ?_
  rw [bind_ok (getS_ok q1), bind_ok (getS_ok q2)]
  have t1 : ∀ m : Mem, ∀ n : Nat, tapIndex (-1) (n:Int) 0 m = .ok (1, m) := by
    intro m n
    unfold tapIndex
    rw [if_pos (by omega)]
    unfold borderM border borderFuel
    rw [if_neg (by omega), if_neg (by simp), if_neg (by omega)]
    rfl
  have ea : (CI.lit (0:Int) + CI.lit (0:Int) - CI.lit ((3:Int) / 2) : CI) = CI.lit (-1) := rfl
  show forI 0 ((1:Nat):Int) _ m4 = _
  refine forI_first (by decide) ?_
  show forI 0 (C:Int) _ m4 = _
  refine forI_first pC ?_
  show forI 0 ((3:Nat):Int) _ m4 = _
  refine forI_first (by decide) ?_
  show (ev (CI.lit (0:Int) + CI.lit (0:Int) - CI.lit ((3:Int) / 2)) >>= _) m4 = _
  rw [bind_ok (ev_ok ea _)]
  refine (bind_ok (t1 m4 1)).trans ?_
  show forI 0 ((3:Nat):Int) _ m4 = _
  refine forI_first (by decide) ?_
  show (ev (CI.lit (0:Int) + CI.lit (0:Int) - CI.lit ((3:Int) / 2)) >>= _) m4 = _
  rw [bind_ok (ev_ok ea _)]
  refine (bind_ok (t1 m4 C)).trans ?_
  unfold filterTap
  show forI 0 ((1:Nat):Int) _ m4 = _
  refine forI_first (by decide) ?_
  have e1 : (CI.lit (0:Int) * CI.lit (C:Int) * CI.lit ((1:Nat):Int) + CI.lit (0:Int) * CI.lit ((1:Nat):Int) + CI.lit (0:Int) : CI) = CI.lit (0:Int) := by
    have := eval_img (R := 1) (C := C) (ch := 1) (i := 0) (j := 0) (c := 0) (by omega) (by omega) (by omega) (by omega)
    simpa using this
  have e2 : (CI.lit (1:Int) * CI.lit (C:Int) * CI.lit ((1:Nat):Int) + CI.lit (1:Int) * CI.lit ((1:Nat):Int) + CI.lit (0:Int) : CI) = CI.lit ((C + 1 : Nat) : Int) := by
    have := eval_img (R := 2) (C := C + 1) (ch := 1) (i := 0) (j := 0) (c := 0) (by omega) (by omega) (by omega) (by omega)
    rw [CI.mul_ok (by constructor <;> omega), CI.mul_ok (by constructor <;> omega), CI.mul_ok (by constructor <;> omega),
      CI.add_ok (by constructor <;> omega), CI.add_ok (by constructor <;> omega)]
    congr 1
    push_cast; ring
  have e3 : (CI.lit (0:Int) * CI.lit (3:Int) + CI.lit (0:Int) : CI) = CI.lit ((0:Nat):Int) := rfl
  show (ev (CI.lit (0:Int) * CI.lit (C:Int) * CI.lit ((1:Nat):Int) + CI.lit (0:Int) * CI.lit ((1:Nat):Int) + CI.lit (0:Int)) >>= _) m4 = _
  rw [bind_ok (ev_ok e1 _)]
  show (ev (CI.lit (1:Int) * CI.lit (C:Int) * CI.lit ((1:Nat):Int) + CI.lit (1:Int) * CI.lit ((1:Nat):Int) + CI.lit (0:Int)) >>= _) m4 = _
  rw [bind_ok (ev_ok e2 _)]
  show (ev (CI.lit (0:Int) * CI.lit (3:Int) + CI.lit (0:Int)) >>= _) m4 = _
  rw [bind_ok (ev_ok e3 _), bind_ok (k1.load (by decide))]
  exact bind_err (load_oob hs4 (by omega))

/-! ### The hypotheses can be met -/

/-- a 2 x 3 grey image with edges; the energy is not zero -/
example : ∃ m px, Mem.WF m ∧ IsImage8 m 1 2 3 1 px ∧ (m.addr (m.next + 3) % 16 = 0 ∧ m.addr (m.next + 3) % 64 ≠ 48) ∧
    (m.addr (m.next + 5) % 16 = 0 ∧ m.addr (m.next + 5) % 64 ≠ 48) ∧ edgeEnergy 2 3 (fun i j => ((px i j 0).toNat : ℚ)) = 75 := by
  refine ⟨Mem.empty.newImage 2 3 1 1 1 (imgBytes 3 1 1 fun i j _ _ => if i = 0 ∧ j = 0 then 30 else 15), fun i j _ => if i = 0 ∧ j = 0 then 30 else 15,
    newImage_WF empty_WF, newImage_isImage (m := Mem.empty) rfl (by decide) (by decide) (by decide), by decide, by decide, ?_⟩
  norm_num [edgeEnergy, edgeResponse, edgeIndex, Finset.sum_range_succ, show UInt8.toNat 30 = 30 from rfl, show UInt8.toNat 15 = 15 from rfl]

/-- a constant image and an image with three channels -/
example : ∃ m px, Mem.WF m ∧ IsImage8 m 1 2 3 3 px ∧ (m.addr (m.next + 3) % 16 = 0 ∧ m.addr (m.next + 3) % 64 ≠ 48) ∧
    (m.addr (m.next + 5) % 16 = 0 ∧ m.addr (m.next + 5) % 64 ≠ 48) :=
  ⟨Mem.empty.newImage 2 3 1 3 1 (imgBytes 3 3 1 fun _ _ _ _ => 7), fun _ _ _ => 7,
    newImage_WF empty_WF, newImage_isImage (m := Mem.empty) rfl (by decide) (by decide) (by decide), by decide, by decide⟩

example : ∃ m px, Mem.WF m ∧ IsImage8 m 1 1 5 1 px :=
  ⟨Mem.empty.newImage 1 5 1 1 1 (imgBytes 5 1 1 fun _ _ _ _ => 7), fun _ _ _ => 7, newImage_WF empty_WF,
    newImage_isImage (m := Mem.empty) rfl (by decide) (by decide) (by decide)⟩

end HyperCV
