/- C80 for sums that are not exact. -/
import Verif.Props.Normalize
import Verif.Proof.FloatError

namespace HyperCV
open Spec

variable {m m' : Mem} {p q R C E : Nat} {dt : Int} {a b : Nat → Nat → Nat → Nat} {x : Nat → Nat → ℚ} {alpha beta : FV} {α β : ℚ}

theorem scan_foldl {σ : Type} (f : σ → Nat → σ) (s0 : σ) : ∀ n, scanS f s0 n = (List.range n).foldl f s0
  | 0 => rfl
  | n+1 => by
    rw [List.range_succ, List.foldl_append, ← scan_foldl f s0 n]
    rfl

/-- a float sum of numbers that are not negative, up to `B`: it is at least every term; it does not exceed `B` if a further term cannot raise it beyond `B`; a sum of
whole numbers is exact up to 2^24 and does not fall below that any more -/
theorem sum_up {v : Nat → FV} {y : Nat → Nat} {B : ℚ} (hB0 : 0 ≤ B) (hB : B ≤ 2 ^ 100) : ∀ n, (∀ e, e < n → (v e).Is (y e) ∧ y e ≤ 16777216 ∧ f32.rv (B + y e) ≤ B) →
    ∃ s : ℚ, (scanS (fun s k => f32.add s (v k)) (.fin false 0) n).Is s ∧ f32.GRep s ∧ 0 ≤ s ∧ s ≤ B ∧ (∀ e, e < n → (y e : ℚ) ≤ s) ∧
      ((∑ e ∈ Finset.range n, y e) ≤ 16777216 → s = (∑ e ∈ Finset.range n, y e : Nat)) ∧ (16777216 ≤ (∑ e ∈ Finset.range n, y e) → 16777216 ≤ s)
  | 0, _ => ⟨0, ⟨false, rfl⟩, ⟨0, f32.emin, by simp, by simp, le_refl _⟩, le_refl _, hB0, fun e he => absurd he (by omega), fun _ => by simp, fun h => by simp at h⟩
  | n+1, h => by
    obtain ⟨s, i1, i2, i3, i4, i5, i6, i7⟩ := sum_up hB0 hB n (fun e he => h e (by omega))
    obtain ⟨hv, hy, hr⟩ := h n (by omega)
    have y0 : (0:ℚ) ≤ y n := Nat.cast_nonneg _
    have up : f32.rv (s + y n) ≤ B := le_trans (rv_mono (by linarith)) hr
    have dn : s ≤ f32.rv (s + y n) := rv_ge i2 (by linarith)
    have gy : f32.GRep (y n : ℚ) := by
      have := grep_int (n := (y n : Int)) (by rw [abs_le]; omega)
      exact_mod_cast this
    refine ⟨f32.rv (s + y n), rnd_add i1 hv (lt_max (b := 2 ^ 100) (by rw [abs_of_nonneg (le_trans i3 dn)]; linarith) (by norm_num)), rv_grep f32 _, le_trans i3 dn, up, ?_, ?_, ?_⟩
    · intro e he
      by_cases hen : e = n
      · subst hen
        exact rv_ge gy (by linarith)
      · exact le_trans (i5 e (by omega)) dn
    · intro hs
      rw [Finset.sum_range_succ] at hs ⊢
      rw [i6 (by omega)]
      have := rv_grep_self (grep_int (n := ((∑ e ∈ Finset.range n, y e + y n : Nat) : Int)) (by rw [abs_le]; omega))
      push_cast at this ⊢
      exact this
    · intro hs
      rw [Finset.sum_range_succ] at hs
      by_cases hc : 16777216 ≤ ∑ e ∈ Finset.range n, y e
      · exact le_trans (i7 hc) dn
      · rw [i6 (by omega)]
        have g : f32.GRep (16777216 : ℚ) := by
          have := grep_int (n := 16777216) (by norm_num)
          exact_mod_cast this
        refine rv_ge g ?_
        exact_mod_cast hs

theorem rv_bytes {y : Nat} (h : y ≤ 255) : f32.rv (4294967296 + y) ≤ 4294967296 := by
  have e : f32.rv (4294967296 + 256) = 4294967296 := by decide +kernel
  rw [← e]
  have : (y : ℚ) ≤ 255 := by exact_mod_cast h
  exact rv_mono (by rw [e]; linarith)

theorem rv_squares {y : Nat} (h : y ≤ 65025) : f32.rv (1099511627776 + y) ≤ 1099511627776 := by
  have e : f32.rv (1099511627776 + 65536) = 1099511627776 := by decide +kernel
  rw [← e]
  have : (y : ℚ) ≤ 65025 := by exact_mod_cast h
  exact rv_mono (by rw [e]; linarith)

theorem byte_le {n : Nat → Nat → Nat} (h : NormArgs m p q R C 1 1 a b (fun i j => (n i j : ℚ))) {i j : Nat} (hi : i < R) (hj : j < C) : n i j ≤ 255 := by
  have h1 := h.val i j hi hj
  have h2 := h.src.2 i j 0 hi hj (by decide)
  have h3 : some ((a i j 0 : Nat) : ℚ) = some (n i j : ℚ) := h1
  have : a i j 0 = n i j := by exact_mod_cast Option.some.inj h3
  omega

/-- **C80**, the sum, for byte images of every size: with the L1 norm every value is multiplied by `alpha` and divided by the sum of all values, rounded to a whole
number.  The sum may be far beyond what a float can count: then both quotients vanish. -/
theorem C80_l1_bytes_partial {n : Nat → Nat → Nat} (h : NormArgs m p q R C 1 1 a b (fun i j => (n i j : ℚ))) (hα : alpha.Is α) (a0 : 0 ≤ α) (a1 : α ≤ 255)
    (beta : FV) (s0 : 0 < pixelSum R C n) :
    ∃ y m', hypercv_normalize (some p) (some q) alpha beta 2 m = .ok ((), m') ∧ Normalised m m' q R C 1 1 y ∧
      ∀ i j, i < R → j < C → |((y i j).toNat : ℚ) - n i j * α / pixelSum R C n| ≤ 1 / 2 + 1 / 1000 := by
  by_cases hS : pixelSum R C n ≤ 16777216
  · exact C80_l1_partial h hα a0 a1 beta s0 hS
  obtain ⟨m', h1, h2⟩ := norm_case (alpha := alpha) (beta := beta) (t := 2) h rfl
  refine ⟨_, m', h1, h2, ?_⟩
  obtain ⟨s, i1, i2, i3, i4, i5, i6, i7⟩ := sum_up (v := fun k => normAbs (normVal 1 (pxF C 1 a k))) (y := fun e => n (e / C) (e % C)) (B := 4294967296) (by norm_num)
    (by norm_num) (R * C) (fun e he => by
      obtain ⟨k1, k2, k3⟩ := flat_split he
      have := byte_le h k1 k2
      exact ⟨abs_is (norm_vals h e he) (Nat.cast_nonneg _), by omega, rv_bytes this⟩)
  have s24 : 16777216 ≤ s := i7 (by rw [flat_pixelSum]; omega)
  have hS' : (16777216:ℚ) ≤ (pixelSum R C n : ℕ) := by exact_mod_cast (by omega : 16777216 ≤ pixelSum R C n)
  intro i j hi hj
  have hb := byte_le h hi hj
  have u0 : (0:ℚ) ≤ (n i j : ℕ) := Nat.cast_nonneg _
  have u1 : ((n i j : ℕ) : ℚ) ≤ 255 := by exact_mod_cast hb
  obtain ⟨g1, g2⟩ := normDiv_is hα (norm_px h hi hj) i1 a0 a1 u0 (by linarith) (le_trans (by norm_num) s24) (le_trans i4 (by norm_num))
  have p0 : 0 ≤ (n i j : ℚ) * α := mul_nonneg u0 a0
  have p1 : (n i j : ℚ) * α ≤ 65025 := le_trans (mul_le_mul u1 a1 a0 (by norm_num)) (by norm_num)
  have small : ∀ S : ℚ, 16777216 ≤ S → 0 ≤ (n i j : ℚ) * α / S ∧ (n i j : ℚ) * α / S ≤ 1 / 200 := by
    intro S hS
    refine ⟨div_nonneg p0 (by linarith), ?_⟩
    rw [div_le_iff₀ (by linarith)]
    linarith
  obtain ⟨q0, q1⟩ := small s s24
  obtain ⟨r0, r1⟩ := small _ hS'
  have := sat_close g1 g2 q0 (by linarith)
  rw [abs_le] at this
  have hz : ((saturate_cast_float2uchar (normDiv alpha (scanS (fun s k => f32.add s (normAbs (normVal 1 (pxF C 1 a k)))) (.fin false 0) (R * C)) (normVal 1 (a i j 0)))).toNat : ℚ) < 1 := by
    linarith [this.2]
  have hz0 : (saturate_cast_float2uchar (normDiv alpha (scanS (fun s k => f32.add s (normAbs (normVal 1 (pxF C 1 a k)))) (.fin false 0) (R * C)) (normVal 1 (a i j 0)))).toNat = 0 := by
    have : (saturate_cast_float2uchar (normDiv alpha (scanS (fun s k => f32.add s (normAbs (normVal 1 (pxF C 1 a k)))) (.fin false 0) (R * C)) (normVal 1 (a i j 0)))).toNat < 1 := by
      exact_mod_cast hz
    omega
  beta_reduce
  rw [hz0, abs_le]
  push_cast
  constructor <;> linarith

/-- the squares of a byte image -/
theorem byte_squares {n : Nat → Nat → Nat} (h : NormArgs m p q R C 1 1 a b (fun i j => (n i j : ℚ))) (e : Nat) (he : e < R * C) :
    (normSq 1 (pxF C 1 a e)).Is ((n (e / C) (e % C) * n (e / C) (e % C) : Nat) : ℚ) ∧ n (e / C) (e % C) * n (e / C) (e % C) ≤ 65025 := by
  obtain ⟨k1, k2, k3⟩ := flat_split he
  have hb := byte_le h k1 k2
  have : n (e / C) (e % C) * n (e / C) (e % C) ≤ 255 * 255 := Nat.mul_le_mul hb hb
  exact ⟨sq_is (FitsP.pxF h.src.2 e (by omega)) (norm_vals h e he) (by omega), by omega⟩

/-- **C80**, the Euclidean norm, for byte images of up to 2^22 pixels: with the L2 norm every value is multiplied by `alpha` and divided by the square root of the sum
of the squares, rounded to a whole number; if the sum of the squares is above 2^24, the error grows with the number of pixels, up to 8 for 2^22 pixels.

Missing: larger images, for which this is false (`C80_refuted_large`). -/
theorem C80_l2_bytes_partial {n : Nat → Nat → Nat} (h : NormArgs m p q R C 1 1 a b (fun i j => (n i j : ℚ))) (hα : alpha.Is α) (a0 : 0 ≤ α) (a1 : α ≤ 255)
    (beta : FV) (s0 : 0 < pixelSum R C fun i j => n i j * n i j) (hN : R * C ≤ 4194304) :
    ∃ y m', hypercv_normalize (some p) (some q) alpha beta 4 m = .ok ((), m') ∧ Normalised m m' q R C 1 1 y ∧
      ∀ i j, i < R → j < C → |((y i j).toNat : ℝ) - n i j * α / Real.sqrt (pixelSum R C fun i j => n i j * n i j)|
        ≤ 1 / 2 + 1 / 1000 + (if (pixelSum R C fun i j => n i j * n i j) ≤ 16777216 then 0 else ((R * C : Nat) : ℝ) / 2 ^ 19) := by
  by_cases hS : (pixelSum R C fun i j => n i j * n i j) ≤ 16777216
  · rw [if_pos hS, add_zero]
    exact C80_l2_partial h hα a0 a1 beta s0 hS
  rw [if_neg hS]
  obtain ⟨m', h1, h2⟩ := norm_case (alpha := alpha) (beta := beta) (t := 4) h rfl
  refine ⟨_, m', h1, h2, ?_⟩
  obtain ⟨s, i1, i2, i3, i4, i5, i6, i7⟩ := sum_up (v := fun k => normSq 1 (pxF C 1 a k)) (y := fun e => n (e / C) (e % C) * n (e / C) (e % C)) (B := 1099511627776)
    (by norm_num) (by norm_num) (R * C) (fun e he => ⟨(byte_squares h e he).1, by have := (byte_squares h e he).2; omega, rv_squares (byte_squares h e he).2⟩)
  have fl : ∑ e ∈ Finset.range (R * C), n (e / C) (e % C) * n (e / C) (e % C) = pixelSum R C fun i j => n i j * n i j := flat_pixelSum (n := fun i j => n i j * n i j)
  rw [fl] at i6 i7
  have s24 : 16777216 ≤ s := i7 (by omega)
  -- the error of the sum
  have hS40 : (pixelSum R C fun i j => n i j * n i j) ≤ 4194304 * 65025 := by
    rw [← fl]
    refine le_trans (Finset.sum_le_card_nsmul _ _ 65025 fun e he => (byte_squares h e (Finset.mem_range.1 he)).2) ?_
    rw [Finset.card_range, smul_eq_mul]
    exact Nat.mul_le_mul_right _ hN
  have hu : f32.u = 1 / 2 ^ 24 := by norm_num [Fmt.u, f32]
  have hpow := pow_u_le f32 (R * C) (by
    rw [hu]
    have : ((R * C : Nat) : ℚ) ≤ 4194304 := by exact_mod_cast hN
    linarith)
  have hRC : ((R * C : Nat) : ℚ) ≤ 4194304 := by exact_mod_cast hN
  have hRC0 : (0:ℚ) ≤ ((R * C : Nat) : ℚ) := Nat.cast_nonneg _
  have sumQ : ∑ i ∈ Finset.range (R * C), |((n (i / C) (i % C) * n (i / C) (i % C) : Nat) : ℚ)| = ((pixelSum R C fun i j => n i j * n i j : ℕ) : ℚ) := by
    rw [← fl]
    push_cast
    exact Finset.sum_congr rfl fun e _ => abs_of_nonneg (by positivity)
  have sumQ' : ∑ i ∈ Finset.range (R * C), ((n (i / C) (i % C) * n (i / C) (i % C) : Nat) : ℚ) = ((pixelSum R C fun i j => n i j * n i j : ℕ) : ℚ) := by
    rw [← fl]
    push_cast
    rfl
  have hSq : ((pixelSum R C fun i j => n i j * n i j : ℕ) : ℚ) ≤ 4194304 * 65025 := by exact_mod_cast hS40
  have hSq0 : (16777216:ℚ) ≤ ((pixelSum R C fun i j => n i j * n i j : ℕ) : ℚ) := by exact_mod_cast (by omega : 16777216 ≤ pixelSum R C fun i j => n i j * n i j)
  obtain ⟨z, z1, z2⟩ := sum_err (F := f32) (v := fun k => normSq 1 (pxF C 1 a k)) (x := fun e => ((n (e / C) (e % C) * n (e / C) (e % C) : Nat) : ℚ)) (w := .fin false 0) (a := 0)
    (R * C) (fun e he => ⟨(byte_squares h e he).1, by
      have := rep32_int (n := ((n (e / C) (e % C) * n (e / C) (e % C) : Nat) : Int)) (by have := (byte_squares h e he).2; rw [abs_le]; omega)
      exact_mod_cast this⟩) (val_zero f32) (by
      rw [sumQ, abs_zero, zero_add]
      have h2 : (1 + f32.u) ^ (R * C) ≤ 2 := by
        refine le_trans hpow ?_
        rw [hu]
        linarith
      have : (1 + f32.u) ^ (R * C) * ((pixelSum R C fun i j => n i j * n i j : ℕ) : ℚ) ≤ 2 * (4194304 * 65025) :=
        mul_le_mul h2 hSq (by linarith) (by norm_num)
      refine lt_of_le_of_lt this ?_
      have : (2:ℚ) ^ (2 ^ (f32.w - 1)) = 2 ^ 128 := rfl
      rw [this]
      norm_num)
  rw [← scan_foldl (fun s k => f32.add s (normSq 1 (pxF C 1 a k)))] at z1
  have ez : z = s := FV.Is.inj z1.1 i1
  rw [ez, sumQ, sumQ', abs_zero, zero_add] at z2
  have err : |s - ((pixelSum R C fun i j => n i j * n i j : ℕ) : ℚ)| ≤ ((R * C : Nat) : ℚ) / 2 ^ 23 * ((pixelSum R C fun i j => n i j * n i j : ℕ) : ℚ) := by
    refine le_trans z2 (mul_le_mul_of_nonneg_right ?_ (by linarith))
    rw [hu] at hpow
    rw [hu]
    linarith
  intro i j hi hj
  have hb := byte_le h hi hj
  have u0 : (0:ℚ) ≤ (n i j : ℕ) := Nat.cast_nonneg _
  have u1 : ((n i j : ℕ) : ℚ) ≤ 255 := by exact_mod_cast hb
  have hsq : (n i j : ℚ) * n i j ≤ s := by
    have := mul_le_mul u1 u1 u0 (by norm_num)
    linarith
  obtain ⟨r, g1, g2⟩ := normDivSqrt_is hα (norm_px h hi hj) i1 a0 a1 u0 hsq (by linarith) (le_trans i4 (by norm_num)) i2
  generalize (pixelSum R C fun i j => n i j * n i j) = S at *
  have hn0 : (0:ℝ) ≤ (n i j : ℕ) := Nat.cast_nonneg _
  have hn1 : ((n i j : ℕ) : ℝ) ≤ 255 := by exact_mod_cast hb
  have hα0 : (0:ℝ) ≤ α := by exact_mod_cast a0
  have hα1 : (α:ℝ) ≤ 255 := by exact_mod_cast a1
  have hs24 : (16777216:ℝ) ≤ (s:ℝ) := by exact_mod_cast s24
  have hS24 : (16777216:ℝ) ≤ ((S : ℕ) : ℝ) := by exact_mod_cast hSq0
  have root : ∀ t : ℝ, 16777216 ≤ t → 4096 ≤ Real.sqrt t := fun t ht => Real.le_sqrt_of_sq_le (by linarith)
  have k1 := root _ hs24
  have k2 := root _ hS24
  have w1 : Real.sqrt (s:ℝ) ^ 2 = s := Real.sq_sqrt (by linarith)
  have w2 : Real.sqrt ((S : ℕ) : ℝ) ^ 2 = (S : ℕ) := Real.sq_sqrt (by linarith)
  have errR : |(s:ℝ) - ((S : ℕ) : ℝ)| ≤ ((R * C : Nat) : ℝ) / 2 ^ 23 * ((S : ℕ) : ℝ) := by
    have := (Rat.cast_le (K := ℝ)).2 err
    push_cast at this ⊢
    exact this
  push_cast at g2
  have p0 : 0 ≤ ((n i j : ℕ) : ℝ) * α := mul_nonneg hn0 hα0
  have p1 : ((n i j : ℕ) : ℝ) * α ≤ 65025 := le_trans (mul_le_mul hn1 hα1 hα0 (by norm_num)) (by norm_num)
  have hq255 : ((n i j : ℕ) : ℝ) * α / Real.sqrt s ≤ 255 := by
    rw [div_le_iff₀ (by linarith)]
    linarith
  have fin := sat_close_real g1 g2 (div_nonneg p0 (by linarith)) hq255
  -- the quotients by the two roots
  have hN0 : (0:ℝ) ≤ ((R * C : Nat) : ℝ) := Nat.cast_nonneg _
  have droot : |Real.sqrt (S : ℕ) - Real.sqrt s| ≤ ((R * C : Nat) : ℝ) / 2 ^ 23 * Real.sqrt (S : ℕ) := by
    set A := Real.sqrt ((S : ℕ) : ℝ)
    set D := Real.sqrt (s : ℝ)
    have e : |D ^ 2 - A ^ 2| = |A - D| * (A + D) := by
      rw [show D ^ 2 - A ^ 2 = -((A - D) * (A + D)) by ring, abs_neg, abs_mul, abs_of_nonneg (show (0:ℝ) ≤ A + D by linarith)]
    rw [← w1, ← w2, e] at errR
    have hA : 0 < A := by linarith
    have h3 : |A - D| * A ≤ |A - D| * (A + D) := mul_le_mul_of_nonneg_left (by linarith) (abs_nonneg _)
    have h4 : |A - D| * A ≤ ((R * C : Nat) : ℝ) / 2 ^ 23 * A * A := by
      refine le_trans h3 (le_trans errR (le_of_eq ?_))
      ring
    exact le_of_mul_le_mul_right h4 hA
  have dq : |((n i j : ℕ) : ℝ) * α / Real.sqrt s - ((n i j : ℕ) : ℝ) * α / Real.sqrt (S : ℕ)| ≤ ((R * C : Nat) : ℝ) / 2 ^ 19 := by
    set A := Real.sqrt ((S : ℕ) : ℝ)
    set D := Real.sqrt (s : ℝ)
    have hA : 0 < A := by linarith
    have hD : 0 < D := by linarith
    have e : ((n i j : ℕ) : ℝ) * α / D - ((n i j : ℕ) : ℝ) * α / A = ((n i j : ℕ) : ℝ) * α * (A - D) / (D * A) := by
      field_simp
    rw [e, abs_div, abs_mul, abs_of_nonneg p0, abs_of_pos (mul_pos hD hA), div_le_iff₀ (mul_pos hD hA)]
    have h5 : ((n i j : ℕ) : ℝ) * α * |A - D| ≤ 65025 * (((R * C : Nat) : ℝ) / 2 ^ 23 * A) := mul_le_mul p1 droot (abs_nonneg _) (by norm_num)
    have h6 : (0:ℝ) ≤ ((R * C : Nat) : ℝ) * A := mul_nonneg hN0 hA.le
    have h7 : ((R * C : Nat) : ℝ) * A * 4096 ≤ ((R * C : Nat) : ℝ) * A * D := mul_le_mul_of_nonneg_left k1 h6
    have h8 : ((R * C : Nat) : ℝ) / 2 ^ 19 * (D * A) = ((R * C : Nat) : ℝ) * A * D / 2 ^ 19 := by ring
    have h9 : 65025 * (((R * C : Nat) : ℝ) / 2 ^ 23 * A) = ((R * C : Nat) : ℝ) * A * 65025 / 2 ^ 23 := by ring
    rw [h8]
    rw [h9] at h5
    refine le_trans h5 ?_
    have : ((R * C : Nat) : ℝ) * A * 65025 / 2 ^ 23 ≤ ((R * C : Nat) : ℝ) * A * 4096 / 2 ^ 19 := by
      rw [div_le_div_iff₀ (by positivity) (by positivity)]
      nlinarith
    refine le_trans this ?_
    exact div_le_div_of_nonneg_right h7 (by positivity)
  have tri := abs_sub_le ((saturate_cast_float2uchar (normDivSqrt alpha (scanS (fun s k => f32.add s (normSq 1 (pxF C 1 a k))) (.fin false 0) (R * C)) (normVal 1 (a i j 0)))).toNat : ℝ)
    (((n i j : ℕ) : ℝ) * α / Real.sqrt s) (((n i j : ℕ) : ℝ) * α / Real.sqrt (S : ℕ))
  beta_reduce
  linarith

/-- **C80 refuted** for large images: the float sum of the squares stops growing at 2^24.  In every byte image of 2^26 pixels or more whose values are 1 and whose last
value is 255, normalised to `alpha` = 255, this value becomes 16; the exact quotient is less than 8. -/
theorem C80_refuted_large {n : Nat → Nat → Nat} (h : NormArgs m p q R C 1 1 a b (fun i j => (n i j : ℚ))) (hN : 67108864 ≤ R * C)
    (hn : ∀ i j, i < R → j < C → n i j = if i * C + j + 1 = R * C then 255 else 1) (beta : FV) :
    ∃ y m', hypercv_normalize (some p) (some q) (.fin false 255) beta 4 m = .ok ((), m') ∧ Normalised m m' q R C 1 1 y ∧
      (y (R - 1) (C - 1)).toNat = 16 ∧ (n (R - 1) (C - 1) : ℝ) * 255 / Real.sqrt (pixelSum R C fun i j => n i j * n i j) < 8 := by
  obtain ⟨m', h1, h2⟩ := norm_case (alpha := .fin false 255) (beta := beta) (t := 4) h rfl
  refine ⟨_, m', h1, h2, ?_⟩
  have hR : 0 < R := Nat.pos_of_ne_zero (by rintro rfl; simp at hN)
  have hC : 0 < C := Nat.pos_of_ne_zero (by rintro rfl; simp at hN)
  obtain ⟨N, eN⟩ : ∃ N, R * C = N + 1 := ⟨R * C - 1, by omega⟩
  have last : (R - 1) * C + (C - 1) = N := by
    have : (R - 1) * C + C = R * C := by rw [← Nat.succ_mul]; congr 1; omega
    omega
  have hlast : n (R - 1) (C - 1) = 255 := by rw [hn _ _ (by omega) (by omega), if_pos (by omega)]
  have dv : N / C = R - 1 := by rw [← last]; exact mix_div (by omega)
  have md : N % C = C - 1 := by rw [← last]; exact mix_mod (by omega)
  have one : ∀ e, e < N → n (e / C) (e % C) = 1 := by
    intro e he
    obtain ⟨k1, k2, k3⟩ := flat_split (R := R) (C := C) (p := e) (by omega)
    rw [hn _ _ k1 k2, if_neg (by omega)]
  obtain ⟨s, i1, i2, i3, i4, i5, i6, i7⟩ := sum_up (v := fun k => normSq 1 (pxF C 1 a k)) (y := fun e => n (e / C) (e % C) * n (e / C) (e % C)) (B := 16777216)
    (by norm_num) (by norm_num) N (fun e he => ⟨(byte_squares h e (by omega)).1, by have := (byte_squares h e (by omega)).2; omega, by
      rw [one e he]
      have e : f32.rv (16777216 + 1) = 16777216 := by decide +kernel
      simpa using e.le⟩)
  have sumN : ∑ e ∈ Finset.range N, n (e / C) (e % C) * n (e / C) (e % C) = N := by
    rw [Finset.sum_congr rfl fun e he => by rw [one e (Finset.mem_range.1 he)]]
    simp
  have es : s = 16777216 := le_antisymm i4 (i7 (by rw [sumN]; omega))
  subst es
  have bl := (byte_squares h N (by omega)).1
  rw [dv, md, hlast] at bl
  have et : f32.rv (16777216 + ((255 * 255 : Nat) : ℚ)) = 16842240 := by decide +kernel
  have tot : (scanS (fun s k => f32.add s (normSq 1 (pxF C 1 a k))) (.fin false 0) (R * C)).Is 16842240 := by
    rw [eN, ← et]
    exact rnd_add i1 bl (lt_max (b := 2 ^ 100) (by rw [et]; norm_num) (by norm_num))
  have px := norm_px h (i := R - 1) (j := C - 1) (by omega) (by omega)
  rw [hlast] at px
  obtain ⟨r, g1, g2⟩ := normDivSqrt_is (α := 255) (⟨false, rfl⟩ : (FV.fin false 255).Is 255) px tot (by norm_num) (by norm_num) (by norm_num) (by norm_num) (by norm_num) (by norm_num)
    (by rw [← et]; exact rv_grep f32 _)
  constructor
  · beta_reduce
    have r1 : (4103:ℝ) ≤ Real.sqrt ((16842240 : ℚ) : ℝ) := Real.le_sqrt_of_sq_le (by norm_num)
    have r2 : Real.sqrt ((16842240 : ℚ) : ℝ) ≤ 4104 := Real.sqrt_le_iff.2 ⟨by norm_num, by norm_num⟩
    push_cast at g2 r1 r2
    have q1 : (15.84:ℝ) ≤ 255 * 255 / Real.sqrt 16842240 := by
      rw [le_div_iff₀ (by linarith)]
      linarith
    have q2 : 255 * 255 / Real.sqrt 16842240 ≤ (15.85:ℝ) := by
      rw [div_le_iff₀ (by linarith)]
      linarith
    have fin := sat_close_real g1 g2 (by linarith) (by linarith)
    rw [abs_le] at fin
    revert fin
    generalize (saturate_cast_float2uchar _).toNat = z
    rintro ⟨l1, l2⟩
    have k1 : (15:ℝ) < z := by linarith
    have k2 : (z:ℝ) < 17 := by linarith
    have k1 : 15 < z := by exact_mod_cast k1
    have k2 : z < 17 := by exact_mod_cast k2
    omega
  · have fl : pixelSum R C (fun i j => n i j * n i j) = N + 255 * 255 := by
      rw [← flat_pixelSum (n := fun i j => n i j * n i j), eN, Finset.sum_range_succ, sumN, dv, md, hlast]
    rw [fl, hlast]
    have hb : (67108864:ℝ) ≤ ((N + 255 * 255 : Nat) : ℝ) := by exact_mod_cast (by omega : 67108864 ≤ N + 255 * 255)
    have : (8192:ℝ) ≤ Real.sqrt ((N + 255 * 255 : Nat) : ℝ) := Real.le_sqrt_of_sq_le (by linarith)
    rw [div_lt_iff₀ (by linarith)]
    have e : ((255 : ℕ) : ℝ) * 255 = 65025 := by norm_num
    rw [e]
    linarith

/-- a sum is a number of the format and at least as large as each of its terms -/
theorem scan_ge {v : Nat → FV} {z : Nat → ℚ} : ∀ n {s : ℚ}, (scanS (fun s k => f32.add s (v k)) (.fin false 0) n).Is s → (∀ e, e < n → (v e).Is (z e) ∧ 0 ≤ z e ∧ f32.GRep (z e)) →
    f32.GRep s ∧ 0 ≤ s ∧ ∀ e, e < n → z e ≤ s
  | 0, s, hs, _ => by
    have e : s = 0 := FV.Is.inj hs ⟨false, rfl⟩
    subst e
    exact ⟨⟨0, f32.emin, by simp, by simp, le_refl _⟩, le_refl _, fun e he => absurd he (by omega)⟩
  | n+1, s, hs, h => by
    obtain ⟨sg, hs'⟩ := hs
    obtain ⟨x, y, h1, h2, h3⟩ := add_fin_inv (F := f32) (a := scanS (fun s k => f32.add s (v k)) (.fin false 0) n) (b := v n) hs'
    obtain ⟨k1, k2, k3⟩ := h n (by omega)
    have ey : y = z n := FV.Is.inj h2 k1
    subst ey
    obtain ⟨j1, j2, j3⟩ := scan_ge n h1 (fun e he => h e (by omega))
    subst h3
    have up : x ≤ f32.rv (x + z n) := rv_ge j1 (by linarith)
    refine ⟨rv_grep f32 _, le_trans j2 up, ?_⟩
    intro e he
    by_cases hen : e = n
    · subst hen
      exact rv_ge k3 (by linarith)
    · exact le_trans (j3 e (by omega)) up

theorem abs_neg_is {v : FV} {x : ℚ} (hv : v.Is x) : (normAbs v).Is |x| := by
  by_cases h : 0 ≤ x
  · rw [abs_of_nonneg h]
    exact abs_is hv h
  · push Not at h
    unfold normAbs
    have : FV.le (.fin false 0) v = false := by
      unfold FV.le
      rw [lt_is (⟨false, rfl⟩ : (FV.fin false 0).Is 0) hv, feq_is (⟨false, rfl⟩ : (FV.fin false 0).Is 0) hv]
      simp [h.ne', h.not_gt]
    rw [if_neg (by rw [this]; decide), abs_of_neg h]
    exact is_neg hv

theorem norm_rep (h : NormArgs m p q R C dt E a b x) {e : Nat} (he : e < R * C) : f32.Rep (x (e / C) (e % C)) := by
  have hv := norm_vals h e he
  unfold normVal at hv
  split at hv
  · have hg := good_ofInt f32 (pxF C 1 a e)
    exact (good_val hg hv).2
  · exact (good_val (good_decode f32_std _) hv).2

/-- **C80**, the sum, for all images of up to 2^22 pixels and any finite values, also negative ones: with the L1 norm every value that is not negative is multiplied by
`alpha` and divided by the sum of the magnitudes, rounded to a whole number, up to an error that grows with the number of pixels; negative values become 0. -/
theorem C80_l1_float_partial (h : NormArgs m p q R C dt E a b x) (hα : alpha.Is α) (a0 : 0 ≤ α) (a1 : α ≤ 255) (beta : FV) (hN : R * C ≤ 4194304) {S : ℚ}
    (hS : S = ∑ i ∈ Finset.range R, ∑ j ∈ Finset.range C, |x i j|) (s0 : 1 / 2 ^ 50 ≤ S) (s1 : S ≤ 2 ^ 90) :
    ∃ y m', hypercv_normalize (some p) (some q) alpha beta 2 m = .ok ((), m') ∧ Normalised m m' q R C dt E y ∧
      ∀ i j, i < R → j < C → (0 ≤ x i j → |((y i j).toNat : ℚ) - x i j * α / S| ≤ 1 / 2 + 1 / 1000 + ((R * C : Nat) : ℚ) / 2 ^ 15) ∧ (x i j < 0 → (y i j).toNat = 0) := by
  obtain ⟨m', h1, h2⟩ := norm_case (alpha := alpha) (beta := beta) (t := 2) h rfl
  refine ⟨_, m', h1, h2, ?_⟩
  have hu : f32.u = 1 / 2 ^ 24 := by norm_num [Fmt.u, f32]
  have hRC : ((R * C : Nat) : ℚ) ≤ 4194304 := by exact_mod_cast hN
  have hRC0 : (0:ℚ) ≤ ((R * C : Nat) : ℚ) := Nat.cast_nonneg _
  have hpow := pow_u_le f32 (R * C) (by rw [hu]; linarith)
  have fl : ∑ e ∈ Finset.range (R * C), |x (e / C) (e % C)| = S := by
    rw [hS, sum_flat]
    refine Finset.sum_congr rfl fun i _ => Finset.sum_congr rfl fun j hj => ?_
    rw [mix_div (Finset.mem_range.1 hj), mix_mod (Finset.mem_range.1 hj)]
  have Spos : 0 < S := lt_of_lt_of_le (by norm_num) s0
  have rep : ∀ e, e < R * C → f32.Rep |x (e / C) (e % C)| := by
    intro e he
    rcases abs_choice (x (e / C) (e % C)) with h0 | h0 <;> rw [h0]
    · exact norm_rep h he
    · exact rep_neg' (norm_rep h he)
  obtain ⟨z, z1, z2⟩ := sum_err (F := f32) (v := fun k => normAbs (normVal E (pxF C 1 a k))) (x := fun e => |x (e / C) (e % C)|) (w := .fin false 0) (a := 0)
    (R * C) (fun e he => ⟨abs_neg_is (norm_vals h e he), rep e he⟩) (val_zero f32) (by
      simp only [abs_abs]
      rw [fl, abs_zero, zero_add]
      have h2 : (1 + f32.u) ^ (R * C) ≤ 2 := by
        refine le_trans hpow ?_
        rw [hu]
        linarith
      have : (1 + f32.u) ^ (R * C) * S ≤ 2 * 2 ^ 90 := mul_le_mul h2 s1 Spos.le (by norm_num)
      refine lt_of_le_of_lt this ?_
      have : (2:ℚ) ^ (2 ^ (f32.w - 1)) = 2 ^ 128 := rfl
      rw [this]
      norm_num)
  rw [← scan_foldl (fun s k => f32.add s (normAbs (normVal E (pxF C 1 a k))))] at z1
  simp only [abs_abs] at z2
  rw [fl, abs_zero, zero_add] at z2
  have err : |z - S| ≤ ((R * C : Nat) : ℚ) / 2 ^ 23 * S := by
    refine le_trans z2 (mul_le_mul_of_nonneg_right ?_ Spos.le)
    rw [hu] at hpow
    rw [hu]
    linarith
  obtain ⟨_, _, ge⟩ := scan_ge (R * C) z1.1 (fun e he => ⟨abs_neg_is (norm_vals h e he), abs_nonneg _, (rep e he).g⟩)
  have half : ((R * C : Nat) : ℚ) / 2 ^ 23 * S ≤ 1 / 2 * S := mul_le_mul_of_nonneg_right (by linarith) Spos.le
  have zlo : S / 2 ≤ z := by have := (abs_le.1 err).1; linarith
  have zhi : z ≤ 2 ^ 91 := by have := (abs_le.1 err).2; linarith
  have zpos : 0 < z := by linarith
  intro i j hi hj
  have xz : |x i j| ≤ z := by
    have := ge (i * C + j) (mix_lt hi hj)
    rwa [mix_div hj, mix_mod hj] at this
  constructor
  · intro x0
    rw [abs_of_nonneg x0] at xz
    obtain ⟨g1, g2⟩ := normDiv_is hα (norm_px h hi hj) z1.1 a0 a1 x0 xz (by linarith) (by linarith)
    have p0 : 0 ≤ x i j * α := mul_nonneg x0 a0
    have pz : x i j * α ≤ 255 * z := by
      rw [mul_comm 255]
      exact mul_le_mul xz a1 a0 zpos.le
    have := sat_close g1 g2 (div_nonneg p0 zpos.le) (by rw [div_le_iff₀ zpos]; exact pz)
    have dq : |x i j * α / z - x i j * α / S| ≤ ((R * C : Nat) : ℚ) / 2 ^ 15 := by
      have e : x i j * α / z - x i j * α / S = x i j * α * (S - z) / (z * S) := by field_simp
      rw [e, abs_div, abs_mul, abs_of_nonneg p0, abs_of_pos (mul_pos zpos Spos), div_le_iff₀ (mul_pos zpos Spos), abs_sub_comm]
      have h5 : x i j * α * |z - S| ≤ 255 * z * (((R * C : Nat) : ℚ) / 2 ^ 23 * S) := mul_le_mul pz err (abs_nonneg _) (by positivity)
      refine le_trans h5 ?_
      have h6 : 0 ≤ ((R * C : Nat) : ℚ) * (z * S) := mul_nonneg hRC0 (mul_pos zpos Spos).le
      have e1 : 255 * z * (((R * C : Nat) : ℚ) / 2 ^ 23 * S) = ((R * C : Nat) : ℚ) * (z * S) * (255 / 2 ^ 23) := by ring
      have e2 : ((R * C : Nat) : ℚ) / 2 ^ 15 * (z * S) = ((R * C : Nat) : ℚ) * (z * S) * (1 / 2 ^ 15) := by ring
      rw [e1, e2]
      exact mul_le_mul_of_nonneg_left (by norm_num) h6
    have tri := abs_sub_le ((saturate_cast_float2uchar (normDiv alpha (scanS (fun s k => f32.add s (normAbs (normVal E (pxF C 1 a k)))) (.fin false 0) (R * C)) (normVal E (a i j 0)))).toNat : ℚ)
      (x i j * α / z) (x i j * α / S)
    beta_reduce
    linarith
  · intro x0
    have g110 : f32.GRep ((2:ℚ) ^ (110 : ℤ)) := grep_two (by norm_num)
    have p0 : x i j * α ≤ 0 := mul_nonpos_of_nonpos_of_nonneg x0.le a0
    have pb : |x i j * α| ≤ 255 * z := by
      rw [abs_mul, abs_of_nonneg a0, mul_comm 255]
      exact mul_le_mul xz a1 a0 zpos.le
    have tb : |f32.rv (x i j * α)| ≤ (2:ℚ) ^ (110 : ℤ) := rv_abs_le g110 (le_trans pb (le_trans (mul_le_mul_of_nonneg_left zhi (by norm_num)) (by norm_num)))
    have i1 := rnd_mul (F := f32) (norm_px h hi hj) hα (lt_max tb (by norm_num))
    have g0 : f32.GRep 0 := ⟨0, f32.emin, by simp, by simp, le_refl _⟩
    have n1 : f32.rv (x i j * α) ≤ 0 := rv_le g0 p0
    have q1 := rv_abs (x i j * α)
    have g9 : f32.GRep (512:ℚ) := by
      have := grep_two (k := 9) (by norm_num); norm_num at this; exact this
    have tz : |f32.rv (x i j * α)| ≤ 512 * z := by
      have h3 : |f32.rv (x i j * α)| ≤ |f32.rv (x i j * α) - x i j * α| + |x i j * α| := by
        have := abs_add_le (f32.rv (x i j * α) - x i j * α) (x i j * α)
        simpa using this
      have h4 : |x i j * α| / 2 ^ 24 ≤ 255 * z / 2 ^ 24 := div_le_div_of_nonneg_right pb (by norm_num)
      have h5 : (1:ℚ) / 2 ^ 100 ≤ z := by
        have : (1:ℚ) / 2 ^ 100 ≤ 1 / 2 ^ 50 / 2 := by norm_num
        linarith
      linarith
    have ub : |f32.rv (f32.rv (x i j * α) / z)| ≤ 512 := rv_abs_le g9 (by
      rw [abs_div, abs_of_pos zpos, div_le_iff₀ zpos]
      exact tz)
    have i2 := rnd_div (F := f32) i1 z1.1 zpos.ne' (lt_max ub (by norm_num))
    have n2 : f32.rv (f32.rv (x i j * α) / z) ≤ 0 := rv_le g0 (div_nonpos_of_nonpos_of_nonneg n1 zpos.le)
    have := sat_mono i2 (⟨false, rfl⟩ : (FV.fin false 0).Is 0) n2
    have e0 : saturate_cast_float2uchar (.fin false 0) = 0 := by decide +kernel
    rw [e0] at this
    have e1 := UInt8.le_antisymm this (UInt8.zero_le)
    have e2 : saturate_cast_float2uchar (normDiv alpha (scanS (fun s k => f32.add s (normAbs (normVal E (pxF C 1 a k)))) (.fin false 0) (R * C)) (normVal E (a i j 0))) = 0 := e1
    beta_reduce
    rw [e2]
    rfl

/-- byte images beyond the exact sums: 300 x 300 pixels of value 200; and one for the refutation -/
example : (∃ m a, NormArgs m 1 1 300 300 1 1 a a (fun _ _ => ((200 : Nat) : ℚ)) ∧ 16777216 < pixelSum 300 300 (fun _ _ => 200)) ∧
    ∃ m a, NormArgs m 1 1 8192 8192 1 1 a a (fun i j => ((if i * 8192 + j + 1 = 8192 * 8192 then 255 else 1 : Nat) : ℚ)) := by
  have h1 := demoImageN (R := 300) (C := 300) (dt := 1) (E := 1) (a := fun _ _ _ => 200) rfl (by decide) (by decide) (by intros; decide)
  have h2 := demoImageN (R := 8192) (C := 8192) (dt := 1) (E := 1) (a := fun i j _ => if i * 8192 + j + 1 = 8192 * 8192 then 255 else 1) rfl (by decide) (by decide)
    (by intros; show _ < 256; split <;> omega)
  refine ⟨⟨_, _, ⟨Or.inl rfl, h1, h1, fun i j hi hj => rfl, by decide⟩, ?_⟩, ⟨_, _, ⟨Or.inl rfl, h2, h2, fun i j hi hj => rfl, by decide⟩⟩⟩
  simp [pixelSum]

/-- a float image with a negative value: 2, -1 and 5, with the sum 8 of the magnitudes -/
example : ∃ m a b x, NormArgs m 1 3 1 3 4 4 a b x ∧ (∑ i ∈ Finset.range 1, ∑ j ∈ Finset.range 3, |x i j|) = 8 ∧ x 0 1 < 0 := by
  obtain ⟨m, a, h⟩ := float_pair (R := 1) (C := 3) (x := fun _ j => if j = 0 then 2 else if j = 1 then -1 else 5) (by decide) (by decide) (by decide) (by
    intro i j _ _
    beta_reduce
    split
    · have := rep32_int (n := 2) (by decide); norm_num at this ⊢; exact this
    · split
      · have := rep32_int (n := -1) (by decide); norm_num at this ⊢; exact this
      · have := rep32_int (n := 5) (by decide); norm_num at this ⊢; exact this)
  refine ⟨m, a, _, _, h, ?_, by norm_num⟩
  norm_num [Finset.sum_range_succ]

end HyperCV
