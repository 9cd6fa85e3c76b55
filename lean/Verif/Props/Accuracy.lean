/- Accuracy of the numerical functions for arbitrary values: C61, C71, C72 and others. -/
import Verif.Proof.FloatSum
import Verif.Proof.FloatRoot
import Verif.Props.Math
import Verif.Props.Spectral
import Verif.Props.Matrix
import Verif.Props.Statistics

namespace HyperCV
open Spec Finset

theorem f64_u : f64.u = 1 / 2 ^ 53 := rfl
theorem f64_eta : f64.eta = 2 ^ (-1074 : ℤ) / 2 := rfl
theorem f64_max : ((2:ℚ) ^ (2 ^ (f64.w - 1))) = 2 ^ 1024 := rfl

/-- a multiple of the smallest number that is smaller than it is zero -/
theorem rep_tiny {F : Fmt} {q : ℚ} (h : F.Rep q) (hb : |q| ≤ F.eta) : q = 0 := by
  obtain ⟨k, rfl⟩ := rep_grid h
  have hp : (0:ℚ) < 2 ^ F.emin := by positivity
  rw [abs_mul, abs_of_pos hp] at hb
  unfold Fmt.eta at hb
  have h1 : |(k:ℚ)| < 1 := by
    by_contra c
    rw [not_lt] at c
    nlinarith
  have h2 : |k| < 1 := by exact_mod_cast h1
  have : k = 0 := Int.abs_lt_one_iff.1 h2
  rw [this]; simp

/-! ### C61: means of arrays -/

/-- sum of an array -/
theorem fold_sumInv {F : Fmt} {v : Nat → FV} {x : Nat → ℚ} {n : Nat} (hv : ∀ i, i < n → F.Val (v i) (x i)) (hn : (n:ℚ) * F.u ≤ 1 / 2)
    (hb : 4 * ∑ i ∈ range n, |x i| < 2 ^ (2 ^ (F.w - 1))) :
    SumInv F F.u 0 x n ((List.range n).foldl (fun r i => F.add r (v i)) (.fin false 0)) := by
  have key : ∀ k, k ≤ n → SumInv F F.u 0 x k ((List.range k).foldl (fun r i => F.add r (v i)) (.fin false 0)) := by
    intro k
    induction k with
    | zero => intro _; exact sumInv_zero
    | succ k ih =>
      intro hk
      rw [List.range_succ, List.foldl_append]
      exact sumInv_add hn (by omega) hb (hv k (by omega)) (ih (by omega))
  exact key n (le_refl _)

theorem meanOf_err {F : Fmt} {m : Mem} {ld : Int → M FV} {n : Nat} {v : Nat → FV} {x : Nat → ℚ}
    (h : ∀ i : Nat, i < n → ld (i:Int) m = .ok (v i, m)) (hv : ∀ i, i < n → F.Val (v i) (x i)) (hn0 : 0 < n) (hn : (n:ℚ) * F.u ≤ 1 / 2)
    (hb : 4 * ∑ i ∈ range n, |x i| + 1 < 2 ^ (2 ^ (F.w - 1))) (heta : F.eta ≤ 1) (hd : F.Rep n) :
    ∃ w z, meanOf F ld n m = .ok (w, m) ∧ F.Val w z ∧
      |z - (∑ i ∈ range n, x i) / n| ≤ 2 * (n + 1) * F.u * ((∑ i ∈ range n, |x i|) / n) + F.eta := by
  have hd' : (F.ofInt (n:Int)).Is n := by
    have := is_ofInt (F := F) (n := (n:ℤ)) (by push_cast; exact hd)
    push_cast at this
    exact this
  obtain ⟨z, z1, z2⟩ := mean_err hn0 hn hb heta hd' (fold_sumInv hv hn (by linarith))
  refine ⟨_, z, ?_, z1, z2⟩
  unfold meanOf
  rw [bind_ok (accSum_run _ h)]
  rfl

namespace Spec

/-- the outcome `r` is the mean of the integers `z 0`, ..., `z (n-1)` up to `(n+3) / 2^23` times the mean of their magnitudes; the memory stays `m` -/
def NearMean (r : Except Fail (FV × Mem)) (m : Mem) (n : Nat) (z : Nat → ℤ) : Prop :=
  ∃ v q, r = .ok (v, m) ∧ v.Is q ∧ |q - (∑ i ∈ range n, (z i : ℚ)) / n| ≤ (n + 3) / 2 ^ 23 * ((∑ i ∈ range n, |(z i : ℚ)|) / n)

end Spec

theorem f32_eta_le : f32.eta ≤ 1 / 2 ^ 100 := by rw [f32_eta]; norm_num [zpow_neg]

/-- sum of the rounding errors of converted integers -/
theorem conv_sums {y : Nat → ℚ} {z : Nat → ℤ} {n : Nat} (h : ∀ i, i < n → |y i - z i| ≤ f32.u * |(z i : ℚ)|) :
    |∑ i ∈ range n, y i - ∑ i ∈ range n, (z i : ℚ)| ≤ f32.u * ∑ i ∈ range n, |(z i : ℚ)| ∧
    ∑ i ∈ range n, |y i| ≤ (1 + f32.u) * ∑ i ∈ range n, |(z i : ℚ)| := by
  constructor
  · rw [← sum_sub_distrib, mul_sum]
    exact le_trans (abs_sum_le_sum_abs _ _) (sum_le_sum fun i hi => h i (mem_range.1 hi))
  · rw [mul_sum]
    refine sum_le_sum fun i hi => ?_
    have h1 := h i (mem_range.1 hi)
    have h2 := abs_add_le (y i - z i) (z i : ℚ)
    rw [sub_add_cancel] at h2
    linarith

theorem meanInt_err {m : Mem} {ld : Int → M FV} {n : Nat} {z : Nat → ℤ} (h : ∀ i : Nat, i < n → ld (i:Int) m = .ok (f32.ofInt (z i), m))
    (hz : ∀ i, i < n → |z i| ≤ 4294967296) (hn0 : 0 < n) (hn : n ≤ 8388608) : Spec.NearMean (meanOf f32 ld n m) m n z := by
  have hv : ∀ i, i < n → ∃ y, f32.Val (f32.ofInt (z i)) y ∧ |y - z i| ≤ f32.u * |(z i : ℚ)| := by
    intro i hi
    refine val_ofInt (z i) ?_ (by decide)
    have : |(z i : ℚ)| ≤ 4294967296 := by exact_mod_cast hz i hi
    rw [f32_u, f32_max]
    norm_num
    linarith
  classical
  choose! y y1 y2 using hv
  obtain ⟨c1, c2⟩ := conv_sums y2
  have hnq : (n:ℚ) ≤ 8388608 := by exact_mod_cast hn
  have hn1 : (1:ℚ) ≤ n := by exact_mod_cast hn0
  have hnp : (0:ℚ) < n := by linarith
  set A := ∑ i ∈ range n, |(z i : ℚ)| with hA
  have hA0 : 0 ≤ A := sum_nonneg fun _ _ => abs_nonneg _
  have hA1 : A ≤ n * 4294967296 := by
    have : A ≤ ∑ i ∈ range n, (4294967296 : ℚ) := sum_le_sum fun i hi => by exact_mod_cast hz i (mem_range.1 hi)
    simpa using this
  obtain ⟨w, s, e1, s1, s2⟩ := meanOf_err h y1 hn0 (by rw [f32_u]; norm_num; linarith) (by
    rw [f32_max]
    rw [f32_u] at c2
    norm_num at c2 ⊢
    nlinarith) (by have := f32_eta_le; norm_num at this ⊢; linarith) (by
      have := rep32_int (n := (n:ℤ)) (by rw [abs_of_nonneg (by omega)]; omega)
      push_cast at this
      exact this)
  refine ⟨w, s, e1, s1.1, ?_⟩
  rw [← hA]
  rcases eq_or_lt_of_le hA0 with h0 | h0
  · -- all elements are zero
    rw [← h0, mul_zero] at c1 c2
    have hy0 : ∑ i ∈ range n, |y i| = 0 := le_antisymm c2 (sum_nonneg fun _ _ => abs_nonneg _)
    have hz0 : ∑ i ∈ range n, (z i : ℚ) = 0 := by
      have := abs_sum_le_sum_abs (fun i => (z i : ℚ)) (range n)
      rw [← hA, ← h0] at this
      exact abs_eq_zero.1 (le_antisymm this (abs_nonneg _))
    have hys : ∑ i ∈ range n, y i = 0 := by
      have := abs_sum_le_sum_abs y (range n)
      rw [hy0] at this
      exact abs_eq_zero.1 (le_antisymm this (abs_nonneg _))
    rw [hys, hy0, zero_div, mul_zero, zero_add, sub_zero] at s2
    rw [rep_tiny s1.2 s2, hz0, ← h0]
    simp
  · have hA2 : 1 ≤ A := by
      have : ((0:ℤ) : ℚ) < ((∑ i ∈ range n, |z i| : ℤ) : ℚ) := by push_cast; exact h0
      have : (0:ℤ) < ∑ i ∈ range n, |z i| := by exact_mod_cast this
      have : (1:ℤ) ≤ ∑ i ∈ range n, |z i| := this
      have : ((1:ℤ) : ℚ) ≤ ((∑ i ∈ range n, |z i| : ℤ) : ℚ) := by exact_mod_cast this
      push_cast at this
      exact this
    have e2 : s - (∑ i ∈ range n, (z i : ℚ)) / n = (s - (∑ i ∈ range n, y i) / n) + (∑ i ∈ range n, y i - ∑ i ∈ range n, (z i : ℚ)) / n := by
      field_simp; ring
    rw [e2]
    refine le_trans (abs_add_le _ _) ?_
    rw [abs_div, abs_of_pos hnp]
    have d1 : |∑ i ∈ range n, y i - ∑ i ∈ range n, (z i : ℚ)| / n ≤ f32.u * A / n := div_le_div_of_nonneg_right c1 hnp.le
    have d2 : (∑ i ∈ range n, |y i|) / n ≤ (1 + f32.u) * A / n := div_le_div_of_nonneg_right c2 hnp.le
    have d3 : f32.eta ≤ 1 / 2 ^ 60 * (A / n) := by
      refine le_trans f32_eta_le ?_
      have : (1:ℚ) / 8388608 ≤ A / n := by
        rw [div_le_div_iff₀ (by norm_num) hnp]; linarith
      norm_num at this ⊢
      linarith
    have d4 : 2 * (n + 1) * f32.u * ((∑ i ∈ range n, |y i|) / n) ≤ 2 * (n + 1) * f32.u * ((1 + f32.u) * A / n) :=
      mul_le_mul_of_nonneg_left d2 (by rw [f32_u]; positivity)
    have e3 : (1 + f32.u) * A / n = (1 + f32.u) * (A / n) := by ring
    have e4 : f32.u * A / n = f32.u * (A / n) := by ring
    rw [e4] at d1
    rw [e3] at d4
    have hq : 0 ≤ A / n := by positivity
    rw [f32_u] at *
    generalize A / n = a at *
    have d5 : ((2 * ((n:ℚ) + 1) * (1 / 2 ^ 24)) * (1 + 1 / 2 ^ 24) + 1 / 2 ^ 24 + 1 / 2 ^ 60) * a ≤ (n + 3) / 2 ^ 23 * a := by
      refine mul_le_mul_of_nonneg_right ?_ hq
      norm_num
      linarith
    nlinarith

/-- **C61**, every length up to 2^23 and every content: the mean of an integer array is the exact mean up to `(n+3) / 2^23` times the mean magnitude of the
elements, and memory is unchanged.  (It need not be the correctly rounded mean, see `C61_refuted`.) -/
theorem C61_error_partial {m : Mem} {t n : Nat} {b : Nat → Nat} (hn0 : 0 < n) (hn : n ≤ 8388608) :
    (IsArray m t 1 n b → NearMean (mean_uchar t n m) m n fun i => b i) ∧
    (IsArray m t 1 n b → NearMean (mean_char t n m) m n fun i => signed 1 (b i)) ∧
    (IsArray m t 2 n b → NearMean (mean_ushort t n m) m n fun i => b i) ∧
    (IsArray m t 2 n b → NearMean (mean_short t n m) m n fun i => signed 2 (b i)) ∧
    (IsArray m t 4 n b → NearMean (mean_uint t n m) m n fun i => b i) ∧
    (IsArray m t 4 n b → NearMean (mean_int t n m) m n fun i => signed 4 (b i)) := by
  have us : ∀ {w i : Nat}, w ≤ 4 → b i < 256 ^ w → |((b i : ℕ) : ℤ)| ≤ 4294967296 := by
    intro w i hw hb
    have : 256 ^ w ≤ 256 ^ 4 := Nat.pow_le_pow_right (by decide) hw
    rw [abs_of_nonneg (by omega)]
    omega
  have ss : ∀ {w i : Nat}, w ≤ 4 → b i < 256 ^ w → |signed w (b i)| ≤ 4294967296 := by
    intro w i hw hb
    have : 256 ^ w ≤ 256 ^ 4 := Nat.pow_le_pow_right (by decide) hw
    unfold signed
    rw [abs_le]
    split
    · omega
    · have e : ((256:ℤ) ^ w) = ((256 ^ w : ℕ) : ℤ) := by push_cast; rfl
      rw [e]
      constructor <;> omega
  refine ⟨fun h => ?_, fun h => ?_, fun h => ?_, fun h => ?_, fun h => ?_, fun h => ?_⟩
  all_goals have hh := isArray_iff.1 h
  · exact meanInt_err (fun i hi => bind_ok (f := fun b : Nat => (pure (f32.ofInt (b:Int)) : M FV)) (hh.load hi)) (fun i hi => us (by decide) (hh.2 i hi)) hn0 hn
  · exact meanInt_err (fun i hi => bind_ok (f := fun b : Nat => (pure (f32.ofInt (sval 1 b)) : M FV)) (hh.load hi)) (fun i hi => ss (by decide) (hh.2 i hi)) hn0 hn
  · exact meanInt_err (fun i hi => bind_ok (f := fun b : Nat => (pure (f32.ofInt (b:Int)) : M FV)) (hh.load hi)) (fun i hi => us (by decide) (hh.2 i hi)) hn0 hn
  · exact meanInt_err (fun i hi => bind_ok (f := fun b : Nat => (pure (f32.ofInt (sval 2 b)) : M FV)) (hh.load hi)) (fun i hi => ss (by decide) (hh.2 i hi)) hn0 hn
  · exact meanInt_err (fun i hi => bind_ok (f := fun b : Nat => (pure (f32.ofInt (b:Int)) : M FV)) (hh.load hi)) (fun i hi => us (by decide) (hh.2 i hi)) hn0 hn
  · exact meanInt_err (fun i hi => bind_ok (f := fun b : Nat => (pure (f32.ofInt (sval 4 b)) : M FV)) (hh.load hi)) (fun i hi => ss (by decide) (hh.2 i hi)) hn0 hn

example : IsArray (Mem.empty.putN 1 2 3 fun i => 65535 - i) 1 2 3 fun i => 65535 - i := demoArr 2 3 (by decide)

theorem f64_eta_le : f64.eta ≤ 1 := by
  rw [f64_eta]
  have : (2:ℚ) ^ (-1074 : ℤ) ≤ 2 ^ (0:ℤ) := zpow_le_zpow_right₀ (by norm_num) (by norm_num)
  rw [zpow_zero] at this
  linarith

theorem rep64_nat {n : Nat} (h : n ≤ 2147483647) : f64.Rep n := f64_rep_nat (by omega)

/-- means of `float` arrays with any finite elements -/
theorem C61_float {m : Mem} {t n : Nat} {b : Nat → Nat} {x : Nat → ℚ} (h : IsArray m t 4 n b) (hx : ∀ i, i < n → (f32.decode (b i)).Is (x i))
    (hn0 : 0 < n) (hn : n ≤ 8388608) (hb : ∑ i ∈ range n, |x i| ≤ 2 ^ 125) :
    ∃ v q, mean_float t n m = .ok (v, m) ∧ v.Is q ∧
      |q - (∑ i ∈ range n, x i) / n| ≤ (n + 1) / 2 ^ 23 * ((∑ i ∈ range n, |x i|) / n) + 1 / 2 ^ 150 := by
  have hh := isArray_iff.1 h
  have hnq : (n:ℚ) ≤ 8388608 := by exact_mod_cast hn
  obtain ⟨w, s, e1, s1, s2⟩ := meanOf_err (F := f32) (ld := fun i => do let b ← loadN 4 t i; pure (f32.decode b)) (m := m) (fun i hi => bind_ok (hh.load hi))
    (fun i hi => good_val (good_decode f32_std _) (hx i hi)) hn0 (by rw [f32_u]; norm_num; linarith) (by
      rw [f32_max]; norm_num at hb ⊢; linarith) (by have := f32_eta_le; norm_num at this ⊢; linarith) (by
      have := rep32_int (n := (n:ℤ)) (by rw [abs_of_nonneg (by omega)]; omega)
      push_cast at this
      exact this)
  refine ⟨w, s, e1, s1.1, le_trans s2 (le_of_eq ?_)⟩
  rw [f32_u, f32_eta]
  ring

/-- means of `double` arrays with any finite elements, every length -/
theorem C61_double {m : Mem} {t n : Nat} {b : Nat → Nat} {x : Nat → ℚ} (h : IsArray m t 8 n b) (hx : ∀ i, i < n → (f64.decode (b i)).Is (x i))
    (hn0 : 0 < n) (hn : n ≤ 2147483647) (hb : ∑ i ∈ range n, |x i| ≤ 2 ^ 1021) :
    ∃ v q, mean_double t n m = .ok (v, m) ∧ v.Is q ∧
      |q - (∑ i ∈ range n, x i) / n| ≤ (n + 1) / 2 ^ 52 * ((∑ i ∈ range n, |x i|) / n) + 1 / 2 ^ 1075 := by
  have hh := isArray_iff.1 h
  have hnq : (n:ℚ) ≤ 2147483647 := by exact_mod_cast hn
  obtain ⟨w, s, e1, s1, s2⟩ := meanOf_err (F := f64) (ld := fun i => do let b ← loadN 8 t i; pure (f64.decode b)) (m := m) (fun i hi => bind_ok (hh.load hi))
    (fun i hi => good_val (good_decode f64_std _) (hx i hi)) hn0 (by rw [f64_u]; norm_num; linarith) (by
      rw [f64_max]
      have e : (2:ℚ) ^ 1024 = 2 ^ 1021 * 2 ^ 3 := pow_add 2 1021 3
      have : (1:ℚ) ≤ 2 ^ 1021 := one_le_pow₀ (by norm_num)
      rw [e]
      clear e
      generalize (2:ℚ) ^ 1021 = c at *
      linarith) f64_eta_le (rep64_nat hn)
  refine ⟨w, s, e1, s1.1, le_trans s2 (le_of_eq ?_)⟩
  rw [f64_u, f64_eta]
  have : (2:ℚ) ^ (-1074 : ℤ) / 2 = 1 / 2 ^ 1075 := by
    rw [zpow_neg, pow_succ (2:ℚ) 1074, show ((1074:ℤ)) = ((1074:ℕ):ℤ) from rfl, zpow_natCast, one_div, mul_inv, div_eq_mul_inv]
  rw [this]
  generalize (1:ℚ) / 2 ^ 1075 = c
  ring

example : IsArray (Mem.empty.putN 1 4 4 demoF32) 1 4 4 demoF32 ∧ ∀ i, i < 4 → ∃ q, (f32.decode (demoF32 i)).Is q := by
  refine ⟨demoArr 4 4 (by decide), ?_⟩
  intro i hi
  obtain rfl | rfl | rfl | rfl : i = 0 ∨ i = 1 ∨ i = 2 ∨ i = 3 := by omega
  · exact ⟨1, false, by decide +kernel⟩
  · exact ⟨-2, true, by decide +kernel⟩
  · exact ⟨1/2, false, by decide +kernel⟩
  · exact ⟨1, false, by decide +kernel⟩

/-! ### C71: mean over the bands -/

theorem sumF_inv {v : Nat → FV} {x : Nat → ℚ} {n : Nat} (hv : ∀ i, i < n → f32.Val (v i) (x i)) (hn : n ≤ 8388608)
    (hb : ∑ i ∈ range n, |x i| ≤ 2 ^ 125) : SumInv f32 f32.u 0 x n (sumF v n) := by
  have hnq : (n:ℚ) ≤ 8388608 := by exact_mod_cast hn
  have := fold_sumInv hv (by rw [f32_u]; norm_num; linarith) (by rw [f32_max]; norm_num at hb ⊢; linarith)
  rwa [show (List.range n).foldl (fun r i => f32.add r (v i)) (.fin false 0) = sumF v n from floatSum_eq v n] at this

/-- **C71**, any finite spectra of at most 2^23 bands: every pixel of the result is the mean of the spectrum up to `(B+1) / 2^23` times the mean magnitude
of its values (and half the smallest `float`) -/
theorem C71_error {m : Mem} {p q S L B : Nat} {a b : Nat → Nat → Nat → Nat} {w : Nat → UInt8} {x : Nat → Nat → Nat → ℚ}
    (hs : IsCubeN m p .bip S L B 4 4 a w) (hd : IsImageN m q L S 4 1 4 b) (hN : S * L * B ≤ 2147483647)
    (hsep : ∀ h, ¬ (Owns m p h ∧ PixelBlock m q h)) (hx : ∀ i j k, i < L → j < S → k < B → FloatIs f32 (a i j k) (x i j k)) (hB : B ≤ 8388608)
    (hsum : ∀ i j, i < L → j < S → ∑ k ∈ range B, |x i j k| ≤ 2 ^ 125) :
    ∃ m' r, hyper_mat_mean (some p) (some q) m = .ok ((), m') ∧ IsImageN m' q L S 4 1 4 r ∧ OnlyPixels m m' q ∧ ∀ i j, i < L → j < S →
      ∃ y, FloatIs f32 (r i j 0) y ∧
        |y - (∑ k ∈ range B, x i j k) / B| ≤ (B + 1) / 2 ^ 23 * ((∑ k ∈ range B, |x i j k|) / B) + 1 / 2 ^ 150 := by
  obtain ⟨m', r, h1, h2, h3, h4⟩ := C71_mean hs hd hN hsep
  refine ⟨m', r, h1, h2, h4, ?_⟩
  intro i j hi hj
  have hBq : (B:ℚ) ≤ 8388608 := by exact_mod_cast hB
  have hb := hsum i j hi hj
  obtain ⟨z, z1, z2⟩ := mean_err (F := f32) (n := B) hs.1.posB (by rw [f32_u]; norm_num; linarith) (by rw [f32_max]; norm_num at hb ⊢; linarith)
    (by have := f32_eta_le; norm_num at this ⊢; linarith) (is_nat32 (by omega))
    (sumF_inv (fun k hk => good_val (good_decode f32_std _) (hx i j k hi hj hk)) hB hb)
  refine ⟨z, ?_, le_trans z2 (le_of_eq ?_)⟩
  · unfold FloatIs
    rw [h3 i j hi hj]
    unfold floatMean
    rw [floatSum_eq]
    exact z1.1
  · rw [f32_u, f32_eta]
    ring

/-! ### C72: distance of spectra -/

/-- **C72**, any finite spectra of at most 2^20 values whose squared distance lies in [2^-99, 2^125]: relative error at most `(n+5) / 2^23` -/
theorem C72_error {m : Mem} {x y n : Nat} {a b : Nat → Nat} {s t : Nat → ℚ} (hx : IsArray m x 4 n a) (hy : IsArray m y 4 n b)
    (hs : ∀ k, k < n → FloatIs f32 (a k) (s k)) (ht : ∀ k, k < n → FloatIs f32 (b k) (t k)) (hn : n ≤ 1048576)
    (h1 : 1 / 2 ^ 99 ≤ ∑ k ∈ range n, (s k - t k) ^ 2) (h2 : ∑ k ∈ range n, (s k - t k) ^ 2 ≤ 2 ^ 125) :
    ∃ d q, euclidean_distance x 0 y 0 n m = .ok (d, m) ∧ d.Is q ∧
      |(q:ℝ) - Real.sqrt (∑ k ∈ range n, ((s k : ℝ) - t k) ^ 2)| ≤ (n + 5) / 2 ^ 23 * Real.sqrt (∑ k ∈ range n, ((s k : ℝ) - t k) ^ 2) := by
  have run := euclid_run (isArray_iff.1 hx) (isArray_iff.1 hy)
  set T := ∑ k ∈ range n, (s k - t k) ^ 2 with hT
  have ds : ∀ k, k < n → ∃ e, f32.Val (f32.sub (f32.decode (a k)) (f32.decode (b k))) e ∧ |e - (s k - t k)| ≤ f32.u * |s k - t k| := by
    intro k hk
    refine val_sub (good_val (good_decode f32_std _) (hs k hk)) (good_val (good_decode f32_std _) (ht k hk)) ?_
    have : (s k - t k) ^ 2 ≤ (2 ^ 63) ^ 2 := by
      refine le_trans (single_le_sum (f := fun k => (s k - t k) ^ 2) (fun i _ => sq_nonneg _) (mem_range.2 hk)) (le_trans h2 ?_)
      norm_num
    have := abs_le_of_sq_le_sq this (by norm_num)
    rw [f32_u, f32_max]
    norm_num at this ⊢
    linarith
  choose! e e1 e2 using ds
  have sq : ∀ k, k < n → |e k ^ 2 - (s k - t k) ^ 2| ≤ (1 / 2 ^ 23 + 1 / 2 ^ 48) * (s k - t k) ^ 2 := by
    intro k hk
    have b := e2 k hk
    have e3 : e k ^ 2 - (s k - t k) ^ 2 = (e k - (s k - t k)) * ((e k - (s k - t k)) + 2 * (s k - t k)) := by ring
    rw [e3, abs_mul]
    have c : |e k - (s k - t k) + 2 * (s k - t k)| ≤ (f32.u + 2) * |s k - t k| := by
      refine le_trans (abs_add_le _ _) ?_
      rw [abs_mul, abs_of_pos (by norm_num : (0:ℚ) < 2)]
      linarith
    refine le_trans (mul_le_mul b c (abs_nonneg _) (by rw [f32_u]; positivity)) (le_of_eq ?_)
    rw [← sq_abs (s k - t k), f32_u]
    ring
  have sumsq : |∑ k ∈ range n, e k ^ 2 - T| ≤ (1 / 2 ^ 23 + 1 / 2 ^ 48) * T := by
    rw [hT, ← sum_sub_distrib, mul_sum]
    exact le_trans (abs_sum_le_sum_abs _ _) (sum_le_sum fun k hk => sq k (mem_range.1 hk))
  have sb := abs_le.1 sumsq
  have hT0 : 0 < T := lt_of_lt_of_le (by norm_num) h1
  have lo : (2:ℚ) ^ (-100 : ℤ) ≤ ∑ k ∈ range n, e k ^ 2 := by
    have : (2:ℚ) ^ (-100 : ℤ) = 1 / 2 ^ 99 / 2 := by rw [zpow_neg]; norm_num
    rw [this]
    linarith
  have hi : ∑ k ∈ range n, e k ^ 2 ≤ 2 ^ 126 := by
    norm_num at h2 ⊢
    linarith
  obtain ⟨w, w1, w2⟩ := norm_err (v := fun k => f32.sub (f32.decode (a k)) (f32.decode (b k))) (x := e) (by norm_num; exact hn)
    (fun k hk => (e1 k hk).1) lo hi
  refine ⟨_, w, run, ?_, ?_⟩
  · have := w1.1
    unfold normFold at this
    rwa [show (List.range n).foldl (fun s i => f32.add s (f32.mul (f32.sub (f32.decode (a i)) (f32.decode (b i)))
      (f32.sub (f32.decode (a i)) (f32.decode (b i))))) (.fin false 0)
      = sumF (fun k => f32.mul (f32.sub (f32.decode (a k)) (f32.decode (b k))) (f32.sub (f32.decode (a k)) (f32.decode (b k)))) n from floatSum_eq _ n] at this
  · have c1 : ((∑ k ∈ range n, e k ^ 2 : ℚ) : ℝ) = ∑ k ∈ range n, (e k : ℝ) ^ 2 :=
      (map_sum (Rat.castHom ℝ) _ _).trans (sum_congr rfl fun i _ => Rat.cast_pow _ _)
    have c2 : ((T : ℚ) : ℝ) = ∑ k ∈ range n, ((s k : ℝ) - t k) ^ 2 :=
      (map_sum (Rat.castHom ℝ) _ _).trans (sum_congr rfl fun i _ => by rw [eq_ratCast]; push_cast; rfl)
    rw [← c1] at w2
    rw [← c2]
    have hTr : (0:ℝ) < (T:ℝ) := by exact_mod_cast hT0
    have near : |((∑ k ∈ range n, e k ^ 2 : ℚ) : ℝ) - (T:ℝ)| ≤ (1 / 2 ^ 23 + 1 / 2 ^ 48) * (T:ℝ) := by
      have : ((|∑ k ∈ range n, e k ^ 2 - T| : ℚ) : ℝ) ≤ (((1 / 2 ^ 23 + 1 / 2 ^ 48) * T : ℚ) : ℝ) := by exact_mod_cast sumsq
      rw [Rat.cast_abs, Rat.cast_sub, Rat.cast_mul] at this
      norm_num at this ⊢
      exact this
    have q := sqrt_near hTr near
    generalize (((∑ k ∈ range n, e k ^ 2 : ℚ)) : ℝ) = U at *
    have hr : 0 < Real.sqrt (T:ℝ) := Real.sqrt_pos.2 hTr
    generalize Real.sqrt (T:ℝ) = r at *
    generalize Real.sqrt U = u at *
    have hnr : (n:ℝ) ≤ 1048576 := by exact_mod_cast hn
    have hn0 : (0:ℝ) ≤ n := by positivity
    have e4 : (w:ℝ) - r = (w - u) + (u - r) := by ring
    rw [e4]
    refine le_trans (abs_add_le _ _) ?_
    have hu : u ≤ (1 + 1 / 2 ^ 22) * r := by
      have := (abs_le.1 q).2
      norm_num at this ⊢
      linarith
    have w3 : |(w:ℝ) - u| ≤ (n + 3) / 2 ^ 23 * ((1 + 1 / 2 ^ 22) * r) := le_trans w2 (mul_le_mul_of_nonneg_left hu (by positivity))
    have fin : ((n:ℝ) + 3) / 2 ^ 23 * (1 + 1 / 2 ^ 22) + (1 / 2 ^ 23 + 1 / 2 ^ 48) ≤ (n + 5) / 2 ^ 23 := by
      norm_num
      linarith
    have := mul_le_mul_of_nonneg_right fin hr.le
    linarith

/-! ### C41: products of matrices -/

theorem prodEntryQ_sum (a b : Nat → Nat → ℚ) (k i j : Nat) : prodEntryQ a b k i j = ∑ t ∈ range k, a i t * b t j := by
  induction k with
  | zero => rfl
  | succ k ih => rw [prodEntryQ_succ, ih, sum_range_succ]

theorem mulFloat_err {F : Fmt} (hF : F.Std) {w : Nat} (hw : 256 ^ w = 2 ^ (F.t + F.w + 1)) {mem : Mem}
    {x y z m k n : Nat} {X Y Z : Nat → Nat → Nat} {a b c : Nat → Nat → ℚ} (h : MulArgs mem x y z w m k n X Y Z)
    (ha : ∀ i j, i < m → j < k → FloatIs F (X i j) (a i j)) (hb : ∀ i j, i < k → j < n → FloatIs F (Y i j) (b i j))
    (hc : ∀ i j, i < m → j < n → FloatIs F (Z i j) (c i j))
    (hbd : ∀ i j, i < m → j < n → (1 + F.u) ^ (k + 1) * (|c i j| + ∑ t ∈ range k, |a i t * b t j| + k * F.eta) < 2 ^ (2 ^ (F.w - 1))) :
    ∃ mem' P, mulMatrix w (macFloat F) x y z m k n mem = .ok ((), mem') ∧ OnlyBlock mem mem' z ∧ IsMat mem' z w m n P ∧
      ∀ i j, i < m → j < n → ∃ q, FloatIs F (P i j) q ∧ |q - (c i j + prodEntryQ a b k i j)| ≤
        ((1 + F.u) ^ (k + 1) - 1) * (|c i j| + ∑ t ∈ range k, |a i t * b t j|) + (1 + F.u) ^ k * (k * F.eta) := by
  let S : Nat → Nat → Nat → Nat := fun i j t => t.rec (Z i j) (fun t' r =>
    F.encode (F.add (F.decode r) (F.mul (F.decode (X i t')) (F.decode (Y t' j)))))
  have inv : ∀ i j, i < m → j < n → ∀ t, t ≤ k → S i j t < 256 ^ w ∧
      F.decode (S i j t) = (List.range t).foldl (fun s t' => F.add s (F.mul (F.decode (X i t')) (F.decode (Y t' j)))) (F.decode (Z i j)) := by
    intro i j hi hj t
    induction t with
    | zero => exact fun _ => ⟨(isMat_iff.1 h.hz).fits i j hi hj, rfl⟩
    | succ t ih =>
      intro ht
      obtain ⟨r1, r2⟩ := ih (by omega)
      have er : S i j (t+1) = F.encode (F.add (F.decode (S i j t)) (F.mul (F.decode (X i t)) (F.decode (Y t j)))) := rfl
      rw [er, List.range_succ, List.foldl_append, ← r2, good_decode_encode hF (good_add _ _ _), hw]
      exact ⟨good_encode_lt hF (good_add _ _ _), rfl⟩
  obtain ⟨mem', h1, h2, h3⟩ := h.run (mac := macFloat F) (S := S) (fun _ _ _ _ => rfl) (fun _ _ _ _ _ _ => rfl)
    (fun i j t hi hj ht => (inv i j hi hj t ht).1)
  refine ⟨mem', _, h1, h2, h3, fun i j hi hj => ?_⟩
  obtain ⟨q, q1, q2⟩ := dot_err (F := F) (v := fun t => F.decode (X i t)) (w := fun t => F.decode (Y t j)) (x := fun t => a i t) (y := fun t => b t j) k
    (fun t ht => ha i t hi ht) (fun t ht => hb t j ht hj) (good_val (good_decode hF _) (hc i j hi hj)) (hbd i j hi hj)
  refine ⟨q, ?_, ?_⟩
  · unfold FloatIs
    rw [(inv i j hi hj k (le_refl _)).2]
    exact q1.1
  · rw [prodEntryQ_sum]
    exact q2

/-- **C41** for `float` matrices with any finite entries and up to 2^22 columns: every entry of the result is the previous entry plus the entry of the
product, up to `(k+1) / 2^23` times the sum of the magnitudes of the terms (and `k` times the smallest `float`).
Missing: independence of the previous contents (`C41_refuted`). -/
theorem C41_float_error_partial {mem : Mem} {x y z m k n : Nat} {X Y Z : Nat → Nat → Nat} {a b c : Nat → Nat → ℚ}
    (h : MulArgs mem x y z 4 m k n X Y Z) (ha : ∀ i j, i < m → j < k → FloatIs f32 (X i j) (a i j))
    (hb : ∀ i j, i < k → j < n → FloatIs f32 (Y i j) (b i j)) (hc : ∀ i j, i < m → j < n → FloatIs f32 (Z i j) (c i j)) (hk : k ≤ 4194304)
    (hbd : ∀ i j, i < m → j < n → |c i j| + ∑ t ∈ range k, |a i t * b t j| ≤ 2 ^ 125) :
    ∃ mem' P, MulMatrix_float x y z m k n mem = .ok ((), mem') ∧ OnlyBlock mem mem' z ∧ IsMat mem' z 4 m n P ∧
      ∀ i j, i < m → j < n → ∃ q, FloatIs f32 (P i j) q ∧ |q - (c i j + prodEntryQ a b k i j)| ≤
        (k + 1) / 2 ^ 23 * (|c i j| + ∑ t ∈ range k, |a i t * b t j|) + k / 2 ^ 149 := by
  have hkq : (k:ℚ) ≤ 4194304 := by exact_mod_cast hk
  have hk0 : (0:ℚ) ≤ k := by positivity
  have p1 := pow_u_le f32 (k + 1) (by rw [f32_u]; push_cast; norm_num; linarith)
  have p0 := pow_u_le f32 k (by rw [f32_u]; norm_num; linarith)
  rw [f32_u] at p1 p0
  push_cast at p1
  have p2 : (1 + (1:ℚ) / 2 ^ 24) ^ (k + 1) ≤ 2 := by norm_num at p1 ⊢; linarith
  have p3 : (1 + (1:ℚ) / 2 ^ 24) ^ k ≤ 2 := by norm_num at p0 ⊢; linarith
  obtain ⟨mem', P, h1, h2, h3, h4⟩ := mulFloat_err f32_std (by rfl) h ha hb hc (by
    intro i j hi hj
    have q := hbd i j hi hj
    have q0 : 0 ≤ |c i j| + ∑ t ∈ range k, |a i t * b t j| := add_nonneg (abs_nonneg _) (sum_nonneg fun _ _ => abs_nonneg _)
    rw [f32_u, f32_eta, f32_max]
    have e : |c i j| + ∑ t ∈ range k, |a i t * b t j| + k * (1 / 2 ^ 150) ≤ 2 ^ 126 := by norm_num at q ⊢; linarith
    refine lt_of_le_of_lt (mul_le_mul p2 e (by positivity) (by norm_num)) (by norm_num))
  refine ⟨mem', P, h1, h2, h3, fun i j hi hj => ?_⟩
  obtain ⟨q, q1, q2⟩ := h4 i j hi hj
  refine ⟨q, q1, le_trans q2 (add_le_add ?_ ?_)⟩
  · refine mul_le_mul_of_nonneg_right ?_ (add_nonneg (abs_nonneg _) (sum_nonneg fun _ _ => abs_nonneg _))
    rw [f32_u]
    norm_num at p1 ⊢
    linarith
  · rw [f32_u, f32_eta]
    have : (1 + (1:ℚ) / 2 ^ 24) ^ k * (k * (1 / 2 ^ 150)) ≤ 2 * (k * (1 / 2 ^ 150)) := mul_le_mul_of_nonneg_right p3 (by positivity)
    refine le_trans this (le_of_eq ?_)
    ring

/-- the same for `double` matrices, every number of columns -/
theorem C41_double_error_partial {mem : Mem} {x y z m k n : Nat} {X Y Z : Nat → Nat → Nat} {a b c : Nat → Nat → ℚ}
    (h : MulArgs mem x y z 8 m k n X Y Z) (ha : ∀ i j, i < m → j < k → FloatIs f64 (X i j) (a i j))
    (hb : ∀ i j, i < k → j < n → FloatIs f64 (Y i j) (b i j)) (hc : ∀ i j, i < m → j < n → FloatIs f64 (Z i j) (c i j)) (hk : k ≤ 2147483647)
    (hbd : ∀ i j, i < m → j < n → |c i j| + ∑ t ∈ range k, |a i t * b t j| ≤ 2 ^ 1021) :
    ∃ mem' P, MulMatrix_double x y z m k n mem = .ok ((), mem') ∧ OnlyBlock mem mem' z ∧ IsMat mem' z 8 m n P ∧
      ∀ i j, i < m → j < n → ∃ q, FloatIs f64 (P i j) q ∧ |q - (c i j + prodEntryQ a b k i j)| ≤
        (k + 1) / 2 ^ 52 * (|c i j| + ∑ t ∈ range k, |a i t * b t j|) + k * (2:ℚ) ^ (-1074 : ℤ) := by
  have hkq : (k:ℚ) ≤ 2147483647 := by exact_mod_cast hk
  have hk0 : (0:ℚ) ≤ k := by positivity
  have p1 := pow_u_le f64 (k + 1) (by rw [f64_u]; push_cast; norm_num; linarith)
  have p0 := pow_u_le f64 k (by rw [f64_u]; norm_num; linarith)
  rw [f64_u] at p1 p0
  push_cast at p1
  have p2 : (1 + (1:ℚ) / 2 ^ 53) ^ (k + 1) ≤ 2 := by norm_num at p1 ⊢; linarith
  have p3 : (1 + (1:ℚ) / 2 ^ 53) ^ k ≤ 2 := by norm_num at p0 ⊢; linarith
  have hd0 : (0:ℚ) < (2:ℚ) ^ (-1074 : ℤ) := by positivity
  have hd : (2:ℚ) ^ (-1074 : ℤ) ≤ 1 / 2 ^ 40 := by
    have e : (1:ℚ) / 2 ^ 40 = 2 ^ (-40 : ℤ) := by rw [zpow_neg]; norm_num
    rw [e]
    exact zpow_le_zpow_right₀ (by norm_num) (by norm_num)
  rw [show ((2:ℚ) ^ (-1074 : ℤ)) = 2 * f64.eta by rw [f64_eta, mul_div_cancel₀ _ (by norm_num : (2:ℚ) ≠ 0)]]
  have he0 : 0 < f64.eta := eta_pos f64
  have he : f64.eta ≤ 1 / 2 ^ 40 := by rw [f64_eta]; linarith
  have e4 : (2:ℚ) ^ 1024 = 2 ^ 1021 * 2 ^ 3 := pow_add 2 1021 3
  have one : (1:ℚ) ≤ 2 ^ 1021 := one_le_pow₀ (by norm_num)
  obtain ⟨mem', P, h1, h2, h3, h4⟩ := mulFloat_err f64_std (by rfl) h ha hb hc (by
    intro i j hi hj
    have q := hbd i j hi hj
    have q0 : 0 ≤ |c i j| + ∑ t ∈ range k, |a i t * b t j| := add_nonneg (abs_nonneg _) (sum_nonneg fun _ _ => abs_nonneg _)
    rw [f64_u, f64_max, e4]
    clear hbd
    clear e4 hd hd0
    generalize f64.eta = eta at *
    generalize (2:ℚ) ^ 1021 = M at *
    have e : |c i j| + ∑ t ∈ range k, |a i t * b t j| + k * eta ≤ 2 * M := by
      have : k * eta ≤ 2147483647 * (1 / 2 ^ 40) := mul_le_mul hkq he he0.le (by norm_num)
      norm_num at this
      linarith
    have f : 2 * (2 * M) < M * 2 ^ 3 := by linarith
    exact lt_of_le_of_lt (mul_le_mul p2 e (by positivity) (by norm_num)) f)
  refine ⟨mem', P, h1, h2, h3, fun i j hi hj => ?_⟩
  obtain ⟨q, q1, q2⟩ := h4 i j hi hj
  refine ⟨q, q1, le_trans q2 (add_le_add ?_ ?_)⟩
  · refine mul_le_mul_of_nonneg_right ?_ (add_nonneg (abs_nonneg _) (sum_nonneg fun _ _ => abs_nonneg _))
    rw [f64_u]
    norm_num at p1 ⊢
    linarith
  · rw [f64_u]
    have : (1 + (1:ℚ) / 2 ^ 53) ^ k * (k * f64.eta) ≤ 2 * (k * f64.eta) := mul_le_mul_of_nonneg_right p3 (mul_nonneg hk0 he0.le)
    refine le_trans this (le_of_eq ?_)
    exact mul_left_comm _ _ _

/-- arguments: a 1 x 2 matrix (1.5, 2) times a 2 x 1 matrix (2, 0.1), added to 0.5 -/
example : MulArgs (((Mem.empty.putM 1 4 1 2 fun _ j => if j = 0 then 0x3FC00000 else 0x40000000).putM 2 4 2 1 fun i _ => if i = 0 then 0x40000000 else 0x3DCCCCCD).putM
    3 4 1 1 fun _ _ => 0x3F000000) 1 2 3 4 1 2 1 (fun _ j => if j = 0 then 0x3FC00000 else 0x40000000) (fun i _ => if i = 0 then 0x40000000 else 0x3DCCCCCD)
    (fun _ _ => 0x3F000000) ∧ FloatIs f32 0x3DCCCCCD (13421773 / 134217728) :=
  ⟨⟨isMat_iff.2 (((holdsM_putM _ (fun _ j _ _ => by beta_reduce; split <;> decide)).putM_ne (by decide)).putM_ne (by decide)),
    isMat_iff.2 ((holdsM_putM _ (fun i _ _ _ => by beta_reduce; split <;> decide)).putM_ne (by decide)),
    isMat_iff.2 (holdsM_putM _ (fun _ _ _ _ => by decide)), by decide, by decide, by decide, by decide, by decide⟩, ⟨false, by decide +kernel⟩⟩

/-- spectra (1, -2, 0.5, 1) and (0, 0, 0, 0): squared distance 6.25 -/
example : (1:ℚ) / 2 ^ 99 ≤ ∑ k ∈ range 4, ((if k = 0 then (1:ℚ) else if k = 1 then -2 else if k = 2 then 1 / 2 else 1) - 0) ^ 2 ∧
    ∀ k, k < 4 → FloatIs f32 (demoF32 k) (if k = 0 then (1:ℚ) else if k = 1 then -2 else if k = 2 then 1 / 2 else 1) := by
  constructor
  · simp [sum_range_succ]
    norm_num
  · intro i hi
    obtain rfl | rfl | rfl | rfl : i = 0 ∨ i = 1 ∨ i = 2 ∨ i = 3 := by omega
    · exact ⟨false, by decide +kernel⟩
    · exact ⟨true, by decide +kernel⟩
    · exact ⟨false, by decide +kernel⟩
    · exact ⟨false, by decide +kernel⟩

end HyperCV
