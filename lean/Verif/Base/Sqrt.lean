/-
IEEE 754 square root (correctly rounded, ties to even): the definition, which is part of the trusted reading of C, and facts.
-/
import Verif.Proof.FloatGood
import Verif.Proof.FloatFacts
import Mathlib.Data.Real.Sqrt
import Mathlib.Data.Nat.Sqrt

namespace HyperCV

/-- the integer nearest to the square root of `x`, ties to even -/
def rneSqrt (x : ℚ) : ℤ :=
  let s : ℤ := Nat.sqrt ⌊x⌋.toNat
  if x < (s + 1 / 2) * (s + 1 / 2) then s
  else if ((s : ℚ) + 1 / 2) * (s + 1 / 2) < x then s + 1
  else if s % 2 = 0 then s else s + 1

/-- square root -/
def Fmt.sqrt (F : Fmt) : FV → FV
  | .nan => .nan
  | .inf s => if s then .nan else .inf false
  | .fin s q =>
    if q = 0 then .fin s 0
    else if q < 0 then .nan
    else
      let e : ℤ := max (Int.log 2 q / 2 - F.t) F.emin
      .fin false (rneSqrt (q / 2 ^ (2 * e)) * 2 ^ e)

/-! ### Facts -/

theorem floor_sqrt {x : ℚ} (hx : 0 ≤ x) : ∃ s : ℕ, Nat.sqrt ⌊x⌋.toNat = s ∧ (s : ℚ) * s ≤ x ∧ x < (s + 1) * (s + 1) := by
  refine ⟨_, rfl, ?_, ?_⟩
  · have h1 := Nat.sqrt_le ⌊x⌋.toNat
    have h2 : ((⌊x⌋.toNat : ℕ) : ℤ) = ⌊x⌋ := Int.toNat_of_nonneg (Int.floor_nonneg.2 hx)
    have h3 : ((⌊x⌋.toNat : ℕ) : ℚ) ≤ x := by
      have := Int.floor_le x
      rw [← h2] at this
      exact_mod_cast this
    have h4 : ((Nat.sqrt ⌊x⌋.toNat * Nat.sqrt ⌊x⌋.toNat : ℕ) : ℚ) ≤ ((⌊x⌋.toNat : ℕ) : ℚ) := by exact_mod_cast h1
    push_cast at h4
    linarith
  · have h1 := Nat.lt_succ_sqrt ⌊x⌋.toNat
    have h2 : ((⌊x⌋.toNat : ℕ) : ℤ) = ⌊x⌋ := Int.toNat_of_nonneg (Int.floor_nonneg.2 hx)
    have h3 : x < ((⌊x⌋.toNat : ℕ) : ℚ) + 1 := by
      have := Int.lt_floor_add_one x
      rw [← h2] at this
      exact_mod_cast this
    have h4 : ((⌊x⌋.toNat + 1 : ℕ) : ℚ) ≤ (((Nat.sqrt ⌊x⌋.toNat + 1) * (Nat.sqrt ⌊x⌋.toNat + 1) : ℕ) : ℚ) := by exact_mod_cast h1
    push_cast at h4
    linarith

/-- the definition says what it should: no integer is nearer to the square root -/
theorem rneSqrt_spec {x : ℚ} (hx : 0 ≤ x) : |(rneSqrt x : ℝ) - Real.sqrt x| ≤ 1 / 2 := by
  obtain ⟨s, h0, h1, h2⟩ := floor_sqrt hx
  have hs : (0 : ℝ) ≤ s := Nat.cast_nonneg s
  have r1 : (s : ℝ) ≤ Real.sqrt x := by
    apply Real.le_sqrt_of_sq_le
    have : ((s : ℚ) * s : ℚ) ≤ x := h1
    have := (Rat.cast_le (K := ℝ)).2 this
    push_cast at this
    nlinarith
  have r2 : Real.sqrt x < s + 1 := by
    rw [Real.sqrt_lt' (by linarith)]
    have := (Rat.cast_lt (K := ℝ)).2 h2
    push_cast at this
    nlinarith
  have mid1 : x ≤ (s + 1 / 2) * (s + 1 / 2) → Real.sqrt x ≤ s + 1 / 2 := by
    intro h
    rw [Real.sqrt_le_left (by linarith)]
    have := (Rat.cast_le (K := ℝ)).2 h
    push_cast at this
    nlinarith
  have mid2 : ((s : ℚ) + 1 / 2) * (s + 1 / 2) ≤ x → (s : ℝ) + 1 / 2 ≤ Real.sqrt x := by
    intro h
    apply Real.le_sqrt_of_sq_le
    have := (Rat.cast_le (K := ℝ)).2 h
    push_cast at this
    nlinarith
  unfold rneSqrt
  simp only [h0, Int.cast_natCast]
  split
  · rename_i h
    have := mid1 h.le
    rw [abs_le]
    push_cast
    constructor <;> linarith
  · rename_i h
    have m2 := mid2 (not_lt.1 h)
    split
    · rw [abs_le]
      push_cast
      constructor <;> linarith
    · rename_i h'
      have m1 := mid1 (not_lt.1 h')
      split
      · rw [abs_le]
        push_cast
        constructor <;> linarith
      · rw [abs_le]
        push_cast
        constructor <;> linarith

theorem rneSqrt_sq (n : ℕ) : rneSqrt ((n : ℚ) * n) = n := by
  obtain ⟨s, h0, h1, h2⟩ := floor_sqrt (x := (n : ℚ) * n) (by positivity)
  have e : s = n := by
    have a1 : s * s ≤ n * n := by exact_mod_cast h1
    have a2 : n * n < (s + 1) * (s + 1) := by exact_mod_cast h2
    have b1 := Nat.mul_self_le_mul_self_iff.1 a1
    have b2 := Nat.mul_self_lt_mul_self_iff.1 a2
    omega
  subst e
  unfold rneSqrt
  simp only [h0, Int.cast_natCast]
  rw [if_pos (by have : (0 : ℚ) ≤ s := Nat.cast_nonneg s; nlinarith)]

theorem log_sq {r : ℚ} (hr : 0 < r) : Int.log 2 (r * r) / 2 = Int.log 2 r := by
  have h1 := Int.zpow_log_le_self (b := 2) (by norm_num) hr
  have h2 := Int.lt_zpow_succ_log_self (b := 2) (by norm_num) r
  set k := Int.log 2 r
  have hp : (0 : ℚ) < (2 : ℚ) ^ k := by positivity
  push_cast at h1 h2
  have a1 : 2 * k ≤ Int.log 2 (r * r) := by
    rw [← Int.zpow_le_iff_le_log (by norm_num) (by positivity)]
    push_cast
    rw [two_mul, zpow_add₀ (by norm_num)]
    exact mul_le_mul h1 h1 hp.le hr.le
  have a2 : Int.log 2 (r * r) < 2 * k + 2 := by
    rw [← Int.lt_zpow_iff_log_lt (by norm_num) (by positivity)]
    push_cast
    rw [show 2 * k + 2 = (k + 1) + (k + 1) by ring, zpow_add₀ (by norm_num)]
    exact mul_lt_mul h2 h2.le hr (by positivity)
  omega

/-- the square root of a square is exact -/
theorem sqrt_sq {F : Fmt} {s : Bool} {r : ℚ} (hr : 0 < r) (h : F.GRep r) : F.sqrt (.fin s (r * r)) = .fin false r := by
  have h0 : r * r ≠ 0 := by positivity
  unfold Fmt.sqrt
  simp only []
  rw [if_neg h0, if_neg (not_lt.2 (by positivity)), log_sq hr]
  have he : max (Int.log 2 r - F.t) F.emin = F.ulpExp r := by unfold Fmt.ulpExp; rw [abs_of_pos hr]
  rw [he]
  obtain ⟨k, hk⟩ := grep_ulp h hr.ne'
  have hp : (0 : ℚ) < 2 ^ F.ulpExp r := by positivity
  have hk0 : 0 < k := by
    have : (0 : ℚ) < k := by rw [← hk]; positivity
    exact_mod_cast this
  obtain ⟨n, rfl⟩ := Int.eq_ofNat_of_zero_le hk0.le
  have e : r * r / 2 ^ (2 * F.ulpExp r) = (n : ℚ) * n := by
    rw [two_mul, zpow_add₀ (by norm_num), mul_div_mul_comm, hk]
    rfl
  rw [e, rneSqrt_sq]
  congr 1
  rw [← hk]
  field_simp

theorem sqrt_zero {F : Fmt} {s : Bool} : F.sqrt (.fin s 0) = .fin s 0 := by
  unfold Fmt.sqrt
  simp

/-- error of the square root -/
theorem sqrt_err {F : Fmt} {s : Bool} {q : ℚ} (hq : 0 < q) (hb : F.emin + F.t ≤ Int.log 2 q / 2) :
    ∃ v : ℚ, F.sqrt (.fin s q) = .fin false v ∧ |(v : ℝ) - Real.sqrt q| ≤ Real.sqrt q / 2 ^ (F.t + 1) := by
  unfold Fmt.sqrt
  simp only []
  rw [if_neg hq.ne', if_neg (not_lt.2 hq.le), max_eq_left (by omega)]
  set e : ℤ := Int.log 2 q / 2 - F.t with he
  refine ⟨_, rfl, ?_⟩
  have hp : (0 : ℝ) < (2 : ℝ) ^ e := by positivity
  have hx : 0 ≤ q / 2 ^ (2 * e) := by positivity
  have h1 := rneSqrt_spec hx
  have h2 : Real.sqrt ((q / 2 ^ (2 * e) : ℚ) : ℝ) = Real.sqrt q / 2 ^ e := by
    push_cast
    rw [Real.sqrt_div (by positivity), two_mul, zpow_add₀ (by norm_num), Real.sqrt_mul_self hp.le]
  rw [h2] at h1
  have h3 : |((rneSqrt (q / 2 ^ (2 * e)) * 2 ^ e : ℚ) : ℝ) - Real.sqrt q| ≤ 2 ^ e / 2 := by
    have : ((rneSqrt (q / 2 ^ (2 * e)) * 2 ^ e : ℚ) : ℝ) - Real.sqrt q = ((rneSqrt (q / 2 ^ (2 * e)) : ℝ) - Real.sqrt q / 2 ^ e) * 2 ^ e := by
      push_cast
      field_simp
    rw [this, abs_mul, abs_of_pos hp]
    calc _ ≤ 1 / 2 * (2 : ℝ) ^ e := mul_le_mul_of_nonneg_right h1 hp.le
      _ = 2 ^ e / 2 := by ring
  refine le_trans h3 ?_
  have h4 : (2 : ℝ) ^ (Int.log 2 q / 2) ≤ Real.sqrt q := by
    apply Real.le_sqrt_of_sq_le
    have a := Int.zpow_log_le_self (b := 2) (by norm_num) hq
    have b := (Rat.cast_le (K := ℝ)).2 a
    push_cast at b
    refine le_trans ?_ b
    rw [← zpow_natCast, ← zpow_mul]
    apply zpow_le_zpow_right₀ (by norm_num)
    push_cast
    omega
  have h5 : (2 : ℝ) ^ e = 2 ^ (Int.log 2 q / 2) / 2 ^ F.t := by
    rw [he, zpow_sub₀ (by norm_num), zpow_natCast]
  rw [h5, pow_succ, div_div]
  apply div_le_div_of_nonneg_right h4 (by positivity)

end HyperCV
