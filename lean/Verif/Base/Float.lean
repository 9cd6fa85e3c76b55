/-
IEEE 754 binary floating point as used by the C code: bit patterns, exact values (rationals), rounding to
nearest even.  This file is part of the trusted reading of C (definitions) together with facts about it.
-/
import Mathlib.Data.Int.Log
import Mathlib.Data.Rat.Floor
import Mathlib.Tactic.Ring
import Mathlib.Tactic.Linarith
import Mathlib.Tactic.Positivity
import Mathlib.Tactic.FieldSimp
import Mathlib.Algebra.Order.Field.Power
import Mathlib.Tactic.NormNum

namespace HyperCV

/-- binary interchange format with `t` fraction bits and `w` exponent bits -/
structure Fmt where
  t : Nat
  w : Nat

/-- `float` -/
def f32 : Fmt := ⟨23, 8⟩
/-- `double` -/
def f64 : Fmt := ⟨52, 11⟩

/-- a floating point value: not-a-number, an infinity, or a finite number with its sign bit (which matters
only for zero) -/
inductive FV where
  | nan
  | inf (neg : Bool)
  | fin (neg : Bool) (q : ℚ)
  deriving DecidableEq

/-- exponent of the least significant bit of subnormal numbers (-149 for `float`) -/
def Fmt.emin (F : Fmt) : ℤ := 2 - 2 ^ (F.w - 1) - F.t

/-- value of a bit pattern -/
def Fmt.decode (F : Fmt) (b : Nat) : FV :=
  let s := b / 2 ^ (F.t + F.w) % 2 = 1
  let e := b / 2 ^ F.t % 2 ^ F.w
  let f := b % 2 ^ F.t
  if e = 2 ^ F.w - 1 then
    if f = 0 then .inf s else .nan
  else
    let a : ℚ := if e = 0 then f * 2 ^ F.emin else (2 ^ F.t + f) * 2 ^ (F.emin + e - 1)
    .fin s (if s then -a else a)

/-- round to the nearest integer, ties to even -/
def rne (q : ℚ) : ℤ :=
  let f := ⌊q⌋
  if q - f < 1 / 2 then f
  else if 1 / 2 < q - f then f + 1
  else if f % 2 = 0 then f else f + 1

/-- exponent of the unit in the last place used for `q` -/
def Fmt.ulpExp (F : Fmt) (q : ℚ) : ℤ := max (Int.log 2 |q| - F.t) F.emin

/-- round to the format, ties to even, overflow to infinity; `z` is the sign given to a zero result -/
def Fmt.round (F : Fmt) (z : Bool) (q : ℚ) : FV :=
  if q = 0 then .fin z 0 else
  let e := F.ulpExp q
  let v : ℚ := rne (q / 2 ^ e) * 2 ^ e
  if (2:ℚ) ^ (2 ^ (F.w - 1)) ≤ |v| then .inf (q < 0) else .fin (q < 0) v

/-- bit pattern of a value; every NaN is encoded as the default quiet NaN -/
def Fmt.encode (F : Fmt) : FV → Nat
  | .nan => (2 ^ F.w - 1) * 2 ^ F.t + 2 ^ (F.t - 1)
  | .inf s => (if s then 2 ^ (F.t + F.w) else 0) + (2 ^ F.w - 1) * 2 ^ F.t
  | .fin s q =>
    let e := F.ulpExp q
    (if s then 2 ^ (F.t + F.w) else 0) +
      if q = 0 then 0 else (e - F.emin).toNat * 2 ^ F.t + (|q| / 2 ^ e).floor.toNat

/-- conversion of an integer to the format (`(float)i`) -/
def Fmt.ofInt (F : Fmt) (i : ℤ) : FV := F.round false i

/-- conversion between formats (`float` to `double` is exact, `double` to `float` rounds) -/
def Fmt.conv (F : Fmt) : FV → FV
  | .nan => .nan
  | .inf s => .inf s
  | .fin s q => F.round s q

def FV.isNeg : FV → Bool
  | .nan => false
  | .inf s => s
  | .fin s _ => s

/-- addition -/
def Fmt.add (F : Fmt) : FV → FV → FV
  | .nan, _ => .nan
  | _, .nan => .nan
  | .inf s, .inf s' => if s = s' then .inf s else .nan
  | .inf s, .fin _ _ => .inf s
  | .fin _ _, .inf s => .inf s
  | .fin s q, .fin s' q' => F.round (s && s') (q + q')

def FV.neg : FV → FV
  | .nan => .nan
  | .inf s => .inf (!s)
  | .fin s q => .fin (!s) (-q)

/-- subtraction -/
def Fmt.sub (F : Fmt) (a b : FV) : FV := F.add a b.neg

/-- multiplication -/
def Fmt.mul (F : Fmt) : FV → FV → FV
  | .nan, _ => .nan
  | _, .nan => .nan
  | .inf s, .inf s' => .inf (s != s')
  | .inf s, .fin s' q => if q = 0 then .nan else .inf (s != s')
  | .fin s q, .inf s' => if q = 0 then .nan else .inf (s != s')
  | .fin s q, .fin s' q' => F.round (s != s') (q * q')

/-- division -/
def Fmt.div (F : Fmt) : FV → FV → FV
  | .nan, _ => .nan
  | _, .nan => .nan
  | .inf _, .inf _ => .nan
  | .inf s, .fin s' _ => .inf (s != s')
  | .fin s _, .inf s' => .fin (s != s') 0
  | .fin s q, .fin s' q' =>
    if q' = 0 then (if q = 0 then .nan else .inf (s != s'))
    else F.round (s != s') (q / q')

/-- `a < b` -/
def FV.lt : FV → FV → Bool
  | .nan, _ => false
  | _, .nan => false
  | .inf s, .inf s' => s && !s'
  | .inf s, .fin _ _ => s
  | .fin _ _, .inf s => !s
  | .fin _ q, .fin _ q' => q < q'

/-- `a == b` -/
def FV.feq : FV → FV → Bool
  | .nan, _ => false
  | _, .nan => false
  | .inf s, .inf s' => s = s'
  | .fin _ q, .fin _ q' => q = q'
  | _, _ => false

/-- `a <= b` -/
def FV.le (a b : FV) : Bool := FV.lt a b || FV.feq a b

/-- conversion to `int` by truncation (`(int)x`); `none` when the result does not fit, which is undefined
behaviour -/
def FV.trunc : FV → Option ℤ
  | .fin _ q =>
    let n : ℤ := if 0 ≤ q then ⌊q⌋ else -⌊-q⌋
    if -2147483648 ≤ n ∧ n ≤ 2147483647 then some n else none
  | _ => none

/-! ### Facts -/

theorem rne_spec (q : ℚ) : |q - rne q| ≤ 1 / 2 ∧ (|q - rne q| = 1 / 2 → rne q % 2 = 0) := by
  have h1 := Int.floor_le q
  have h2 := Int.lt_floor_add_one q
  unfold rne
  simp only []
  split
  · rename_i h
    have e : |q - ⌊q⌋| = q - ⌊q⌋ := abs_of_nonneg (by linarith)
    rw [e]; exact ⟨by linarith, fun h' => by linarith⟩
  · split
    · rename_i h h'
      have e : |q - ((⌊q⌋ + 1 : ℤ) : ℚ)| = 1 - (q - ⌊q⌋) := by
        push_cast
        rw [abs_of_nonpos (by linarith)]; ring
      rw [e]; exact ⟨by linarith, fun h'' => by linarith⟩
    · rename_i h h'
      have hh : q - ⌊q⌋ = 1 / 2 := by linarith
      split
      · rename_i h3
        rw [hh, abs_of_nonneg (by norm_num)]
        exact ⟨le_refl _, fun _ => h3⟩
      · rename_i h3
        have e : |q - ((⌊q⌋ + 1 : ℤ) : ℚ)| = 1 / 2 := by
          push_cast
          rw [abs_of_nonpos (by linarith)]; linarith
        rw [e]
        exact ⟨le_refl _, fun _ => by omega⟩

/-- the rounded integer is determined by its specification -/
theorem rne_unique {q : ℚ} {n : ℤ} (h1 : |q - n| ≤ 1 / 2) (h2 : |q - n| = 1 / 2 → n % 2 = 0) : rne q = n := by
  obtain ⟨k1, k2⟩ := rne_spec q
  have d : |((rne q - n : ℤ) : ℚ)| ≤ 1 := by
    push_cast
    have : ((rne q : ℚ) - n) = (q - n) - (q - rne q) := by ring
    rw [this]
    have := abs_sub (q - n) (q - rne q)
    linarith
  have d' : |rne q - n| ≤ 1 := by exact_mod_cast d
  rw [abs_le] at d'
  by_contra hne
  have hd : rne q - n = 1 ∨ rne q - n = -1 := by omega
  rw [abs_le] at h1 k1
  rcases hd with hd | hd
  · have e : (rne q : ℚ) = n + 1 := by
      have : rne q = n + 1 := by omega
      rw [this]; push_cast; ring
    have a1 : q - n = 1 / 2 := by rw [e] at k1; linarith [k1.1, h1.2]
    have a2 : q - rne q = -(1 / 2) := by rw [e]; linarith
    have p1 := h2 (by rw [a1]; norm_num)
    have p2 := k2 (by rw [a2]; norm_num)
    omega
  · have e : (rne q : ℚ) = n - 1 := by
      have : rne q = n - 1 := by omega
      rw [this]; push_cast; ring
    have a1 : q - n = -(1 / 2) := by rw [e] at k1; linarith [k1.2, h1.1]
    have a2 : q - rne q = 1 / 2 := by rw [e]; linarith
    have p1 := h2 (by rw [a1]; norm_num)
    have p2 := k2 (by rw [a2]; norm_num)
    omega

theorem rne_int (n : ℤ) : rne (n : ℚ) = n :=
  rne_unique (by simp) (by simp)

theorem rne_mono {q r : ℚ} (h : q ≤ r) : rne q ≤ rne r := by
  by_contra hc
  obtain ⟨a1, a2⟩ := rne_spec q
  obtain ⟨b1, b2⟩ := rne_spec r
  rw [abs_le] at a1 b1
  have hc' : rne r + 1 ≤ rne q := by omega
  have hq : (rne r : ℚ) + 1 ≤ rne q := by exact_mod_cast hc'
  have e1 : q - rne q = -(1/2) := by linarith [a1.1, b1.2]
  have e2 : r - rne r = 1/2 := by linarith [a1.1, b1.2]
  have e3 : (rne r : ℚ) + 1 = rne q := by linarith
  have p1 := a2 (by rw [e1]; norm_num)
  have p2 := b2 (by rw [e2]; norm_num)
  have e4 : rne r + 1 = rne q := by exact_mod_cast e3
  omega

/-- `q` is a number of the format, in the sense of being an integer of at most `t + 1` bits times a power of
two not below the smallest exponent, and below the overflow threshold -/
def Fmt.Rep (F : Fmt) (q : ℚ) : Prop :=
  ∃ (n : ℤ) (e : ℤ), q = n * 2 ^ e ∧ |n| ≤ 2 ^ (F.t + 1) ∧ F.emin ≤ e ∧ |q| < 2 ^ (2 ^ (F.w - 1))

theorem log_of_rep {n e : ℤ} {k : Nat} (hn : n ≠ 0) (h : |n| < 2 ^ (k + 1)) :
    Int.log 2 |(n * 2 ^ e : ℚ)| ≤ e + k := by
  have hpos : (0:ℚ) < |(n * 2 ^ e : ℚ)| := by
    apply abs_pos.2
    have : (n:ℚ) ≠ 0 := by exact_mod_cast hn
    positivity
  have h2 : |(n * 2 ^ e : ℚ)| < 2 ^ (e + k + 1) := by
    rw [abs_mul, abs_of_pos (by positivity : (0:ℚ) < 2 ^ e)]
    have h3 : (|n| : ℚ) < 2 ^ (k + 1) := by
      have : ((|n| : ℤ) : ℚ) < ((2 ^ (k+1) : ℤ) : ℚ) := by exact_mod_cast h
      simpa using this
    have : (2:ℚ) ^ (e + k + 1) = 2 ^ (k + 1) * 2 ^ e := by
      rw [show e + k + 1 = ((k + 1 : Nat) : ℤ) + e by push_cast; ring, zpow_add₀ (by norm_num), zpow_natCast]
    rw [this]
    exact mul_lt_mul_of_pos_right h3 (by positivity)
  have h4 := (Int.lt_zpow_iff_log_lt (b := 2) (by norm_num) hpos (x := e + k + 1)).1 (by exact_mod_cast h2)
  omega

/-- a number of the format is an integer multiple of its unit in the last place -/
theorem rep_ulp {F : Fmt} {q : ℚ} (h : F.Rep q) (hq : q ≠ 0) : ∃ k : ℤ, q / 2 ^ (F.ulpExp q) = k := by
  obtain ⟨n, e, rfl, h1, h2, h3⟩ := h
  have hn : n ≠ 0 := by rintro rfl; simp at hq
  by_cases hb : |n| < 2 ^ (F.t + 1)
  · have hl := log_of_rep (e := e) hn hb
    have hle : F.ulpExp (n * 2 ^ e) ≤ e := by
      unfold Fmt.ulpExp; apply max_le _ h2; push_cast at hl ⊢; omega
    refine ⟨n * 2 ^ (e - F.ulpExp (n * 2 ^ e)).toNat, ?_⟩
    push_cast
    rw [mul_div_assoc, ← zpow_sub₀ (by norm_num), ← zpow_natCast, Int.toNat_of_nonneg (by omega)]
  · -- exactly a power of two
    have hb' : |n| = 2 ^ (F.t + 1) := le_antisymm h1 (not_lt.1 hb)
    obtain ⟨n', hn'⟩ : ∃ n' : ℤ, n = n' * 2 ∧ |n'| = 2 ^ F.t := by
      rcases abs_choice n with hc | hc
      · refine ⟨2 ^ F.t, ?_, abs_of_pos (by positivity)⟩
        rw [← hc, hb', pow_succ]
      · refine ⟨-2 ^ F.t, ?_, by rw [abs_neg]; exact abs_of_pos (by positivity)⟩
        have : n = -|n| := by rw [hc]; ring
        rw [this, hb', pow_succ]; ring
    have hn0 : n' ≠ 0 := by rintro rfl; apply hn; rw [hn'.1]; ring
    have e1 : (n * 2 ^ e : ℚ) = n' * 2 ^ (e + 1) := by
      rw [hn'.1, zpow_add₀ (by norm_num)]; push_cast; ring
    have hl := log_of_rep (e := e + 1) (k := F.t) hn0 (by
      rw [hn'.2, pow_succ]
      have : (0:ℤ) < 2 ^ F.t := by positivity
      omega)
    rw [e1]
    have hle : F.ulpExp (n' * 2 ^ (e + 1)) ≤ e + 1 := by
      unfold Fmt.ulpExp; apply max_le _ (by omega); push_cast at hl ⊢; omega
    refine ⟨n' * 2 ^ (e + 1 - F.ulpExp (n' * 2 ^ (e + 1))).toNat, ?_⟩
    push_cast
    rw [mul_div_assoc, ← zpow_sub₀ (by norm_num), ← zpow_natCast, Int.toNat_of_nonneg (by omega)]

theorem Fmt.Rep.lt {F : Fmt} {q : ℚ} (h : F.Rep q) : |q| < 2 ^ (2 ^ (F.w - 1)) := by
  obtain ⟨_, _, _, _, _, h3⟩ := h; exact h3

/-- numbers of the format are not changed by rounding -/
theorem round_rep {F : Fmt} {z : Bool} {q : ℚ} (h : F.Rep q) (hq : q ≠ 0) : F.round z q = .fin (q < 0) q := by
  obtain ⟨k, hk⟩ := rep_ulp h hq
  unfold Fmt.round
  rw [if_neg hq]
  simp only []
  rw [hk, rne_int, ← hk, div_mul_cancel₀ _ (by positivity), if_neg (not_le.2 h.lt)]

/-- the significand and exponent fields of a number of the format -/
theorem rep_fields {F : Fmt} (hw : 2 ≤ F.w) {q : ℚ} (h : F.Rep q) (hq : q ≠ 0) :
    ∃ n : Nat, |q| = n * 2 ^ (F.ulpExp q) ∧ |q| / 2 ^ (F.ulpExp q) = (n : ℚ) ∧ n < 2 * 2 ^ F.t ∧
      (F.emin < F.ulpExp q → 2 ^ F.t ≤ n) ∧ (F.ulpExp q - F.emin).toNat + 2 < 2 ^ F.w := by
  have hW : 4 ≤ 2 ^ F.w := by
    calc 4 = 2 ^ 2 := rfl
      _ ≤ 2 ^ F.w := Nat.pow_le_pow_right (by norm_num) hw
  obtain ⟨k, hk⟩ := rep_ulp h hq
  have hqa : 0 < |q| := abs_pos.2 hq
  set e := F.ulpExp q with he
  have hpe : (0:ℚ) < 2 ^ e := by positivity
  have hka : |q| / 2 ^ e = ((k.natAbs : Nat) : ℚ) := by
    have : |q / 2 ^ e| = |q| / 2 ^ e := by rw [abs_div, abs_of_pos hpe]
    rw [← this, hk]
    have : ((k.natAbs : ℤ) : ℚ) = |(k:ℚ)| := by rw [Int.natCast_natAbs]; push_cast; rfl
    rw [← this]; rfl
  set n := k.natAbs with hn
  have hqn : |q| = n * 2 ^ e := by rw [← hka, div_mul_cancel₀ _ (ne_of_gt hpe)]
  have hlog1 := Int.zpow_log_le_self (b := 2) (by norm_num) hqa
  have hlog2 := Int.lt_zpow_succ_log_self (b := 2) (by norm_num) |q|
  have hlog3 := (Int.lt_zpow_iff_log_lt (b := 2) (by norm_num) hqa (x := ((2 ^ (F.w - 1) : Nat) : ℤ))).1 (by
    have := h.lt
    rw [zpow_natCast]; exact_mod_cast this)
  have hmin : F.emin ≤ e := le_max_right _ _
  have hge : Int.log 2 |q| - F.t ≤ e := le_max_left _ _
  -- size of the significand
  have hn1 : n < 2 * 2 ^ F.t := by
    have h5 : (n : ℚ) * 2 ^ e < 2 ^ (F.t + 1) * 2 ^ e := by
      rw [← hqn]
      refine lt_of_lt_of_le (by exact_mod_cast hlog2) ?_
      rw [← zpow_natCast, ← zpow_add₀ (by norm_num)]
      apply zpow_le_zpow_right₀ (by norm_num)
      push_cast; omega
    have h6 : (n : ℚ) < 2 ^ (F.t + 1) := lt_of_mul_lt_mul_right h5 (le_of_lt hpe)
    have h7 : n < 2 ^ (F.t + 1) := by exact_mod_cast h6
    rw [Nat.pow_succ] at h7; omega
  have hn2 : F.emin < e → 2 ^ F.t ≤ n := by
    intro hlt
    have he' : e = Int.log 2 |q| - F.t := by
      rw [he, Fmt.ulpExp] at hlt ⊢
      rcases max_choice (Int.log 2 |q| - (F.t:ℤ)) F.emin with hc | hc <;> rw [hc] at hlt ⊢
      exact absurd hlt (lt_irrefl _)
    have h5 : (2:ℚ) ^ F.t * 2 ^ e ≤ n * 2 ^ e := by
      rw [← hqn]
      refine le_trans (le_of_eq ?_) (show (2:ℚ) ^ (Int.log 2 |q|) ≤ |q| by exact_mod_cast hlog1)
      rw [← zpow_natCast, ← zpow_add₀ (by norm_num)]
      congr 1; omega
    have h6 : (2:ℚ) ^ F.t ≤ n := le_of_mul_le_mul_right h5 hpe
    exact_mod_cast h6
  have hWh : (2 ^ F.w : ℤ) = 2 * 2 ^ (F.w - 1) := by
    rw [← pow_succ', Nat.sub_add_cancel (by omega)]
  have hk3 : (e - F.emin).toNat + 2 < 2 ^ F.w := by
    have h9 : ((e - F.emin).toNat : ℤ) + 2 < 2 ^ F.w := by
      rw [Int.toNat_of_nonneg (by omega)]
      have he' : e = Int.log 2 |q| - F.t ∨ e = F.emin := by
        rw [he, Fmt.ulpExp]; exact max_choice _ _
      push_cast at hlog3
      rcases he' with he' | he'
      · have : F.emin = 2 - 2 ^ (F.w - 1) - F.t := rfl
        omega
      · have : (4:ℤ) ≤ 2 ^ F.w := by exact_mod_cast hW
        omega
    exact_mod_cast h9
  exact ⟨n, hqn, hka, hn1, hn2, hk3⟩

/-- encoding a number of the format and decoding the pattern gives the number back -/
theorem decode_encode {F : Fmt} (hw : 2 ≤ F.w) {s : Bool} {q : ℚ} (h : F.Rep q) (hs : q ≠ 0 → s = decide (q < 0)) :
    F.decode (F.encode (.fin s q)) = .fin s q := by
  have hT : 0 < 2 ^ F.t := by positivity
  have hW : 4 ≤ 2 ^ F.w := by
    calc 4 = 2 ^ 2 := rfl
      _ ≤ 2 ^ F.w := Nat.pow_le_pow_right (by norm_num) hw
  have hTW : 2 ^ (F.t + F.w) = 2 ^ F.t * 2 ^ F.w := Nat.pow_add ..
  -- a pattern assembled from sign, exponent and fraction fields
  have asm : ∀ (ef ff : Nat), ef < 2 ^ F.w → ff < 2 ^ F.t →
      let b := (if s then 2 ^ (F.t + F.w) else 0) + (ef * 2 ^ F.t + ff)
      (b / 2 ^ (F.t + F.w) % 2 = 1 ↔ s = true) ∧ b / 2 ^ F.t % 2 ^ F.w = ef ∧ b % 2 ^ F.t = ff := by
    intro ef ff h1 h2
    generalize 2 ^ F.w = W at *
    generalize 2 ^ F.t = T at *
    rw [hTW]
    have h3 : ef * T + ff < T * W := by
      have : (ef + 1) * T ≤ W * T := Nat.mul_le_mul_right T h1
      have e : (ef + 1) * T = ef * T + T := by ring
      have e' : W * T = T * W := Nat.mul_comm ..
      omega
    cases s
    · simp only [Bool.false_eq_true, if_false, Nat.zero_add]
      refine ⟨?_, ?_, ?_⟩
      · rw [Nat.div_eq_of_lt h3]; simp
      · rw [Nat.mul_comm, Nat.mul_add_div hT, Nat.div_eq_of_lt h2, Nat.add_zero, Nat.mod_eq_of_lt h1]
      · rw [Nat.mul_comm, Nat.mul_add_mod, Nat.mod_eq_of_lt h2]
    · simp only [if_true]
      refine ⟨?_, ?_, ?_⟩
      · have : (T * W + (ef * T + ff)) / (T * W) = 1 := by
          rw [Nat.add_div_left _ (by positivity), Nat.div_eq_of_lt h3]
        rw [this]; simp
      · have : T * W + (ef * T + ff) = T * (W + ef) + ff := by ring
        rw [this, Nat.mul_add_div hT, Nat.div_eq_of_lt h2, Nat.add_zero, Nat.add_mod_left,
          Nat.mod_eq_of_lt h1]
      · have : T * W + (ef * T + ff) = T * (W + ef) + ff := by ring
        rw [this, Nat.mul_add_mod, Nat.mod_eq_of_lt h2]
  by_cases hq : q = 0
  · subst hq
    obtain ⟨a1, a2, a3⟩ := asm 0 0 (by omega) hT
    simp only [Nat.zero_mul, Nat.add_zero] at a1 a2 a3
    unfold Fmt.encode Fmt.decode
    simp only [if_true, Nat.add_zero]
    rw [a2, a3, if_neg (by omega)]
    have a1' : decide ((if s = true then 2 ^ (F.t + F.w) else 0) / 2 ^ (F.t + F.w) % 2 = 1) = s := by
      rw [Bool.eq_iff_iff, decide_eq_true_iff]; exact a1
    simp only [a1']
    congr 1
    simp
  · have hs := hs hq
    set e := F.ulpExp q with he
    obtain ⟨n, hqn, hka, hn1, hn2, hk3⟩ := rep_fields hw h hq
    rw [← he] at hqn hka hn2 hk3
    have hmin : F.emin ≤ e := le_max_right _ _
    have hfl : (|q| / 2 ^ e).floor.toNat = n := by
      rw [hka]
      have : ((n : ℚ)).floor = n := by
        show ⌊(n:ℚ)⌋ = n
        exact Int.floor_natCast n
      rw [this]; rfl
    have fin_val : ∀ a : ℚ, a = |q| → (if s = true then -a else a) = q := by
      intro a ha
      rw [ha]
      by_cases hneg : q < 0
      · rw [abs_of_neg hneg]
        have : s = true := by rw [hs]; simp [hneg]
        rw [if_pos this]; ring
      · rw [abs_of_nonneg (not_lt.1 hneg)]
        have : ¬ s = true := by rw [hs]; simp [hneg]
        rw [if_neg this]
    unfold Fmt.encode
    simp only [if_neg hq]
    rw [← he, hfl]
    by_cases hsub : n < 2 ^ F.t
    · have he0 : e = F.emin := by
        by_contra hc
        have := hn2 (lt_of_le_of_ne hmin (Ne.symm hc))
        omega
      have hz : (e - F.emin).toNat = 0 := by rw [he0]; simp
      rw [hz]
      obtain ⟨a1, a2, a3⟩ := asm 0 n (by omega) hsub
      unfold Fmt.decode
      simp only []
      rw [a2, a3, if_neg (by omega)]
      have a1' : decide (((if s = true then 2 ^ (F.t + F.w) else 0) + (0 * 2 ^ F.t + n)) / 2 ^ (F.t + F.w) % 2 = 1) = s := by
        rw [Bool.eq_iff_iff, decide_eq_true_iff]; exact a1
      simp only [a1', if_true]
      congr 1
      simp only [a1]
      apply fin_val
      rw [hqn, he0]
    · have hz : (e - F.emin).toNat * 2 ^ F.t + n
          = ((e - F.emin).toNat + 1) * 2 ^ F.t + (n - 2 ^ F.t) := by
        have : ((e - F.emin).toNat + 1) * 2 ^ F.t = (e - F.emin).toNat * 2 ^ F.t + 2 ^ F.t := by ring
        omega
      rw [hz]
      obtain ⟨a1, a2, a3⟩ := asm ((e - F.emin).toNat + 1) (n - 2 ^ F.t) (by omega) (by omega)
      unfold Fmt.decode
      simp only []
      rw [a2, a3, if_neg (by omega), if_neg (show ¬ ((e - F.emin).toNat + 1 = 0) by omega)]
      have a1' : decide (((if s = true then 2 ^ (F.t + F.w) else 0) + (((e - F.emin).toNat + 1) * 2 ^ F.t + (n - 2 ^ F.t))) / 2 ^ (F.t + F.w) % 2 = 1) = s := by
        rw [Bool.eq_iff_iff, decide_eq_true_iff]; exact a1
      simp only [a1']
      congr 1
      simp only [a1]
      apply fin_val
      rw [hqn]
      have e1 : (2:ℚ) ^ F.t + ((n - 2 ^ F.t : Nat) : ℚ) = n := by
        rw [Nat.cast_sub (by omega)]; push_cast; ring
      have e2 : F.emin + (((e - F.emin).toNat + 1 : Nat) : ℤ) - 1 = e := by
        push_cast; rw [Int.toNat_of_nonneg (by omega)]; ring
      rw [e1, e2]

theorem encode_lt {F : Fmt} (hw : 2 ≤ F.w) {s : Bool} {q : ℚ} (h : F.Rep q) :
    F.encode (.fin s q) < 2 ^ (F.t + F.w + 1) := by
  have hTW : 2 ^ (F.t + F.w) = 2 ^ F.t * 2 ^ F.w := Nat.pow_add ..
  have hT : 0 < 2 ^ F.t := by positivity
  have hW : 0 < 2 ^ F.w := by positivity
  have key : (if q = 0 then 0 else (F.ulpExp q - F.emin).toNat * 2 ^ F.t + (|q| / 2 ^ (F.ulpExp q)).floor.toNat)
      < 2 ^ (F.t + F.w) := by
    by_cases hq : q = 0
    · rw [if_pos hq]; positivity
    · rw [if_neg hq]
      obtain ⟨n, hqn, hka, hn1, hn2, hk3⟩ := rep_fields hw h hq
      have hfl : (|q| / 2 ^ (F.ulpExp q)).floor.toNat = n := by
        rw [hka]
        have : ((n : ℚ)).floor = n := by
          show ⌊(n:ℚ)⌋ = n
          exact Int.floor_natCast n
        rw [this]; rfl
      rw [hfl, hTW]
      have h1 : ((F.ulpExp q - F.emin).toNat + 2) * 2 ^ F.t ≤ 2 ^ F.w * 2 ^ F.t :=
        Nat.mul_le_mul_right _ (by omega)
      have h2 : ((F.ulpExp q - F.emin).toNat + 2) * 2 ^ F.t
          = (F.ulpExp q - F.emin).toNat * 2 ^ F.t + 2 * 2 ^ F.t := by ring
      rw [Nat.mul_comm (2 ^ F.t) (2 ^ F.w)]
      omega
  unfold Fmt.encode
  simp only []
  rw [pow_succ]
  split <;> omega

theorem round_zero {F : Fmt} {z : Bool} : F.round z 0 = .fin z 0 := by simp [Fmt.round]

/-- integers of at most `t + 1` bits are numbers of the format -/
theorem rep_int {F : Fmt} {n : ℤ} (h : |n| ≤ 2 ^ (F.t + 1)) (he : F.emin ≤ 0) (hb : F.t + 1 < 2 ^ (F.w - 1)) :
    F.Rep (n : ℚ) := by
  refine ⟨n, 0, by simp, h, he, ?_⟩
  have : ((|n| : ℤ) : ℚ) ≤ ((2 ^ (F.t + 1) : ℤ) : ℚ) := by exact_mod_cast h
  push_cast at this
  refine lt_of_le_of_lt this ?_
  exact pow_lt_pow_right₀ (by norm_num) hb

end HyperCV
