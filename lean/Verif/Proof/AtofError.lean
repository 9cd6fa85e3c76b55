/- Rounding errors of `hypercv_atof`. -/
import Verif.Proof.Atof

namespace HyperCV
open Spec Finset

theorem val_nat32 {n : Nat} (h : n ≤ 16777216) : f32.Val (f32.ofInt (n:Int)) n :=
  ⟨is_nat32 h, by have := rep32_int (n := (n:ℤ)) (by rw [abs_le]; constructor <;> omega); rwa [Int.cast_natCast] at this⟩

/-! ### The integer part -/

/-- one digit, exactly -/
theorem atofDigit_exact {v : FV} {n : Nat} (hv : f32.Val v n) (d : Fin 10) (h : 10 * n + d.val ≤ 16777168) :
    f32.Val (atofDigit v (digit d)) ((10 * n + d.val : Nat) : ℚ) := by
  have r (k : Nat) (hk : k ≤ 16777216) : f32.Rep ((k : ℕ) : ℚ) := (val_nat32 hk).2
  have a1 : (f32.mul (f32.ofInt 10) v).Is ((10 * n : Nat) : ℚ) := by
    have := is_mul (F := f32) (val_nat32 (n := 10) (by norm_num)).1 hv.1 (by
      have := r (10 * n) (by omega)
      push_cast at this ⊢; exact this)
    push_cast at this ⊢; exact this
  have a2 : (f32.add (f32.mul (f32.ofInt 10) v) (f32.ofInt (digit d).toNat)).Is ((10 * n + (48 + d.val) : Nat) : ℚ) := by
    have hd := val_nat32 (n := (digit d).toNat) (by rw [(digit_facts d).2.1]; omega)
    have := is_add (F := f32) a1 hd.1 (by
      have := r (10 * n + (digit d).toNat) (by rw [(digit_facts d).2.1]; omega)
      push_cast at this ⊢; exact this)
    rw [(digit_facts d).2.1] at this ⊢
    push_cast at this ⊢; exact this
  have a3 : (atofDigit v (digit d)).Is ((10 * n + d.val : Nat) : ℚ) := by
    have e : ((10 * n + (48 + d.val) : Nat) : ℚ) - ((48 : Nat) : ℚ) = ((10 * n + d.val : Nat) : ℚ) := by push_cast; ring
    have := is_sub (F := f32) a2 (val_nat32 (n := 48) (by norm_num)).1 (by rw [e]; exact r _ (by omega))
    rw [e] at this
    exact this
  exact ⟨a3, r _ (by omega)⟩

/-- one digit, rounded -/
theorem atofDigit_err {v : FV} {z : ℚ} (hv : f32.Val v z) (d : Fin 10) (h0 : 1000000 ≤ z) (h1 : z ≤ 2 ^ 124) :
    ∃ w, f32.Val (atofDigit v (digit d)) w ∧ |w - (10 * z + d.val)| ≤ 1 / 2 ^ 22 * (10 * z + d.val) := by
  have hd9 : (d.val : ℚ) ≤ 9 := by exact_mod_cast (show d.val ≤ 9 by omega)
  have hd0 : (0:ℚ) ≤ d.val := by positivity
  have v10 := val_nat32 (n := 10) (by norm_num)
  have vd := val_nat32 (n := (digit d).toNat) (by rw [(digit_facts d).2.1]; omega)
  have v48 := val_nat32 (n := 48) (by norm_num)
  have ec : (((digit d).toNat : ℕ) : ℚ) = 48 + d.val := by rw [(digit_facts d).2.1]; push_cast; ring
  rw [ec] at vd
  have m1 : (2:ℚ) ^ 124 * 16 = 2 ^ 128 := by norm_num
  obtain ⟨a, a1, a2⟩ := val_mul v10.1 hv.1 (by
    rw [f32_u, f32_eta, f32_max, abs_of_nonneg (by push_cast; linarith)]
    push_cast
    norm_num at h1 ⊢
    linarith)
  rw [f32_u, f32_eta, abs_of_nonneg (a := ((10:Nat):ℚ) * z) (by push_cast; linarith)] at a2
  push_cast at a2
  have a3 := abs_le.1 a2
  norm_num at a3 h1
  obtain ⟨b, b1, b2⟩ := val_add a1 vd (by
    rw [f32_u, f32_max, abs_of_nonneg (by linarith [a3.1])]
    norm_num
    linarith [a3.2])
  rw [f32_u, abs_of_nonneg (a := a + (48 + (d.val:ℚ))) (by linarith [a3.1])] at b2
  have b3 := abs_le.1 b2
  norm_num at b3
  obtain ⟨c, c1, c2⟩ := val_sub b1 v48 (by
    rw [f32_u, f32_max, abs_of_nonneg (by push_cast; linarith [a3.1, b3.1])]
    norm_num
    linarith [a3.2, b3.2])
  rw [f32_u, abs_of_nonneg (a := b - ((48:Nat):ℚ)) (by push_cast; linarith [a3.1, b3.1])] at c2
  have c3 := abs_le.1 c2
  norm_num at c3
  refine ⟨c, c1, ?_⟩
  rw [abs_le]
  norm_num
  constructor
  · linarith [a3.1, b3.1, c3.1, a3.2, b3.2]
  · linarith [a3.2, b3.2, c3.2]

/-- the integer part: exact up to 16777168, with a small relative error above -/
theorem intFV_err (l : List (Fin 10)) (hl : (l.length : ℚ) ≤ 1048576) (hb : (natOf l : ℚ) ≤ 2 ^ 124) :
    ∃ z, f32.Val (intFV l) z ∧ (natOf l ≤ 16777168 → z = natOf l) ∧ |z - natOf l| ≤ ((1 + 1 / 2 ^ 22) ^ l.length - 1) * natOf l := by
  induction l using List.reverseRecOn with
  | nil => exact ⟨0, val_zero f32, fun _ => by simp [natOf], by simp [natOf]⟩
  | append_singleton l d ih =>
    rw [natOf_snoc] at hb ⊢
    rw [List.length_append, List.length_singleton] at hl
    push_cast at hl hb
    have hN0 : (0:ℚ) ≤ natOf l := by positivity
    have hd0 : (0:ℚ) ≤ d.val := by positivity
    obtain ⟨z, z1, z2, z3⟩ := ih (by linarith) (by linarith)
    rw [intFV_snoc, List.length_append, List.length_singleton]
    have hE : (1:ℚ) ≤ (1 + 1 / 2 ^ 22) ^ l.length := one_le_pow₀ (by norm_num)
    have hE' : (1 + 1 / 2 ^ 22 : ℚ) ^ l.length ≤ 3 / 2 := by
      have := pow_le (k := l.length) (e := 1 / 2 ^ 22) (by norm_num) (by norm_num; linarith)
      norm_num at this ⊢
      linarith
    have hE1 : (1 + 1 / 2 ^ 22 : ℚ) ^ (l.length + 1) = (1 + 1 / 2 ^ 22) ^ l.length * (1 + 1 / 2 ^ 22) := pow_succ _ _
    by_cases hs : 10 * natOf l + d.val ≤ 16777168
    · rw [z2 (by omega)] at z1
      have := atofDigit_exact z1 d hs
      refine ⟨_, this, fun _ => rfl, ?_⟩
      rw [sub_self, abs_zero]
      refine mul_nonneg ?_ (by positivity)
      rw [sub_nonneg]
      exact one_le_pow₀ (by norm_num)
    · have hN : (1677716 : ℚ) ≤ natOf l := by
        have h : 1677716 ≤ natOf l := by omega
        exact_mod_cast h
      rw [hE1]
      generalize (1 + 1 / 2 ^ 22 : ℚ) ^ l.length = E at *
      have z4 := abs_le.1 z3
      have hz1 : (1000000:ℚ) ≤ z := by
        by_cases hn : natOf l ≤ 16777168
        · rw [z2 hn]; linarith
        · have hn' : (16777168:ℚ) ≤ natOf l := by exact_mod_cast (show 16777168 ≤ natOf l by omega)
          nlinarith [z4.1]
      have hz2 : z ≤ 2 ^ 124 := by
        nlinarith [z4.2]
      obtain ⟨w, w1, w2⟩ := atofDigit_err z1 d hz1 hz2
      refine ⟨w, w1, fun h => absurd h hs, ?_⟩
      push_cast
      have e1 : w - (10 * (natOf l : ℚ) + d.val) = (w - (10 * z + d.val)) + 10 * (z - natOf l) := by ring
      rw [e1]
      refine le_trans (abs_add_le _ _) ?_
      rw [abs_mul, abs_of_pos (show (0:ℚ) < 10 by norm_num)]
      have hzN : z ≤ E * natOf l := by linarith [z4.2]
      nlinarith

/-! ### The decimals -/

theorem f64_eta_small : f64.eta ≤ 1 / 2 ^ 200 := by
  rw [f64_eta]
  have h : (2:ℚ) ^ (-1074 : ℤ) ≤ 2 ^ (-200:ℤ) := zpow_le_zpow_right₀ (by norm_num) (by norm_num)
  have h2 : (2:ℚ) ^ (-200 : ℤ) = 1 / 2 ^ 200 := by rw [zpow_neg, one_div]; norm_cast
  rw [h2] at h
  have h0 : (0:ℚ) < 2 ^ (-1074 : ℤ) := by positivity
  linarith

theorem f64_big {q : ℚ} (h : q < 2 ^ 250) : q < 2 ^ (2 ^ (f64.w - 1)) := by
  rw [f64_max]
  exact lt_trans h (pow_lt_pow_right₀ (by norm_num) (by norm_num))

/-- `pow(10, k)` for a small `k` -/
theorem pow10_val {k : Nat} (hk : k ≤ 60) : ∃ p, f64.Val (pow10 k) p ∧ |p - 10 ^ k| ≤ 1 / 2 ^ 53 * 10 ^ k := by
  have hb : (10:ℚ) ^ k ≤ 10 ^ 60 := pow_le_pow_right₀ (by norm_num) hk
  have hp : (0:ℚ) < 10 ^ k := by positivity
  have hc : (((10 ^ k : ℤ)) : ℚ) = 10 ^ k := by push_cast; rfl
  obtain ⟨p, p1, p2⟩ := val_ofInt (F := f64) ((10:ℤ) ^ k) (by
    refine f64_big ?_
    rw [hc, f64_u, abs_of_pos hp]
    norm_num at hb ⊢
    linarith) (by decide)
  rw [hc, f64_u, abs_of_pos hp] at p2
  refine ⟨p, ?_, p2⟩
  have : pow10 k = f64.ofInt ((10:ℤ) ^ k) := by
    unfold pow10 Fmt.ofInt
    rw [hc]; rfl
  rw [this]; exact p1

/-- `pow(10, k)` for a large `k`: a large number, or infinity -/
theorem pow10_large {k : Nat} (hk : 60 < k) : pow10 k = .inf false ∨ ∃ p, (pow10 k).Is p ∧ 2 ^ 190 ≤ p := by
  have hb : (10:ℚ) ^ 60 ≤ 10 ^ k := pow_le_pow_right₀ (by norm_num) hk.le
  have hp : (0:ℚ) < 10 ^ k := by positivity
  have h1 : |f64.rv (10 ^ k) - 10 ^ k| ≤ f64.u * |(10:ℚ) ^ k| := by
    refine rv_grid ⟨10 ^ k * 2 ^ 1074, ?_⟩
    have : f64.emin = -1074 := by decide
    rw [this]
    push_cast
    rw [mul_assoc, zpow_neg, ← zpow_natCast (2:ℚ) 1074, Nat.cast_ofNat, mul_inv_cancel₀ (by positivity), mul_one]
  rw [abs_of_pos hp, f64_u] at h1
  have h2 := abs_le.1 h1
  have h3 : (2:ℚ) ^ 190 ≤ f64.rv (10 ^ k) := by
    have : (2:ℚ) ^ 190 ≤ 1 / 2 * 10 ^ 60 := by norm_num
    have h4 : (1:ℚ) / 2 ^ 53 * 10 ^ k ≤ 1 / 2 * 10 ^ k := mul_le_mul_of_nonneg_right (by norm_num) hp.le
    linarith [h2.1]
  by_cases hlt : |f64.rv (10 ^ k)| < 2 ^ (2 ^ (f64.w - 1))
  · exact .inr ⟨_, round_is hlt, h3⟩
  · refine .inl ?_
    unfold pow10 Fmt.round
    rw [if_neg (by rw [Int.toNat_natCast]; exact hp.ne')]
    have : (2:ℚ) ^ (2 ^ (f64.w - 1)) ≤ |f64.rv (10 ^ k)| := not_lt.1 hlt
    unfold Fmt.rv at this
    simp only [Int.toNat_natCast]
    rw [if_pos this]
    congr 1
    simp only [decide_eq_false_iff_not, not_lt]
    exact hp.le

theorem val_nat64 {n : Nat} (h : n ≤ 16777216) : f64.Val (f64.ofInt (n:Int)) n := by
  have h1 : f64.Rep (((n:Int)) : ℚ) := by rw [Int.cast_natCast]; exact f64_rep_nat (by omega)
  have := is_ofInt h1
  rw [Int.cast_natCast] at this h1
  exact ⟨this, h1⟩

/-- the value of a decimal: `(*p - '0') / pow(10, k)` -/
theorem decimalTerm_err (d : Fin 10) {k : Nat} :
    ∃ t, f64.Val (f64.div (f64.ofInt (((digit d).toNat : Int) - 48)) (pow10 k)) t ∧
      |t - d.val / 10 ^ k| ≤ 1 / 2 ^ 50 * (d.val / 10 ^ k) + 1 / 2 ^ 160 := by
  have hd9 : (d.val : ℚ) ≤ 9 := by exact_mod_cast (show d.val ≤ 9 by omega)
  have hd0 : (0:ℚ) ≤ d.val := by positivity
  have ec : (((digit d).toNat : Int) - 48) = ((d.val : Nat) : Int) := by rw [(digit_facts d).2.1]; push_cast; ring
  rw [ec]
  have vd := val_nat64 (n := d.val) (by omega)
  have hT : (0:ℚ) < 10 ^ k := by positivity
  have heta := f64_eta_small
  have heta0 := eta_pos f64
  by_cases hk : k ≤ 60
  · obtain ⟨p, p1, p2⟩ := pow10_val hk
    have p3 := abs_le.1 p2
    have hT1 : (1:ℚ) ≤ 10 ^ k := one_le_pow₀ (by norm_num)
    have hp0 : 0 < p := by nlinarith [p3.1]
    have hp1 : (1:ℚ) / 2 ≤ p := by nlinarith [p3.1]
    have hq0 : 0 ≤ (d.val:ℚ) / p := div_nonneg hd0 hp0.le
    have hq1 : (d.val:ℚ) / p ≤ 18 := by rw [div_le_iff₀ hp0]; linarith
    obtain ⟨t, t1, t2⟩ := val_div vd.1 p1.1 hp0.ne' (by
      refine f64_big ?_
      rw [f64_u, abs_of_nonneg hq0]
      norm_num at heta ⊢
      linarith)
    refine ⟨t, t1, ?_⟩
    rw [f64_u, abs_of_nonneg hq0] at t2
    set x : ℚ := d.val / 10 ^ k with hx
    have hx0 : 0 ≤ x := div_nonneg hd0 hT.le
    have hdx : (d.val : ℚ) = x * 10 ^ k := by rw [hx]; field_simp
    have hqx : |(d.val:ℚ) / p - x| ≤ 1 / 2 ^ 52 * x := by
      have e1 : (d.val:ℚ) / p - x = x * ((10 ^ k - p) / p) := by rw [hdx]; field_simp
      rw [e1, abs_mul, abs_of_nonneg hx0, mul_comm]
      refine mul_le_mul_of_nonneg_right ?_ hx0
      rw [abs_div, abs_of_pos hp0, div_le_iff₀ hp0, abs_sub_comm]
      refine le_trans p2 ?_
      norm_num at p3 ⊢
      linarith [p3.1]
    have hq2 : (d.val:ℚ) / p ≤ 2 * x := by
      have := (abs_le.1 hqx).2
      norm_num at this
      linarith
    have e2 : t - x = (t - d.val / p) + (d.val / p - x) := by ring
    rw [e2]
    refine le_trans (abs_add_le _ _) ?_
    have h200 : f64.eta ≤ 1 / 2 ^ 160 := le_trans heta (by norm_num)
    generalize f64.eta = η at *
    norm_num at t2 hqx h200 ⊢
    linarith
  · rw [not_le] at hk
    have hb : (10:ℚ) ^ 60 ≤ 10 ^ k := pow_le_pow_right₀ (by norm_num) hk.le
    have hx0 : 0 ≤ (d.val:ℚ) / 10 ^ k := div_nonneg hd0 hT.le
    have hx1 : (d.val:ℚ) / 10 ^ k ≤ 1 / 2 ^ 190 := by
      rw [div_le_iff₀ hT]
      have : (9:ℚ) ≤ 1 / 2 ^ 190 * 10 ^ 60 := by norm_num
      nlinarith
    rcases pow10_large hk with h | ⟨p, p1, p2⟩
    · rw [h]
      obtain ⟨s, hs⟩ := vd.1
      rw [hs]
      refine ⟨0, ⟨⟨s != false, rfl⟩, rep_zero f64⟩, ?_⟩
      rw [zero_sub, abs_neg, abs_of_nonneg hx0]
      have : (1:ℚ) / 2 ^ 190 ≤ 1 / 2 ^ 160 := by norm_num
      have h2 : (0:ℚ) ≤ 1 / 2 ^ 50 * (d.val / 10 ^ k) := by positivity
      linarith
    · have hp0 : 0 < p := lt_of_lt_of_le (by norm_num) p2
      have hq0 : 0 ≤ (d.val:ℚ) / p := div_nonneg hd0 hp0.le
      have hq1 : (d.val:ℚ) / p ≤ 1 / 2 ^ 180 := by
        rw [div_le_iff₀ hp0]
        have : (9:ℚ) ≤ 1 / 2 ^ 180 * 2 ^ 190 := by norm_num
        nlinarith
      obtain ⟨t, t1, t2⟩ := val_div vd.1 p1 hp0.ne' (by
        refine f64_big ?_
        rw [f64_u, abs_of_nonneg hq0]
        norm_num at heta hq1 ⊢
        linarith)
      refine ⟨t, t1, ?_⟩
      rw [f64_u, abs_of_nonneg hq0] at t2
      generalize f64.eta = η at *
      have h2 : (0:ℚ) ≤ 1 / 2 ^ 50 * (d.val / 10 ^ k) := by positivity
      have t3 := abs_le.1 t2
      refine le_trans ?_ (le_add_of_nonneg_left h2)
      rw [abs_le]
      norm_num at *
      constructor <;> linarith [t3.1, t3.2]

/-- one decimal -/
theorem atofDecimal_err {v : FV} {s t : ℚ} (hv : f32.Val v s) {c : Char} {k : Int}
    (ht : f64.Val (f64.div (f64.ofInt ((c.toNat : Int) - 48)) (pow10 k)) t) (hb : |s + t| ≤ 2 ^ 20) :
    ∃ z, f32.Val (atofDecimal v c k) z ∧ |z - (s + t)| ≤ 1 / 2 ^ 23 * |s + t| + 1 / 2 ^ 150 := by
  have hv' : f64.Val (f64.conv v) s := ⟨is_conv' hv.1 (f32_to_f64 hv.2), f32_to_f64 hv.2⟩
  have h0 := abs_nonneg (s + t)
  obtain ⟨y, y1, y2⟩ := val_add hv' ht (by
    refine f64_big ?_
    rw [f64_u]
    norm_num at hb ⊢
    linarith)
  rw [f64_u] at y2
  have y3 : |y| ≤ (1 + 1 / 2 ^ 53) * |s + t| := by
    have := abs_add_le (y - (s + t)) (s + t)
    rw [sub_add_cancel] at this
    linarith
  obtain ⟨z, z1, z2⟩ := val_conv (F := f32) y1.1 (by
    rw [f32_u, f32_eta, f32_max]
    norm_num at hb y3 ⊢
    linarith)
  rw [f32_u, f32_eta] at z2
  refine ⟨z, z1, ?_⟩
  have e : z - (s + t) = (z - y) + (y - (s + t)) := by ring
  rw [e]
  refine le_trans (abs_add_le _ _) ?_
  norm_num at y2 y3 z2 ⊢
  linarith

theorem natOf_frac (l : List (Fin 10)) :
    (natOf l : ℚ) / 10 ^ l.length = ∑ i ∈ range l.length, ((l.getD i 0).val : ℚ) / 10 ^ (i + 1) := by
  induction l using List.reverseRecOn with
  | nil => simp [natOf]
  | append_singleton l d ih =>
    rw [natOf_snoc, List.length_append, List.length_singleton, sum_range_succ]
    have h1 : ∑ i ∈ range l.length, (((l ++ [d]).getD i 0).val : ℚ) / 10 ^ (i + 1) = ∑ i ∈ range l.length, ((l.getD i 0).val : ℚ) / 10 ^ (i + 1) := by
      refine sum_congr rfl fun i hi => ?_
      rw [List.getD_eq_getElem?_getD, List.getElem?_append_left (mem_range.1 hi), ← List.getD_eq_getElem?_getD]
    rw [h1, ← ih]
    have h2 : (l ++ [d]).getD l.length 0 = d := by simp [List.getD_eq_getElem?_getD]
    rw [h2]
    push_cast
    rw [pow_succ]
    field_simp

theorem natOf_lt (l : List (Fin 10)) : natOf l < 10 ^ l.length := by
  induction l using List.reverseRecOn with
  | nil => simp [natOf]
  | append_singleton l d ih =>
    rw [natOf_snoc, List.length_append, List.length_singleton, pow_succ]
    omega

/-- the decimals -/
theorem decFV_err (l : List (Fin 10)) (hl : (l.length : ℚ) ≤ 1048576) :
    ∃ z, f32.Val (decFV l 1 (.fin false 0)) z ∧
      |z - natOf l / 10 ^ l.length| ≤ l.length / 2 ^ 21 * (natOf l / 10 ^ l.length) + l.length / 2 ^ 148 := by
  have ex : ∀ i, ∃ t, f64.Val (f64.div (f64.ofInt (((digit (l.getD i 0)).toNat : Int) - 48)) (pow10 ((1 + i : Nat) : Int))) t ∧
      |t - (l.getD i 0).val / 10 ^ (i + 1)| ≤ 1 / 2 ^ 50 * ((l.getD i 0).val / 10 ^ (i + 1)) + 1 / 2 ^ 160 := by
    intro i
    rw [Nat.add_comm 1 i]
    exact decimalTerm_err _
  choose t t1 t2 using ex
  set x : Nat → ℚ := fun i => ((l.getD i 0).val : ℚ) / 10 ^ (i + 1) with hx
  have hx0 : ∀ i, 0 ≤ x i := fun i => by positivity
  have hn0 : (0:ℚ) ≤ l.length := by positivity
  have hF : (natOf l : ℚ) / 10 ^ l.length = ∑ i ∈ range l.length, x i := natOf_frac l
  have hF1 : (natOf l : ℚ) / 10 ^ l.length ≤ 1 := by
    rw [div_le_one (by positivity)]
    exact_mod_cast (natOf_lt l).le
  have hF0 : 0 ≤ (natOf l : ℚ) / 10 ^ l.length := by positivity
  have hd : |∑ i ∈ range l.length, t i - ∑ i ∈ range l.length, x i| ≤ 1 / 2 ^ 50 * ∑ i ∈ range l.length, x i + l.length / 2 ^ 160 := by
    rw [← sum_sub_distrib]
    refine le_trans (abs_sum_le_sum_abs _ _) (le_trans (sum_le_sum fun i _ => t2 i) ?_)
    rw [sum_add_distrib, ← mul_sum, sum_const, card_range, nsmul_eq_mul, mul_one_div]
  have ha : ∑ i ∈ range l.length, |t i| ≤ (1 + 1 / 2 ^ 50) * ∑ i ∈ range l.length, x i + l.length / 2 ^ 160 := by
    have h1 : ∀ i, |t i| ≤ (1 + 1 / 2 ^ 50) * x i + 1 / 2 ^ 160 := by
      intro i
      have := abs_add_le (t i - x i) (x i)
      rw [sub_add_cancel, abs_of_nonneg (hx0 i)] at this
      have := t2 i
      linarith
    refine le_trans (sum_le_sum fun i _ => h1 i) ?_
    rw [sum_add_distrib, ← mul_sum, sum_const, card_range, nsmul_eq_mul, mul_one_div]
  rw [← hF] at hd ha
  have hh : (l.length : ℚ) * (1 / 2 ^ 23) ≤ 1 / 2 := by norm_num; linarith
  have key : ∀ k, k ≤ l.length → SumInv f32 (1 / 2 ^ 23) (1 / 2 ^ 150) t k (decFV (l.take k) 1 (.fin false 0)) := by
    intro k
    induction k with
    | zero => intro _; exact sumInv_zero
    | succ k ih =>
      intro hk
      have e1 : l.take (k + 1) = l.take k ++ [l.getD k 0] := by
        rw [List.take_add_one]
        congr 1
        rw [List.getD_eq_getElem?_getD, List.getElem?_eq_getElem (by omega)]
        rfl
      rw [e1, decFV_append, List.length_take, Nat.min_eq_left (by omega)]
      refine sumInv_succ (by norm_num) (by norm_num) (ih (by omega)) ?_
      intro s s1 s2
      have s3 := step_bound (n := l.length) (by norm_num) (by norm_num) hh (by omega) s2
      refine atofDecimal_err s1 (t1 k) (le_trans s3 ?_)
      norm_num at ha hF1 ⊢
      linarith
  have := key l.length (le_refl _)
  rw [List.take_length] at this
  obtain ⟨z, z1, z2⟩ := this.bound (by norm_num) (by norm_num) hh
  refine ⟨z, z1, ?_⟩
  by_cases hz : l.length = 0
  · have h1 : (natOf l : ℚ) / 10 ^ l.length = 0 := by rw [hF, hz]; simp
    rw [h1, hz] at hd ⊢
    rw [hz] at z2
    simp only [range_zero, sum_empty, Nat.cast_zero, mul_zero, zero_mul, add_zero, zero_div] at z2 ⊢
    exact z2
  have hn1 : (1:ℚ) ≤ l.length := by exact_mod_cast Nat.one_le_iff_ne_zero.2 hz
  have e1 : z - (natOf l : ℚ) / 10 ^ l.length = (z - ∑ i ∈ range l.length, t i) + (∑ i ∈ range l.length, t i - natOf l / 10 ^ l.length) := by ring
  rw [e1]
  refine le_trans (abs_add_le _ _) (le_trans (add_le_add z2 hd) ?_)
  clear z2 hd key this e1 hF
  generalize (natOf l : ℚ) / 10 ^ l.length = A at *
  generalize ∑ i ∈ range l.length, |t i| = B at *
  generalize (l.length : ℚ) = n at *
  have m1 : n * B ≤ n * ((1 + 1 / 2 ^ 50) * A + n / 2 ^ 160) := mul_le_mul_of_nonneg_left ha hn0
  have m2 : n * n ≤ n * 1048576 := mul_le_mul_of_nonneg_left hl hn0
  have m3 : A ≤ n * A := by nlinarith
  have e2 : 2 * n * (1 / 2 ^ 23) * B = 2 / 2 ^ 23 * (n * B) := by ring
  have e3 : n * ((1 + 1 / 2 ^ 50) * A + n / 2 ^ 160) = (1 + 1 / 2 ^ 50) * (n * A) + n * n / 2 ^ 160 := by ring
  have e4 : n / 2 ^ 21 * A = (n * A) / 2 ^ 21 := by ring
  have e5 : 2 * n * (1 / 2 ^ 150) = n * (2 / 2 ^ 150) := by ring
  rw [e3] at m1
  rw [e2, e4, e5]
  generalize n * A = nA at *
  generalize n * B = nB at *
  generalize n * n = nn at *
  norm_num at *
  linarith

end HyperCV
