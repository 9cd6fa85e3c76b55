import Verif.Model.Color
import Verif.Spec.Color
import Verif.Proof.Geometric
import Verif.Proof.DataType
import Verif.Proof.FloatFacts

namespace HyperCV
open Spec

/-! ### Floating point results of the grey conversions -/

theorem grep_div {F : Fmt} {q : ℚ} (n : ℤ) (k : Nat) (h : q = n / 2 ^ k) (hn : |n| ≤ 2 ^ (F.t + 1))
    (hk : F.emin ≤ -(k:ℤ)) : F.GRep q :=
  ⟨n, -k, by rw [h, zpow_neg, zpow_natCast]; rfl, hn, hk⟩

theorem lt_f64_max {q : ℚ} (h : q ≤ 4294967296) : q < 2 ^ (2 ^ (f64.w - 1)) := by
  have e : (2:ℚ) ^ 33 ≤ 2 ^ (2 ^ (f64.w - 1)) := pow_le_pow_right₀ (by norm_num) (by decide)
  refine lt_of_lt_of_le ?_ e
  exact lt_of_le_of_lt h (by norm_num)

theorem fin_of_round {F : Fmt} {z : Bool} {q lo hi : ℚ} (hlo : F.GRep lo) (hhi : F.GRep hi) (h1 : lo ≤ q) (h2 : q ≤ hi)
    (h0 : 0 ≤ lo) (hb : hi < 2 ^ (2 ^ (F.w - 1))) : ∃ s v, F.round z q = .fin s v ∧ lo ≤ v ∧ v ≤ hi ∧ v = F.rv q := by
  have a := rv_ge hlo h1
  have b := rv_le hhi h2
  obtain ⟨s, hs⟩ := round_rv' (F := F) (z := z) (q := q) (by
    rw [abs_of_nonneg (le_trans h0 a)]; exact lt_of_le_of_lt b hb)
  exact ⟨s, _, hs, a, b, rfl⟩

theorem f32_grep {n : ℤ} (k : Nat) (hn : |n| ≤ 16777216) (hk : k ≤ 100) : f32.GRep ((n:ℚ) / 2 ^ k) :=
  grep_div n k rfl hn (by simp only [f32, Fmt.emin]; norm_num; omega)

theorem f64_grep {n : ℤ} (k : Nat) (hn : |n| ≤ 9007199254740992) (hk : k ≤ 100) : f64.GRep ((n:ℚ) / 2 ^ k) :=
  grep_div n k rfl hn (by simp only [f64, Fmt.emin]; norm_num; omega)

theorem trunc_nat {s : Bool} {v : ℚ} {n : Nat} (h1 : (n:ℚ) ≤ v) (h2 : v < n + 1) (hn : n ≤ 1000) :
    (FV.fin s v).trunc = some (n:ℤ) := by
  have hv : 0 ≤ v := le_trans (by positivity) h1
  have hf : ⌊v⌋ = (n:ℤ) := by
    rw [Int.floor_eq_iff]; push_cast; exact ⟨h1, h2⟩
  simp only [FV.trunc, if_pos hv, hf]
  rw [if_pos (by constructor <;> omega)]

theorem ofInt_byte (F : Fmt) (hF : F = f32 ∨ F = f64) (n : Nat) (h : n ≤ 1000) :
    F.ofInt (n:ℤ) = .fin false n := by
  unfold Fmt.ofInt
  rcases hF with rfl | rfl
  · exact_mod_cast round_rep_nat (f32_rep_nat (by omega))
  · exact_mod_cast round_rep_nat (f64_rep_nat (by omega))

/-- the maximum method -/
theorem grayMax_eq (r g b : UInt8) :
    grayMaxStep (grayMaxStep (grayMaxStep (.fin false 0) r) g) b
      = .fin false ((max r.toNat (max g.toNat b.toNat) : Nat) : ℚ) := by
  have step : ∀ (n : Nat) (v : UInt8), grayMaxStep (.fin false (n:ℚ)) v = .fin false ((max n v.toNat : Nat) : ℚ) := by
    intro n v
    unfold grayMaxStep
    have hv := v.toNat_lt
    rw [show ival v = ((v.toNat : Nat) : ℤ) from rfl, ofInt_byte f32 (Or.inl rfl) _ (by omega)]
    simp only [FV.lt, Nat.cast_lt, decide_eq_true_eq]
    split
    · rw [Nat.max_eq_left (by omega)]
    · rw [Nat.max_eq_right (by omega)]
  have h0 : (FV.fin false 0) = .fin false ((0:Nat):ℚ) := by simp
  rw [h0, step, step, step, Nat.max_assoc, Nat.zero_max]

theorem add_byte {n : Nat} {v : UInt8} (h : n ≤ 700) :
    f32.add (.fin false (n:ℚ)) (f32.ofInt (ival v)) = .fin false ((n + v.toNat : Nat) : ℚ) := by
  have hv := v.toNat_lt
  rw [show ival v = ((v.toNat : Nat) : ℤ) from rfl, ofInt_byte f32 (Or.inl rfl) _ (by omega)]
  simp only [Fmt.add, Bool.and_false]
  rw [← Nat.cast_add]
  exact round_rep_nat (f32_rep_nat (by omega))

theorem sum_eq (r g b : UInt8) :
    f32.add (f32.add (f32.add (.fin false 0) (f32.ofInt (ival r))) (f32.ofInt (ival g))) (f32.ofInt (ival b))
      = .fin false ((r.toNat + g.toNat + b.toNat : Nat) : ℚ) := by
  have h1 := r.toNat_lt
  have h2 := g.toNat_lt
  have h3 := b.toNat_lt
  have h0 : (FV.fin false 0) = .fin false ((0:Nat):ℚ) := by simp
  rw [h0, add_byte (by omega), add_byte (by omega), add_byte (by omega), Nat.zero_add]

/-- the mean method -/
theorem grayMean_eq {s : Nat} (hs : s ≤ 765) :
    (grayMean (.fin false (s:ℚ))).trunc = some (((2 * s + 3) / 6 : Nat) : ℤ) := by
  obtain ⟨k, d, hd, rfl⟩ : ∃ k d, d < 3 ∧ s = 3 * k + d := ⟨s / 3, s % 3, Nat.mod_lt _ (by decide), by omega⟩
  have hk : k ≤ 255 := by omega
  have h3 : f32.ofInt 3 = .fin false 3 := by exact_mod_cast ofInt_byte f32 (Or.inl rfl) 3 (by decide)
  unfold grayMean
  rw [h3]
  simp only [Fmt.div, if_neg (show (3:ℚ) ≠ 0 by norm_num)]
  have hkq : (k:ℚ) ≤ 255 := by exact_mod_cast hk
  have hk0 : (0:ℚ) ≤ k := by positivity
  -- bounds of the quotient in eighths
  obtain ⟨lo, hi, hlo, hhi, hb, hle⟩ : ∃ lo hi : Nat, ((lo:ℚ) / 8 ≤ ((3 * k + d : Nat) : ℚ) / 3) ∧
      (((3 * k + d : Nat) : ℚ) / 3 ≤ (hi:ℚ) / 8) ∧
      ((8 * ((2 * (3 * k + d) + 3) / 6) ≤ lo + 4) ∧ hi + 4 < 8 * ((2 * (3 * k + d) + 3) / 6 + 1)) ∧ hi ≤ 3000 := by
    rcases (by omega : d = 0 ∨ d = 1 ∨ d = 2) with rfl | rfl | rfl
    · exact ⟨8 * k, 8 * k, by push_cast; linarith, by push_cast; linarith, by omega, by omega⟩
    · exact ⟨8 * k + 2, 8 * k + 3, by push_cast; linarith, by push_cast; linarith, by omega, by omega⟩
    · exact ⟨8 * k + 5, 8 * k + 6, by push_cast; linarith, by push_cast; linarith, by omega, by omega⟩
  have glo := f32_grep (n := lo) 3 (by
    have : (lo:ℚ) / 8 ≤ hi / 8 := le_trans hlo hhi
    have : lo ≤ hi := by
      have : (lo:ℚ) ≤ hi := by linarith
      exact_mod_cast this
    rw [abs_of_nonneg (by positivity)]; omega) (by decide)
  have ghi := f32_grep (n := hi) 3 (by rw [abs_of_nonneg (by positivity)]; omega) (by decide)
  have hlh : lo ≤ hi := by
    have : (lo:ℚ) / 8 ≤ hi / 8 := le_trans hlo hhi
    have : (lo:ℚ) ≤ hi := by linarith
    exact_mod_cast this
  obtain ⟨s1, v, e1, l1, u1, r1⟩ := fin_of_round (z := (false != false)) glo ghi (q := ((3 * k + d : Nat) : ℚ) / 3)
    (by push_cast; push_cast at hlo; linarith) (by push_cast; push_cast at hhi; linarith) (by positivity) (by
      have : (hi:ℚ) ≤ 3000 := by exact_mod_cast hle
      push_cast
      calc (hi:ℚ) / 2 ^ 3 ≤ 3000 := by linarith
        _ < _ := by norm_num [f32])
  rw [e1]
  -- conversion to double is exact
  have gv : f32.GRep v := by rw [r1]; exact rv_grep _ _
  have hhq : (hi:ℚ) ≤ 3000 := by exact_mod_cast hle
  have hv0 : 0 ≤ v := le_trans (by positivity) l1
  have hv1 : v ≤ 3000 := by
    refine le_trans u1 ?_
    push_cast; linarith
  have gv64 : f64.GRep v := by
    obtain ⟨n, e, h1, h2, h3⟩ := gv
    refine ⟨n, e, h1, le_trans h2 ?_, le_trans ?_ h3⟩
    · exact pow_le_pow_right₀ (by norm_num) (by decide)
    · decide
  have hc : f64.conv (.fin s1 v) = .fin (if v = 0 then s1 else (v < 0)) v := by
    simp only [Fmt.conv]
    by_cases hz : v = 0
    · rw [if_pos hz, hz]; exact round_zero
    · rw [if_neg hz]
      exact round_rep (gv64.rep (by
        rw [abs_of_nonneg hv0]
        exact lt_of_le_of_lt hv1 (lt_f64_max (by norm_num)))) hz
  rw [hc]
  simp only [Fmt.add]
  have g1 := f64_grep (n := (lo + 4 : Nat)) 3 (by rw [abs_of_nonneg (by positivity)]; omega) (by decide)
  have g2 := f64_grep (n := (hi + 4 : Nat)) 3 (by rw [abs_of_nonneg (by positivity)]; omega) (by decide)
  obtain ⟨s2, v2, e2, l2, u2, -⟩ := fin_of_round (z := ((if v = 0 then s1 else decide (v < 0)) && false)) g1 g2
    (q := v + 1 / 2) (by push_cast; push_cast at l1; linarith) (by push_cast; push_cast at u1; linarith)
    (by positivity) (by
      push_cast
      calc ((hi:ℚ) + 4) / 2 ^ 3 ≤ 3000 := by linarith
        _ < _ := lt_f64_max (by norm_num))
  rw [e2]
  have b1 : ((8 * ((2 * (3 * k + d) + 3) / 6) : Nat) : ℚ) ≤ ((lo + 4 : Nat) : ℚ) := by exact_mod_cast hb.1
  have b2 : ((hi + 4 : Nat) : ℚ) < ((8 * ((2 * (3 * k + d) + 3) / 6 + 1) : Nat) : ℚ) := by exact_mod_cast hb.2
  apply trunc_nat
  · push_cast at b1 l2 ⊢
    linarith
  · push_cast at b2 u2 ⊢
    linarith
  · omega

/-! The weighted sum. -/

theorem rv_err_le {F : Fmt} {q : ℚ} (k : ℤ) (h : |q| < 2 ^ (k + F.t + 1)) (hk : F.emin ≤ k) :
    |F.rv q - q| ≤ 2 ^ k / 2 := by
  by_cases hq : q = 0
  · subst hq; rw [rv_zero]; simp; positivity
  · refine le_trans (rv_err F q) ?_
    have := ulpExp_le hq h hk
    have : (2:ℚ) ^ F.ulpExp q ≤ 2 ^ k := zpow_le_zpow_right₀ (by norm_num) this
    linarith

/-- a double operation whose exact result is below 512 -/
theorem f64_round_near {z : Bool} {q : ℚ} (h0 : 0 ≤ q) (h : q ≤ 500) :
    ∃ s v, f64.round z q = .fin s v ∧ |v - q| ≤ 1 / 10 ^ 13 ∧ 0 ≤ v := by
  have g500 := f64_grep (n := 500) 0 (by decide) (by decide)
  have hv : f64.rv q ≤ 500 := by have := rv_le g500 (q := q) (by push_cast; linarith); push_cast at this; linarith
  have h0' := rv_nonneg (F := f64) h0
  obtain ⟨s, hs⟩ := round_rv' (F := f64) (z := z) (q := q) (by
    rw [abs_of_nonneg h0']
    exact lt_of_le_of_lt hv (lt_f64_max (by norm_num)))
  refine ⟨s, _, hs, ?_, h0'⟩
  have := rv_err_le (F := f64) (q := q) (-44) (by
    rw [abs_of_nonneg h0]
    exact lt_of_le_of_lt h (by norm_num [f64])) (by decide)
  refine le_trans this (by norm_num)

theorem wconst (c : ℚ) (h0 : 0 ≤ c) (h1 : c ≤ 1) : ∃ s v, f64.round false c = .fin s v ∧ |v - c| ≤ 1 / 10 ^ 13 ∧ 0 ≤ v :=
  f64_round_near h0 (by linarith)

theorem weighted_double (r g b : UInt8) : ∃ s D,
    f64.add (f64.add (f64.mul (f64.ofInt (ival r)) wRed) (f64.mul (f64.ofInt (ival g)) wGreen))
      (f64.mul (f64.ofInt (ival b)) wBlue) = .fin s D ∧ 0 ≤ D ∧
    |D - ((299 * r.toNat + 578 * g.toNat + 114 * b.toNat : Nat) : ℚ) / 1000| ≤ 1 / 10 ^ 10 := by
  have hr : r.toNat ≤ 255 := by have := r.toNat_lt; omega
  have hg : g.toNat ≤ 255 := by have := g.toNat_lt; omega
  have hb : b.toNat ≤ 255 := by have := b.toNat_lt; omega
  rw [show ival r = ((r.toNat : Nat) : ℤ) from rfl, show ival g = ((g.toNat : Nat) : ℤ) from rfl,
    show ival b = ((b.toNat : Nat) : ℤ) from rfl]
  rw [ofInt_byte f64 (Or.inr rfl) _ (by omega), ofInt_byte f64 (Or.inr rfl) _ (by omega),
    ofInt_byte f64 (Or.inr rfl) _ (by omega)]
  have hr' : (r.toNat : ℚ) ≤ 255 := by exact_mod_cast hr
  have hg' : (g.toNat : ℚ) ≤ 255 := by exact_mod_cast hg
  have hb' : (b.toNat : ℚ) ≤ 255 := by exact_mod_cast hb
  generalize hrq : (r.toNat : ℚ) = x at hr'
  generalize hgq : (g.toNat : ℚ) = y at hg'
  generalize hbq : (b.toNat : ℚ) = z at hb'
  have hx0 : 0 ≤ x := by rw [← hrq]; positivity
  have hy0 : 0 ≤ y := by rw [← hgq]; positivity
  have hz0 : 0 ≤ z := by rw [← hbq]; positivity
  obtain ⟨s1, c1, e1, d1, p1⟩ := wconst (299 / 1000) (by norm_num) (by norm_num)
  obtain ⟨s2, c2, e2, d2, p2⟩ := wconst (578 / 1000) (by norm_num) (by norm_num)
  obtain ⟨s3, c3, e3, d3, p3⟩ := wconst (114 / 1000) (by norm_num) (by norm_num)
  unfold wRed wGreen wBlue
  rw [e1, e2, e3]
  simp only [Fmt.mul]
  rw [abs_le] at d1 d2 d3
  have m1 : |x * c1 - x * (299 / 1000)| ≤ 255 / 10 ^ 13 := by
    rw [← mul_sub, abs_mul, abs_of_nonneg hx0]
    calc x * |c1 - 299 / 1000| ≤ 255 * (1 / 10 ^ 13) :=
          mul_le_mul hr' (abs_le.2 ⟨d1.1, d1.2⟩) (abs_nonneg _) (by norm_num)
      _ = _ := by norm_num
  have m2 : |y * c2 - y * (578 / 1000)| ≤ 255 / 10 ^ 13 := by
    rw [← mul_sub, abs_mul, abs_of_nonneg hy0]
    calc y * |c2 - 578 / 1000| ≤ 255 * (1 / 10 ^ 13) :=
          mul_le_mul hg' (abs_le.2 ⟨d2.1, d2.2⟩) (abs_nonneg _) (by norm_num)
      _ = _ := by norm_num
  have m3 : |z * c3 - z * (114 / 1000)| ≤ 255 / 10 ^ 13 := by
    rw [← mul_sub, abs_mul, abs_of_nonneg hz0]
    calc z * |c3 - 114 / 1000| ≤ 255 * (1 / 10 ^ 13) :=
          mul_le_mul hb' (abs_le.2 ⟨d3.1, d3.2⟩) (abs_nonneg _) (by norm_num)
      _ = _ := by norm_num
  rw [abs_le] at m1 m2 m3
  obtain ⟨t1, u1, f1, n1, q1⟩ := f64_round_near (z := (false != s1)) (q := x * c1) (by positivity) (by linarith)
  obtain ⟨t2, u2, f2, n2, q2⟩ := f64_round_near (z := (false != s2)) (q := y * c2) (by positivity) (by linarith)
  obtain ⟨t3, u3, f3, n3, q3⟩ := f64_round_near (z := (false != s3)) (q := z * c3) (by positivity) (by linarith)
  rw [f1, f2, f3]
  simp only [Fmt.add]
  rw [abs_le] at n1 n2 n3
  obtain ⟨t4, u4, f4, n4, q4⟩ := f64_round_near (z := (t1 && t2)) (q := u1 + u2) (by positivity) (by linarith)
  rw [f4]
  simp only [Fmt.add]
  rw [abs_le] at n4
  obtain ⟨t5, u5, f5, n5, q5⟩ := f64_round_near (z := (t4 && t3)) (q := u4 + u3) (by positivity) (by linarith)
  rw [abs_le] at n5
  refine ⟨t5, u5, f5, q5, ?_⟩
  push_cast
  rw [hrq, hgq, hbq, abs_le]
  constructor <;> linarith

/-- conversion to float of a number within 10^-10 of a positive integer gives that integer -/
theorem f32_near_int {D : ℚ} {n : Nat} (hn : 1 ≤ n) (hn2 : n ≤ 1000) (h : |D - n| ≤ 1 / 10 ^ 10) : f32.rv D = n := by
  have hn' : (1:ℚ) ≤ n := by exact_mod_cast hn
  have hn2' : (n:ℚ) ≤ 1000 := by exact_mod_cast hn2
  rw [abs_le] at h
  have hD0 : 0 < D := by linarith
  have hp : (0:ℚ) < 2 ^ (f32.ulpExp D) := by positivity
  have hu1 : f32.ulpExp D ≤ 0 := ulpExp_le (ne_of_gt hD0) (by
    rw [abs_of_pos hD0]
    exact lt_of_le_of_lt (b := 1001) (by linarith) (by norm_num [f32])) (by decide)
  have hu2 : -24 ≤ f32.ulpExp D := by
    refine le_trans ?_ (le_max_left _ _)
    have : (-1:ℤ) ≤ Int.log 2 |D| := by
      rw [← Int.zpow_le_iff_le_log (by norm_num) (abs_pos.2 (ne_of_gt hD0)), abs_of_pos hD0]
      norm_num
      linarith
    simp only [f32]
    omega
  obtain ⟨k, hk⟩ := multiple_le (q := (n:ℚ)) hu1 (k := n) (by simp)
  have hp2 : (2:ℚ) ^ (-24:ℤ) ≤ 2 ^ (f32.ulpExp D) := zpow_le_zpow_right₀ (by norm_num) hu2
  have hd : |D / 2 ^ f32.ulpExp D - k| < 1 / 2 := by
    rw [← hk, ← sub_div, abs_div, abs_of_pos hp, div_lt_iff₀ hp]
    have h1 : |D - n| ≤ 1 / 10 ^ 10 := abs_le.2 h
    have h2 : (2:ℚ) ^ (-24:ℤ) = 1 / 16777216 := by norm_num
    rw [h2] at hp2
    linarith
  have := rne_unique (le_of_lt hd) (fun hh => by rw [hh] at hd; exact absurd hd (lt_irrefl _))
  unfold Fmt.rv
  rw [this, ← hk, div_mul_cancel₀ _ (ne_of_gt hp)]

/-- the weighted method -/
theorem grayWeighted_eq (r g b : UInt8) :
    (grayWeighted r g b).trunc = some (((299 * r.toNat + 578 * g.toNat + 114 * b.toNat) / 1000 : Nat) : ℤ) := by
  have hr : r.toNat ≤ 255 := by have := r.toNat_lt; omega
  have hg : g.toNat ≤ 255 := by have := g.toNat_lt; omega
  have hb : b.toNat ≤ 255 := by have := b.toNat_lt; omega
  obtain ⟨s, D, e, h0, hD⟩ := weighted_double r g b
  unfold grayWeighted
  rw [e]
  simp only [Fmt.conv]
  generalize hW : 299 * r.toNat + 578 * g.toNat + 114 * b.toNat = W at *
  obtain ⟨n, d, hd, hWe⟩ : ∃ n d, d < 1000 ∧ W = 1000 * n + d := ⟨W / 1000, W % 1000, Nat.mod_lt _ (by decide), by omega⟩
  have hn : n ≤ 255 := by omega
  have hn' : (n:ℚ) ≤ 255 := by exact_mod_cast hn
  have hdiv : W / 1000 = n := by omega
  have hWq : (W:ℚ) = 1000 * n + d := by rw [hWe]; push_cast; ring
  rw [hWq] at hD
  have hD' := abs_le.1 hD
  have hdq : (d:ℚ) ≤ 999 := by exact_mod_cast (by omega : d ≤ 999)
  have hd0 : (0:ℚ) ≤ d := by positivity
  -- an upper bound of the double that is a float below n+1
  have gup : f32.GRep (((1024 * (n + 1) - 1 : ℤ) : ℚ) / 2 ^ 10) := f32_grep (n := 1024 * (n + 1) - 1) 10 (by
    rw [abs_of_nonneg (by omega)]; omega) (by decide)
  have hup : D ≤ ((1024 * (n + 1) - 1 : ℤ) : ℚ) / 2 ^ 10 := by push_cast; linarith
  have hv1 : f32.rv D ≤ ((1024 * (n + 1) - 1 : ℤ) : ℚ) / 2 ^ 10 := rv_le gup hup
  have hv0 : 0 ≤ f32.rv D := rv_nonneg h0
  obtain ⟨s', hs'⟩ := round_rv' (F := f32) (z := s) (q := D) (by
    rw [abs_of_nonneg hv0]
    refine lt_of_le_of_lt hv1 ?_
    push_cast
    calc (1024 * ((n:ℚ) + 1) - 1) / 2 ^ 10 ≤ 1000 := by linarith
      _ < _ := by norm_num [f32])
  rw [hs', hdiv]
  apply trunc_nat
  · by_cases hz : d = 0
    · by_cases hn0 : n = 0
      · rw [hn0]; simpa using hv0
      · subst hz
        rw [f32_near_int (n := n) (by omega) (by omega) (by
          refine le_trans (le_of_eq ?_) hD
          congr 1
          push_cast; ring)]
    · have hd1 : (1:ℚ) ≤ d := by exact_mod_cast (by omega : 1 ≤ d)
      have gn := f32_grep (n := n) 0 (by rw [abs_of_nonneg (by positivity)]; omega) (by decide)
      have := rv_ge gn (q := D) (by push_cast; linarith)
      push_cast at this
      linarith
  · push_cast at hv1
    linarith
  · omega

/-! ### The routines -/

theorem new8 {m : Mem} (hm : m.WF) {R C ch : Nat} {px : Nat → Nat → Nat → UInt8} (hR : 0 < R) (hC : 0 < C) (hch : 0 < ch)
    {r : Except Err (Option Nat × Mem)}
    (h : r = .ok (some (m.next + 1), m.newImage R C 1 ch 1 (imgBytes C ch 1 (fun i j c _ => px i j c)))) :
    NewImage8 m r R C ch px :=
  ⟨_, _, h, newImage_isImage rfl hR hC hch, newImage_fresh m, newImage_frame m, newImage_WF hm⟩

/-- running a loop that fills a new byte image -/
theorem new8_fill {m : Mem} {R C ch : Nat} {f0 : Nat → UInt8} {px : Nat → Nat → Nat → UInt8} {x : M Unit}
    (h : Fills x (m.newImage R C 1 ch 1 f0) m.next (R * C * ch) (imgBytes C ch 1 (fun i j c _ => px i j c))
      (fun p => p < R * C * ch)) :
    x (m.newImage R C 1 ch 1 f0)
      = .ok ((), m.newImage R C 1 ch 1 (imgBytes C ch 1 (fun i j c _ => px i j c))) := by
  have e : R * C * ch * 1 = R * C * ch := Nat.mul_one _
  have h1 := newImage_data m R C 1 ch 1 f0
  rw [e] at h1
  rw [h.total (fun p hp => hp) h1]
  have h2 := newImage_put m (R := R) (C := C) (dt := 1) (ch := ch) (E := 1) (f := f0)
    (g := imgBytes C ch 1 (fun i j c _ => px i j c))
  rw [e] at h2
  rw [h2]

theorem eval_one {R C i j : Nat} (hi : i < R) (hj : j < C) (hN : R * C ≤ 2147483647) :
    (CI.lit (i:Int) * CI.lit (C:Int) + CI.lit (j:Int) : CI) = CI.lit ((i * C + j : Nat) : Int) := by
  have h : i * C + j < R * C := mix_lt hi hj
  have h1 : i * C + j < 2147483648 := by omega
  ci_down

theorem eval_px {R C ch i j : Nat} (hi : i < R) (hj : j < C) (hch : 0 < ch) (hN : R * C * ch ≤ 2147483647) :
    (CI.lit (i:Int) * CI.lit (C:Int) * CI.lit (ch:Int) + CI.lit (j:Int) * CI.lit (ch:Int) : CI)
      = CI.lit (((i * C + j) * ch : Nat) : Int) := by
  have h0 : (i * C + j) * ch + 0 < R * C * ch := img8_lt hi hj hch
  have e : (i * C + j) * ch = i * C * ch + j * ch := by ring
  have h : i * C * ch + j * ch < 2147483648 := by omega
  have hC : 0 < C := by omega
  rw [e]
  ci_down

theorem create_rgb {m : Mem} {R C : Nat} (hR : 0 < R) (hC : 0 < C) (hN : R * C * 3 ≤ 2147483551) :
    create_simple_mat R C 1 3 m = .ok (some (m.next + 1),
      m.newImage R C 1 3 1 (fun p => if p < R * C * 1 then 0 else m.junk m.next p)) :=
  create_sm_ok (E := 1) (ch := 3) hR hC (by decide) rfl (by omega)

theorem create_gray {m : Mem} {R C : Nat} (hR : 0 < R) (hC : 0 < C) (hN : R * C ≤ 2147483551) :
    create_simple_mat R C 1 1 m = .ok (some (m.next + 1),
      m.newImage R C 1 1 1 (fun p => if p < R * C * 1 then 0 else m.junk m.next p)) :=
  create_sm_ok (E := 1) (ch := 1) hR hC (by decide) rfl (by omega)

theorem gray2rgb_run {m : Mem} (hm : m.WF) {p R C : Nat} {px : Nat → Nat → Nat → UInt8}
    (h : IsImage8 m p R C 1 px) (hN : R * C * 3 ≤ 2147483551) :
    sm_gray2rgb (some p) m = .ok (some (m.next + 1), m.newImage R C 1 3 1
      (imgBytes C 3 1 (fun i j _ _ => px i j 0))) := by
  obtain ⟨sd, si, a1, a6⟩ := img8_lit h
  unfold sm_gray2rgb
  rw [bind_ok (show derefS (some p) m = _ from getS_ok a1)]
  simp only [Nat.cast_one, decide_true, cassert_bind_true]
  rw [bind_ok (create_rgb h.posR h.posC (by omega))]
  rw [bind_ok (show derefS (some (m.next + 1)) _ = _ from getS_ok (newImage_sm m R C 1 3 1 _))]
  have hdl := a6.lt_next hm
  have hs := newImage_holds_old hm (R := R) (C := C) (dt := 1) (ch := 3) (E := 1)
    (f := fun p => if p < R * C * 1 then 0 else m.junk m.next p) a6
  have hf := move_fills (R := R) (C := C) (ch := 3) hs (show sd ≠ m.next by omega)
    (new := imgBytes C 3 1 (fun i j _ _ => px i j 0))
    (fun i j _ => i * CI.lit C + j)
    (fun i j k => i * CI.lit C * CI.lit 3 + j * CI.lit 3 + k)
    (fun i j _ => i * C + j)
    (by intro i j c hi hj _; exact eval_one hi hj (by omega))
    (by intro i j c hi hj _; have : i * C + j < R * C := mix_lt hi hj; omega)
    (by intro i j c hi hj hc; exact eval_img hi hj hc (by show R * C * 3 ≤ _; omega))
    (by
      intro i j c hi hj hc
      have := imgBytes_at8 (px := px) (i := i) hj (show 0 < 1 by decide)
      rw [Nat.mul_one, Nat.add_zero] at this
      rw [imgBytes_at8 hj hc (px := fun i j _ => px i j 0), this])
  have hf' := new8_fill (px := fun i j _ => px i j 0) hf
  exact bind_ok (f := fun _ => pure (some (m.next + 1))) hf'

theorem binary2rgb_run {m : Mem} (hm : m.WF) {p R C : Nat} {px : Nat → Nat → Nat → UInt8}
    (h : IsImage8 m p R C 1 px) (hN : R * C * 3 ≤ 2147483551) :
    sm_binary2rgb (some p) m = .ok (some (m.next + 1), m.newImage R C 1 3 1
      (imgBytes C 3 1 (fun i j _ _ => uchar (ival (px i j 0) * 255)))) := by
  obtain ⟨sd, si, a1, a6⟩ := img8_lit h
  unfold sm_binary2rgb
  rw [bind_ok (show derefS (some p) m = _ from getS_ok a1)]
  simp only [Nat.cast_one, decide_true, cassert_bind_true]
  rw [bind_ok (create_rgb h.posR h.posC (by omega))]
  rw [bind_ok (show derefS (some (m.next + 1)) _ = _ from getS_ok (newImage_sm m R C 1 3 1 _))]
  have hdl := a6.lt_next hm
  have hs := newImage_holds_old hm (R := R) (C := C) (dt := 1) (ch := 3) (E := 1)
    (f := fun p => if p < R * C * 1 then 0 else m.junk m.next p) a6
  rw [show (newSHdr m R C 1 3 1).data = m.next from rfl]
  have hf : Fills (forI 0 (R:Int) fun i => forI 0 (C:Int) fun j => forI 0 ((3:Nat):Int) fun k => do
        let si ← ev (i * CI.lit C + j)
        let v ← load sd si
        let x ← ev (CI.lit (ival v) * CI.lit 255)
        let di ← ev (i * CI.lit C * CI.lit 3 + j * CI.lit 3 + k)
        store m.next di (uchar x))
      (m.newImage R C 1 3 1 (fun p => if p < R * C * 1 then 0 else m.junk m.next p)) m.next (R * C * 3)
      (imgBytes C 3 1 (fun i j _ _ => uchar (ival (px i j 0) * 255))) (fun p => p < R * C * 3) := by
    refine Fills.congr (nest3 (P := fun i j k p => p = (i * C + j) * 3 + k) ?_) ?_ (fun _ _ _ => rfl)
    · intro i j k hi hj hk
      have hlt : i * C + j < R * C := mix_lt hi hj
      refine Fills.bind (fun g => ev_ok (eval_one hi hj (by omega)) _) ?_
      refine Fills.bind (fun g => load_ok (hs.put_ne (by omega)) (by omega)) ?_
      refine Fills.bind (fun g => ev_ok (CI.mul_ok ?_) _) ?_
      · generalize imgBytes C 1 1 (fun i j c _ => px i j c) (i * C + j) = v
        have := v.toNat_lt
        rw [show ival v = ((v.toNat : Nat) : ℤ) from rfl]
        constructor <;> omega
      refine Fills.bind (fun g => ev_ok (eval_img hi hj hk (by show R * C * 3 ≤ _; omega)) _) ?_
      refine Fills.store (img8_lt hi hj hk) ?_
      have := imgBytes_at8 (px := px) (i := i) hj (show 0 < 1 by decide)
      rw [Nat.mul_one, Nat.add_zero] at this
      rw [imgBytes_at8 hj hk (px := fun i j _ => uchar (ival (px i j 0) * 255)), this]
    · intro p hp
      refine ⟨fun _ => hp, fun _ => ?_⟩
      obtain ⟨i, j, c, hi, hj, hc, e⟩ := img8_cover hp
      exact ⟨i, hi, j, hj, c, hc, e⟩
  exact bind_ok (f := fun _ => pure (some (m.next + 1)))
    (new8_fill (px := fun i j _ => uchar (ival (px i j 0) * 255)) hf)

/-- the grey level computed by the code -/
def greyLevel (method : Int) (r g b : Nat) : Nat :=
  if method = 1 then max r (max g b)
  else if method = 2 then (299 * r + 578 * g + 114 * b) / 1000
  else (2 * (r + g + b) + 3) / 6

theorem greyLevel_spec (method : Int) (r g b : Nat) : GreyOf method r g b (greyLevel method r g b) := by
  unfold GreyOf greyLevel
  repeat' split
  · rfl
  · omega
  · omega

theorem truncInt_ok {x : FV} {n : ℤ} (h : x.trunc = some n) (m : Mem) : truncInt x m = .ok (n, m) := by
  unfold truncInt; rw [h]; rfl

theorem fold3 {σ : Type} (m : Mem) (s : σ) (body : Int → σ → M σ) (s1 s2 s3 : σ)
    (h0 : body 0 s m = .ok (s1, m)) (h1 : body 1 s1 m = .ok (s2, m)) (h2 : body 2 s2 m = .ok (s3, m)) :
    forA 0 3 s body m = .ok (s3, m) := by
  have := forA_run (n := 3) (body := body) (fun _ => m)
    (fun | 0 => s | 1 => s1 | 2 => s2 | _ => s3) (by
      intro i hi
      rcases (by omega : i = 0 ∨ i = 1 ∨ i = 2) with rfl | rfl | rfl
      · exact h0
      · exact h1
      · exact h2)
  exact this

theorem grayPixel_run {m : Mem} {d R C i j : Nat} {method : Int} {px : Nat → Nat → Nat → UInt8}
    (hd : Holds m d (R * C * 3) (imgBytes C 3 1 (fun i j c _ => px i j c))) (hi : i < R) (hj : j < C)
    (hN : R * C * 3 ≤ 2147483647) :
    grayPixel d C method i j m
      = .ok (((greyLevel method (px i j 0).toNat (px i j 1).toNat (px i j 2).toNat : Nat) : ℤ), m) := by
  have hl : ∀ c, c < 3 → load d (((i * C + j) * 3 + c : Nat) : Int) m = .ok (px i j c, m) := by
    intro c hc
    rw [load_ok hd (img8_lt hi hj hc), imgBytes_at8 hj hc]
  have ea : ∀ c : Nat, c < 3 → (CI.lit (i:Int) * CI.lit (C:Int) * CI.lit 3 + CI.lit (j:Int) * CI.lit 3 + CI.lit (c:Int) : CI)
      = CI.lit (((i * C + j) * 3 + c : Nat) : Int) := fun c hc => eval_img hi hj hc hN
  have e0 : (CI.lit (i:Int) * CI.lit (C:Int) * CI.lit 3 + CI.lit (j:Int) * CI.lit 3 : CI)
      = CI.lit (((i * C + j) * 3 + 0 : Nat) : Int) := eval_px (ch := 3) hi hj (by decide) hN
  have l0 := hl 0 (by decide)
  have l1 := hl 1 (by decide)
  have l2 := hl 2 (by decide)
  have a0 : (CI.lit (i:Int) * CI.lit (C:Int) * CI.lit 3 + CI.lit (j:Int) * CI.lit 3 + CI.lit 0 : CI)
      = CI.lit (((i * C + j) * 3 + 0 : Nat) : Int) := ea 0 (by decide)
  have a1 : (CI.lit (i:Int) * CI.lit (C:Int) * CI.lit 3 + CI.lit (j:Int) * CI.lit 3 + CI.lit 1 : CI)
      = CI.lit (((i * C + j) * 3 + 1 : Nat) : Int) := ea 1 (by decide)
  have a2 : (CI.lit (i:Int) * CI.lit (C:Int) * CI.lit 3 + CI.lit (j:Int) * CI.lit 3 + CI.lit 2 : CI)
      = CI.lit (((i * C + j) * 3 + 2 : Nat) : Int) := ea 2 (by decide)
  unfold grayPixel greyLevel
  by_cases h1 : method = 1
  · rw [if_pos h1, if_pos h1]
    rw [bind_ok (fold3 m _ _ (grayMaxStep (.fin false 0) (px i j 0))
      (grayMaxStep (grayMaxStep (.fin false 0) (px i j 0)) (px i j 1))
      (grayMaxStep (grayMaxStep (grayMaxStep (.fin false 0) (px i j 0)) (px i j 1)) (px i j 2))
      (by rw [ev_bind a0, bind_ok l0]; rfl) (by rw [ev_bind a1, bind_ok l1]; rfl) (by rw [ev_bind a2, bind_ok l2]; rfl))]
    rw [grayMax_eq]
    apply truncInt_ok
    apply trunc_nat (le_refl _) (by linarith)
    have := (px i j 0).toNat_lt
    have := (px i j 1).toNat_lt
    have := (px i j 2).toNat_lt
    omega
  · rw [if_neg h1, if_neg h1]
    by_cases h2 : method = 2
    · rw [if_pos h2, if_pos h2]
      rw [ev_bind e0, bind_ok l0, ev_bind a1, bind_ok l1, ev_bind a2, bind_ok l2]
      exact truncInt_ok (grayWeighted_eq _ _ _) m
    · rw [if_neg h2, if_neg h2]
      rw [bind_ok (fold3 m _ _ (f32.add (.fin false 0) (f32.ofInt (ival (px i j 0))))
        (f32.add (f32.add (.fin false 0) (f32.ofInt (ival (px i j 0)))) (f32.ofInt (ival (px i j 1))))
        (f32.add (f32.add (f32.add (.fin false 0) (f32.ofInt (ival (px i j 0)))) (f32.ofInt (ival (px i j 1))))
          (f32.ofInt (ival (px i j 2))))
        (by rw [ev_bind a0, bind_ok l0]; rfl) (by rw [ev_bind a1, bind_ok l1]; rfl)
        (by rw [ev_bind a2, bind_ok l2]; rfl))]
      rw [sum_eq]
      apply truncInt_ok
      apply grayMean_eq
      have := (px i j 0).toNat_lt
      have := (px i j 1).toNat_lt
      have := (px i j 2).toNat_lt
      omega

theorem rgb2gray_run {m : Mem} (hm : m.WF) {p R C : Nat} {method : Int} {px : Nat → Nat → Nat → UInt8}
    (h : IsImage8 m p R C 3 px) (hN : R * C * 3 ≤ 2147483551) :
    sm_rgb2gray (some p) method m = .ok (some (m.next + 1), m.newImage R C 1 1 1
      (imgBytes C 1 1 (fun i j _ _ =>
        uchar ((greyLevel method (px i j 0).toNat (px i j 1).toNat (px i j 2).toNat : Nat) : ℤ)))) := by
  obtain ⟨sd, si, a1, a6⟩ := img8_lit h
  unfold sm_rgb2gray
  rw [bind_ok (show derefS (some p) m = _ from getS_ok a1)]
  simp only [Nat.cast_ofNat, decide_true, cassert_bind_true]
  rw [bind_ok (create_gray h.posR h.posC (by omega))]
  rw [bind_ok (show derefS (some (m.next + 1)) _ = _ from getS_ok (newImage_sm m R C 1 1 1 _))]
  have hdl := a6.lt_next hm
  have hs := newImage_holds_old hm (R := R) (C := C) (dt := 1) (ch := 1) (E := 1)
    (f := fun p => if p < R * C * 1 then 0 else m.junk m.next p) a6
  rw [show (newSHdr m R C 1 1 1).data = m.next from rfl]
  have hf : Fills (forI 0 (R:Int) fun i => forI 0 (C:Int) fun j => do
        let n ← grayPixel sd C method i j
        let di ← ev (i * CI.lit C + j)
        store m.next di (uchar n))
      (m.newImage R C 1 1 1 (fun p => if p < R * C * 1 then 0 else m.junk m.next p)) m.next (R * C * 1 * 1)
      (imgBytes C 1 1 (fun i j _ _ =>
        uchar ((greyLevel method (px i j 0).toNat (px i j 1).toNat (px i j 2).toNat : Nat) : ℤ)))
      (fun p => p < R * C * 1 * 1) := by
    refine Fills.congr (nest2 (P := fun i j p => p = i * C + j) ?_) ?_ (fun _ _ _ => rfl)
    · intro i j hi hj
      have hlt : i * C + j < R * C := mix_lt hi hj
      refine Fills.bind (fun g => grayPixel_run (hs.put_ne (by omega)) hi hj (by omega)) ?_
      refine Fills.bind (fun g => ev_ok (eval_one hi hj (by omega)) _) ?_
      refine Fills.store (by omega) ?_
      have := imgBytes_at8 (px := fun i j _ =>
        uchar ((greyLevel method (px i j 0).toNat (px i j 1).toNat (px i j 2).toNat : Nat) : ℤ)) (i := i) hj
        (show 0 < 1 by decide)
      rw [Nat.mul_one, Nat.add_zero] at this
      rw [this]
    · intro p hp
      refine ⟨fun _ => hp, fun _ => ?_⟩
      obtain ⟨i, j, c, hi, hj, hc, e⟩ := img8_cover (R := R) (C := C) (ch := 1) (p := p) (by omega)
      exact ⟨i, hi, j, hj, by omega⟩
  rw [bind_ok (hf.total (fun p hp => hp) (newImage_data m R C 1 1 1 _)), newImage_put]
  rfl

theorem bgr2rgb_run {m : Mem} {sp dp R C : Nat} {px px' : Nat → Nat → Nat → UInt8}
    (hs : IsImage8 m sp R C 3 px) (hd : IsImage8 m dp R C 3 px') (hsep : SepPixels m sp dp)
    (hN : R * C * 3 ≤ 2147483647) :
    ∃ m', sm_bgr2rgb (some sp) (some dp) m = .ok ((), m') ∧
      IsImage8 m' dp R C 3 (fun i j c => px i j (2 - c)) ∧ OnlyPixels m m' dp := by
  obtain ⟨sd, si, a1, a6⟩ := img8_lit hs
  obtain ⟨dd, di, b1, b6⟩ := img8_lit hd
  have hne : sd ≠ dd := sep_ne hsep a1 b1
  obtain ⟨g1, g2⟩ := img8_put (px' := fun i j c => px i j (2 - c))
    (new := imgBytes C 3 1 (fun i j c _ => px i j (2 - c))) hd b1
    (fun i j c hi hj hc => imgBytes_at8 hj hc (px := fun i j c => px i j (2 - c)))
  refine ⟨_, ?_, g1, g2⟩
  unfold sm_bgr2rgb
  rw [nonNull_some, nonNull_some, bind_ok (getS_ok a1)]
  simp only [decide_true, cassert_bind_true]
  rw [bind_ok (getS_ok b1)]
  simp only [and_self, Nat.cast_ofNat, decide_true, cassert_bind_true]
  refine Fills.total (P := fun p => p < R * C * 3) ?_ (fun p hp => hp) b6
  refine Fills.congr (nest3 (n3 := 3) (P := fun i j _ p => p = (i * C + j) * 3 + 0 ∨ p = (i * C + j) * 3 + 1 ∨
    p = (i * C + j) * 3 + 2) ?_) ?_ (fun _ _ _ => rfl)
  · intro i j k hi hj _
    have hl : ∀ c g, c < 3 → load sd (((i * C + j) * 3 + c : Nat) : Int) (m.put dd (R * C * 3) g)
        = .ok (px i j c, m.put dd (R * C * 3) g) := by
      intro c g hc
      rw [load_ok (a6.put_ne hne) (img8_lt hi hj hc), imgBytes_at8 hj hc]
    have ea : ∀ c : Nat, c < 3 → (CI.lit (i:Int) * CI.lit (C:Int) * CI.lit 3 + CI.lit (j:Int) * CI.lit 3 + CI.lit (c:Int) : CI)
        = CI.lit (((i * C + j) * 3 + c : Nat) : Int) := fun c hc => eval_img hi hj hc hN
    have e0 : (CI.lit (i:Int) * CI.lit (C:Int) * CI.lit 3 + CI.lit (j:Int) * CI.lit 3 : CI)
        = CI.lit (((i * C + j) * 3 + 0 : Nat) : Int) := eval_px (ch := 3) hi hj (by decide) hN
    have st : ∀ c, c < 3 → px i j (2 - c) = imgBytes C 3 1 (fun i j c _ => px i j (2 - c)) ((i * C + j) * 3 + c) :=
      fun c hc => (imgBytes_at8 hj hc (px := fun i j c => px i j (2 - c))).symm
    refine Fills.bind (fun g => ev_ok e0 _) ?_
    refine Fills.bind (fun g => ev_ok (ea 1 (by decide)) _) ?_
    refine Fills.bind (fun g => ev_ok (ea 2 (by decide)) _) ?_
    refine Fills.bind (fun g => hl 2 g (by decide)) ?_
    refine Fills.seq (Fills.store (img8_lt hi hj (by decide)) (st 0 (by decide))) ?_
    refine Fills.bind (fun g => hl 1 g (by decide)) ?_
    refine Fills.seq (Fills.store (img8_lt hi hj (by decide)) (st 1 (by decide))) ?_
    refine Fills.bind (fun g => hl 0 g (by decide)) ?_
    exact Fills.store (img8_lt hi hj (by decide)) (st 2 (by decide))
  · intro p hp
    refine ⟨fun _ => hp, fun _ => ?_⟩
    obtain ⟨i, j, c, hi, hj, hc, e⟩ := img8_cover hp
    refine ⟨i, hi, j, hj, 0, by decide, ?_⟩
    omega

end HyperCV
