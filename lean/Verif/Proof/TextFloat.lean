import Verif.Proof.Text
import Verif.Proof.FloatGood
import Verif.Proof.Color
import Verif.Proof.InvertExact
import Mathlib.Tactic.Positivity
import Mathlib.Tactic.FieldSimp

namespace HyperCV
open Spec

/-! ### Reading back `%f` -/

theorem dec6_digit (k : Nat) : ∀ c ∈ dec6 k, isDigitC c = true := by
  intro c hc
  simp only [dec6, List.mem_cons, List.not_mem_nil, or_false] at hc
  rcases hc with rfl | rfl | rfl | rfl | rfl | rfl <;> exact (digitChar_facts _ (by omega)).1

theorem digitsVal_dec6 (a k : Nat) (hk : k < 1000000) : digitsVal (decNat a ++ dec6 k) = a * 1000000 + k := by
  rw [digitsVal_append, digitsVal_decNat]
  simp only [dec6, List.foldl_cons, List.foldl_nil]
  rw [(digitChar_facts (k / 100000 % 10) (by omega)).2, (digitChar_facts (k / 10000 % 10) (by omega)).2,
    (digitChar_facts (k / 1000 % 10) (by omega)).2, (digitChar_facts (k / 100 % 10) (by omega)).2,
    (digitChar_facts (k / 10 % 10) (by omega)).2, (digitChar_facts (k % 10) (by omega)).2]
  omega

theorem atof_fixed (other : Text → Option FV) (s : Bool) (k j : Nat) (m : Mem) :
    atofBuf other ((if s = true then ['-'] else []) ++ decNat (k / 1000000) ++ '.' :: dec6 (k % 1000000)
        ++ List.replicate (j + 1) ' ') m
      = .ok (f64.round s ((if s = true then -1 else 1) * ((k : ℚ) / 1000000)), m) := by
  have hh : ∀ c, (decNat (k / 1000000) ++ ('.' :: (dec6 (k % 1000000) ++ List.replicate (j + 1) ' '))).head? = some c →
      isDigitC c = true := by
    intro c hc; rw [head_append (decNat_ne _)] at hc; exact decNat_head _ c hc
  have e0 : (if s = true then ['-'] else []) ++ decNat (k / 1000000) ++ '.' :: dec6 (k % 1000000) ++ List.replicate (j + 1) ' '
      = (if s = true then ['-'] else []) ++ (decNat (k / 1000000) ++ ('.' :: (dec6 (k % 1000000) ++ List.replicate (j + 1) ' '))) := by
    simp
  have hsp : ∀ c, (List.replicate (j + 1) ' ').head? = some c → isDigitC c = false := by
    intro c hc
    rw [List.replicate_succ] at hc
    simp at hc
    rw [← hc]; decide
  have hdot : ∀ c, ('.' :: (dec6 (k % 1000000) ++ List.replicate (j + 1) ' ')).head? = some c → isDigitC c = false := by
    intro c hc
    simp at hc
    rw [← hc]; decide
  unfold atofBuf
  rw [e0, signed_no_space s hh (by simp [decNat_ne]), splitSign_digits s hh]
  dsimp only
  rw [takeWhile_digits (decNat_digit _) hdot, dropWhile_digits (decNat_digit _) hdot]
  have f1 : fracDigits ('.' :: (dec6 (k % 1000000) ++ List.replicate (j + 1) ' ')) = dec6 (k % 1000000) :=
    takeWhile_digits (dec6_digit _) hsp
  have f2 : fracRest ('.' :: (dec6 (k % 1000000) ++ List.replicate (j + 1) ' ')) = List.replicate (j + 1) ' ' :=
    dropWhile_digits (dec6_digit _) hsp
  rw [f1, f2]
  have hx : (some '.' = some 'x') = False := by decide
  have hX : (some '.' = some 'X') = False := by decide
  rw [if_neg (by
    rintro (h | h)
    · exact decNat_ne _ h.1
    · simp at h)]
  rw [List.replicate_succ]
  dsimp only
  rw [if_neg (by decide), if_neg (by simp), digitsVal_dec6 _ _ (Nat.mod_lt _ (by norm_num))]
  have : k / 1000000 * 1000000 + k % 1000000 = k := by omega
  rw [this]
  show Except.ok _ = _
  congr 3
  rw [zpow_zero, mul_one]
  norm_num [dec6]

/-- numbers close to a number of the format round to it -/
theorem rv_near {F : Fmt} {a x : ℚ} (ha : F.GRep a) (L : ℤ) (h1 : 2 ^ L < a) (h2 : a < 2 ^ (L + 1)) (hL : F.emin ≤ L - F.t)
    (hx : |x - a| < 2 ^ (L - F.t) / 2) : F.rv x = a := by
  have hpL : (0:ℚ) < 2 ^ L := by positivity
  have ha0 : 0 < a := by linarith
  have hlog : ∀ y : ℚ, 2 ^ L ≤ y → y < 2 ^ (L + 1) → F.ulpExp y = L - F.t := by
    intro y hy1 hy2
    have hy : 0 < y := by linarith
    unfold Fmt.ulpExp
    rw [abs_of_pos hy]
    have i1 : L ≤ Int.log 2 y := (Int.zpow_le_iff_le_log (b := 2) (by norm_num) hy).1 (by exact_mod_cast hy1)
    have i2 : Int.log 2 y < L + 1 := (Int.lt_zpow_iff_log_lt (b := 2) (by norm_num) hy).1 (by exact_mod_cast hy2)
    have : Int.log 2 y = L := by omega
    rw [this]; exact max_eq_left hL
  obtain ⟨n, hn⟩ := grep_ulp ha (ne_of_gt ha0)
  rw [hlog a (le_of_lt h1) h2] at hn
  set P : ℚ := 2 ^ (L - F.t) with hP
  have hPp : 0 < P := by rw [hP]; positivity
  have eL : (2:ℚ) ^ L = 2 ^ F.t * P := by
    rw [hP, ← zpow_natCast, ← zpow_add₀ (by norm_num)]; congr 1; omega
  have eL1 : (2:ℚ) ^ (L + 1) = 2 * 2 ^ F.t * P := by
    rw [zpow_add₀ (by norm_num), eL, zpow_one]; ring
  have ean : a = n * P := by field_simp at hn; linarith
  have n1 : (2:ℤ) ^ F.t < n := by
    have : (2:ℚ) ^ F.t * P < n * P := by rw [← eL, ← ean]; exact h1
    have := lt_of_mul_lt_mul_right this (le_of_lt hPp)
    exact_mod_cast this
  have n2 : n < 2 * (2:ℤ) ^ F.t := by
    have : (n:ℚ) * P < 2 * 2 ^ F.t * P := by rw [← eL1, ← ean]; exact h2
    have := lt_of_mul_lt_mul_right this (le_of_lt hPp)
    exact_mod_cast this
  have q1 : (2:ℚ) ^ F.t + 1 ≤ n := by exact_mod_cast n1
  have q2 : (n:ℚ) + 1 ≤ 2 * 2 ^ F.t := by exact_mod_cast n2
  obtain ⟨x1, x2⟩ := abs_lt.1 hx
  have hx1 : 2 ^ L ≤ x := by
    rw [eL]
    have := mul_le_mul_of_nonneg_right q1 (le_of_lt hPp)
    rw [add_mul, ← ean] at this
    linarith
  have hx2 : x < 2 ^ (L + 1) := by
    rw [eL1]
    have := mul_le_mul_of_nonneg_right q2 (le_of_lt hPp)
    rw [add_mul, ← ean] at this
    linarith
  have hr : rne (x / P) = n := by
    have hd : |x / P - n| < 1 / 2 := by
      have : x / P - n = (x - a) / P := by rw [ean]; field_simp
      rw [this, abs_div, abs_of_pos hPp, div_lt_iff₀ hPp]
      linarith
    exact rne_unique (le_of_lt hd) (fun h => absurd h (ne_of_lt hd))
  unfold Fmt.rv
  rw [hlog x hx1 hx2, ← hP, hr, ean]

/-- the decimals of a number of the format `float` determine it, if it is a multiple of 10⁻⁶ or not smaller than 16 -/
theorem wave_back {s : Bool} {q : ℚ} (hg : f32.Good (.fin s q)) (hb : |q| < 10000000000)
    (hq : (∃ z : ℤ, q * 1000000 = z) ∨ 16 ≤ |q|) :
    f32.conv (f64.round s ((if s = true then -1 else 1) * (((rne (|q| * 1000000)).toNat : ℚ) / 1000000))) = .fin s q := by
  obtain ⟨hrep, hs⟩ := hg
  have hsg : (if s = true then (-1:ℚ) else 1) * |q| = q := by
    by_cases h0 : q = 0
    · simp [h0]
    · have := hs h0
      by_cases hn : q < 0
      · rw [this, abs_of_neg hn]; simp [hn]
      · rw [this, abs_of_nonneg (not_lt.1 hn)]; simp [hn]
  have hk0 : 0 ≤ rne (|q| * 1000000) := by
    have := rne_mono (q := ((0:ℤ):ℚ)) (r := |q| * 1000000) (by push_cast; positivity)
    rwa [rne_int] at this
  have hkc : ((rne (|q| * 1000000)).toNat : ℚ) = (rne (|q| * 1000000) : ℤ) := by
    have := Int.toNat_of_nonneg hk0
    exact_mod_cast this
  rw [hkc]
  by_cases hz : ∃ z : ℤ, q * 1000000 = z
  · obtain ⟨z, hz⟩ := hz
    have e1 : |q| * 1000000 = ((|z| : ℤ) : ℚ) := by
      push_cast
      rw [← hz, abs_mul]; norm_num
    have e2 : ((rne (|q| * 1000000) : ℤ) : ℚ) / 1000000 = |q| := by
      rw [e1, rne_int, ← e1]; ring
    rw [e2, hsg]
    by_cases h0 : q = 0
    · subst h0
      rw [round_zero]
      exact round_zero
    · rw [round_rep (f32_to_f64 hrep) h0]
      show f32.round _ q = _
      rw [round_rep hrep h0, hs h0]
  · have h16 : 16 ≤ |q| := by tauto
    set a := |q| with ha
    have ha0 : 0 < a := by linarith
    have hqne : q ≠ 0 := by intro h; rw [ha, h, abs_zero] at ha0; exact lt_irrefl _ ha0
    have hga : f32.GRep a := by
      rcases abs_choice q with h | h
      · rw [ha, h]; exact hrep.g
      · rw [ha, h]; exact (rep_neg hrep).g
    set L := Int.log 2 a with hL
    have l1 : (2:ℚ) ^ L ≤ a := by exact_mod_cast Int.zpow_log_le_self (b := 2) (by norm_num) ha0
    have l2 : a < (2:ℚ) ^ (L + 1) := by exact_mod_cast Int.lt_zpow_succ_log_self (b := 2) (by norm_num) a
    have l4 : 4 ≤ L := (Int.zpow_le_iff_le_log (b := 2) (by norm_num) ha0).1 (by norm_num; exact h16)
    have l34 : L < 34 := (Int.lt_zpow_iff_log_lt (b := 2) (by norm_num) ha0).1 (by norm_num; linarith)
    have l1' : (2:ℚ) ^ L < a := by
      refine lt_of_le_of_ne l1 fun h => hz ?_
      obtain ⟨n, hn⟩ := Int.eq_ofNat_of_zero_le (show 0 ≤ L by omega)
      have ea : a = ((2 ^ n : ℤ) : ℚ) := by rw [← h, hn]; push_cast; rw [← zpow_natCast]
      refine ⟨(if s = true then -1 else 1) * 2 ^ n * 1000000, ?_⟩
      rw [← hsg, ea]
      split <;> push_cast <;> ring
    set k : ℤ := rne (a * 1000000) with hk
    set p : ℚ := (k : ℚ) / 1000000 with hp
    have hpa : |p - a| ≤ 1 / 2000000 := by
      have := (rne_spec (a * 1000000)).1
      rw [← hk] at this
      have e : p - a = -((a * 1000000 - k) / 1000000) := by rw [hp]; field_simp; ring
      rw [e, abs_neg, abs_div]
      rw [div_le_iff₀ (by norm_num)]
      rw [abs_of_pos (show (0:ℚ) < 1000000 by norm_num)]
      linarith
    obtain ⟨pa1, pa2⟩ := abs_le.1 hpa
    have hp0 : 0 < p := by linarith
    have hP : (1:ℚ) / 2 ^ 19 ≤ 2 ^ (L - 23) := by
      have : (2:ℚ) ^ (-19 : ℤ) ≤ 2 ^ (L - 23) := zpow_le_zpow_right₀ (by norm_num) (by omega)
      refine le_trans (le_of_eq ?_) this
      rw [zpow_neg]; norm_num
    have hP2 : (2:ℚ) ^ (L + 1) = 2 ^ 24 * 2 ^ (L - 23) := by
      rw [← zpow_natCast, ← zpow_add₀ (by norm_num)]; congr 1; push_cast; ring
    set P : ℚ := 2 ^ (L - 23) with hPd
    have hPp : 0 < P := by rw [hPd]; positivity
    have herr : |f64.rv p - p| ≤ P / 2 ^ 28 / 2 := by
      have h1 : |p| < 2 ^ ((L - 51) + (f64.t : ℤ) + 1) := by
        have : (2:ℚ) ^ ((L - 51) + (f64.t : ℤ) + 1) = 2 * 2 ^ (L + 1) := by
          have e : (L - 51) + (f64.t : ℤ) + 1 = (L + 1) + 1 := by show (L - 51) + 52 + 1 = _; ring
          rw [e, zpow_add₀ (by norm_num)]; ring
        rw [this, abs_of_pos hp0]
        linarith
      have h2 := rv_err_le (F := f64) (L - 51) h1 (by show (2:ℤ) - 2 ^ (11 - 1) - 52 ≤ _; norm_num; omega)
      have e : (2:ℚ) ^ (L - 51) = P / 2 ^ 28 := by
        rw [hPd, eq_div_iff (by norm_num), ← zpow_natCast, ← zpow_add₀ (by norm_num)]; congr 1; push_cast; ring
      rw [e] at h2
      exact h2
    obtain ⟨r1, r2⟩ := abs_le.1 herr
    have hback : f32.rv (f64.rv p) = a := by
      refine rv_near hga L l1' l2 (by show (2:ℤ) - 2 ^ (8 - 1) - 23 ≤ L - 23; norm_num; omega) ?_
      show |f64.rv p - a| < 2 ^ (L - 23) / 2
      rw [← hPd, abs_lt]
      constructor
      · have : P / 2 ^ 28 / 2 = P / 2 ^ 29 := by ring
        have h3 : P / 2 ^ 29 ≤ P / 8 := by
          apply div_le_div_of_nonneg_left (le_of_lt hPp) <;> norm_num
        have h4 : (1:ℚ) / 2000000 < 3 / 8 * (1 / 2 ^ 19) := by norm_num
        linarith
      · have : P / 2 ^ 28 / 2 = P / 2 ^ 29 := by ring
        have h3 : P / 2 ^ 29 ≤ P / 8 := by
          apply div_le_div_of_nonneg_left (le_of_lt hPp) <;> norm_num
        have h4 : (1:ℚ) / 2000000 < 3 / 8 * (1 / 2 ^ 19) := by norm_num
        linarith
    have hbig : a < 2 ^ (2 ^ (8 - 1)) := by
      refine lt_trans hb ?_
      norm_num
    have hv0 : 0 < f64.rv p := by
      by_contra hc
      have := rv_mono (F := f32) (not_lt.1 hc)
      rw [hback, rv_zero] at this
      linarith
    have hbound : |f64.rv p| < 2 ^ (2 ^ (f64.w - 1)) := by
      rw [abs_of_pos hv0]
      have h5 : f64.rv p < 2 * a := by
        have h3 : P / 2 ^ 28 / 2 ≤ P := by
          have : P / 2 ^ 28 / 2 = P / 2 ^ 29 := by ring
          rw [this]; exact div_le_self (le_of_lt hPp) (by norm_num)
        have h6 : P ≤ 2 ^ L := zpow_le_zpow_right₀ (by norm_num) (by omega)
        have h7 : P ≤ 2 ^ L / 2 := by
          have : (2:ℚ) ^ L = 2 * 2 ^ (L - 1) := by rw [zpow_sub₀ (by norm_num)]; ring
          rw [this]
          have : P ≤ 2 ^ (L - 1) := zpow_le_zpow_right₀ (by norm_num) (by omega)
          linarith
        linarith
      refine lt_trans (lt_trans h5 ?_) (show (2:ℚ) ^ 40 < 2 ^ (2 ^ (f64.w - 1)) from pow_lt_pow_right₀ (by norm_num) (by decide))
      norm_num
      linarith
    cases hcs : s
    · rw [if_neg (by decide), one_mul, round_rv (ne_of_gt hp0) hbound]
      show f32.round _ (f64.rv p) = _
      rw [round_rv (ne_of_gt hv0) (by rw [hback, abs_of_pos ha0]; exact hbig), hback]
      have : a = q := by rw [← hsg, hcs]; simp
      rw [← this, decide_eq_false (not_lt.2 (le_of_lt hv0))]
    · have hb2 : |f64.rv (-p)| < 2 ^ (2 ^ (f64.w - 1)) := by rw [rv_neg, abs_neg]; exact hbound
      rw [if_pos rfl, neg_one_mul, round_rv (by linarith) hb2]
      show f32.round _ (f64.rv (-p)) = _
      rw [rv_neg, round_rv (by linarith) (by rw [rv_neg, hback, abs_neg, abs_of_pos ha0]; exact hbig), rv_neg, hback]
      have : -a = q := by rw [← hsg, hcs]; simp
      rw [this, decide_eq_true (by linarith)]

end HyperCV
