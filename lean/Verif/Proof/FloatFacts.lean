/- Further facts about rounding: symmetry, monotonicity with respect to numbers of the format, error bound. -/
import Verif.Base.Float

namespace HyperCV

theorem rne_neg (q : ℚ) : rne (-q) = -rne q := by
  obtain ⟨h1, h2⟩ := rne_spec q
  apply rne_unique
  · have : |(-q) - ((-rne q : ℤ) : ℚ)| = |q - rne q| := by
      rw [← abs_neg]; congr 1; push_cast; ring
    rw [this]; exact h1
  · intro h
    have : |(-q) - ((-rne q : ℤ) : ℚ)| = |q - rne q| := by
      rw [← abs_neg]; congr 1; push_cast; ring
    rw [this] at h
    have := h2 h
    omega

/-- the rounded value, ignoring overflow -/
def Fmt.rv (F : Fmt) (q : ℚ) : ℚ := rne (q / 2 ^ (F.ulpExp q)) * 2 ^ (F.ulpExp q)

/-- numbers of the format with unbounded largest exponent -/
def Fmt.GRep (F : Fmt) (q : ℚ) : Prop := ∃ (n : ℤ) (e : ℤ), q = n * 2 ^ e ∧ |n| ≤ 2 ^ (F.t + 1) ∧ F.emin ≤ e

theorem Fmt.Rep.g {F : Fmt} {q : ℚ} (h : F.Rep q) : F.GRep q := by
  obtain ⟨n, e, h1, h2, h3, _⟩ := h; exact ⟨n, e, h1, h2, h3⟩

theorem Fmt.GRep.rep {F : Fmt} {q : ℚ} (h : F.GRep q) (hb : |q| < 2 ^ (2 ^ (F.w - 1))) : F.Rep q := by
  obtain ⟨n, e, h1, h2, h3⟩ := h; exact ⟨n, e, h1, h2, h3, hb⟩

theorem rv_zero (F : Fmt) : F.rv 0 = 0 := by
  unfold Fmt.rv
  rw [zero_div]
  have : rne (0:ℚ) = 0 := by exact_mod_cast rne_int 0
  rw [this]; simp

theorem round_rv {F : Fmt} {z : Bool} {q : ℚ} (hq : q ≠ 0) (hb : |F.rv q| < 2 ^ (2 ^ (F.w - 1))) :
    F.round z q = .fin (q < 0) (F.rv q) := by
  unfold Fmt.round
  rw [if_neg hq]
  exact if_neg (not_le.2 hb)

theorem round_rv' {F : Fmt} {z : Bool} {q : ℚ} (hb : |F.rv q| < 2 ^ (2 ^ (F.w - 1))) :
    ∃ s, F.round z q = .fin s (F.rv q) := by
  by_cases hq : q = 0
  · subst hq; rw [rv_zero]; exact ⟨z, round_zero⟩
  · exact ⟨_, round_rv hq hb⟩

theorem ulpExp_neg (F : Fmt) (q : ℚ) : F.ulpExp (-q) = F.ulpExp q := by
  unfold Fmt.ulpExp; rw [abs_neg]

theorem rv_neg (F : Fmt) (q : ℚ) : F.rv (-q) = -F.rv q := by
  unfold Fmt.rv
  rw [ulpExp_neg, neg_div, rne_neg]; push_cast; ring

/-- rounding error -/
theorem rv_err (F : Fmt) (q : ℚ) : |F.rv q - q| ≤ 2 ^ (F.ulpExp q) / 2 := by
  have h := (rne_spec (q / 2 ^ (F.ulpExp q))).1
  have hp : (0:ℚ) < 2 ^ (F.ulpExp q) := by positivity
  have e : F.rv q - q = -((q / 2 ^ (F.ulpExp q) - rne (q / 2 ^ (F.ulpExp q))) * 2 ^ (F.ulpExp q)) := by
    unfold Fmt.rv; field_simp; ring
  rw [e, abs_neg, abs_mul, abs_of_pos hp]
  calc _ ≤ 1 / 2 * 2 ^ F.ulpExp q := mul_le_mul_of_nonneg_right h (le_of_lt hp)
    _ = _ := by ring

theorem ulpExp_le {F : Fmt} {q : ℚ} {k : ℤ} (hq : q ≠ 0) (h : |q| < 2 ^ (k + F.t + 1)) (hk : F.emin ≤ k) :
    F.ulpExp q ≤ k := by
  unfold Fmt.ulpExp
  apply max_le _ hk
  have := (Int.lt_zpow_iff_log_lt (b := 2) (by norm_num) (abs_pos.2 hq) (x := k + F.t + 1)).1 (by exact_mod_cast h)
  omega

theorem ulpExp_mono {F : Fmt} {q r : ℚ} (hq : q ≠ 0) (h : |q| ≤ |r|) : F.ulpExp q ≤ F.ulpExp r := by
  unfold Fmt.ulpExp
  apply max_le_max _ (le_refl _)
  have := Int.log_mono_right (b := 2) (abs_pos.2 hq) h
  omega

/-- a number of the format is a multiple of every unit not above its own -/
theorem grep_ulp {F : Fmt} {q : ℚ} (h : F.GRep q) (hq : q ≠ 0) : ∃ k : ℤ, q / 2 ^ (F.ulpExp q) = k := by
  obtain ⟨n, e, h1, h2, h3⟩ := h
  -- use the bounded version in a format with enough exponent range
  have hn : n ≠ 0 := by rintro rfl; simp at h1; exact hq h1
  by_cases hb : |n| < 2 ^ (F.t + 1)
  · have hl := log_of_rep (e := e) hn hb
    rw [← h1] at hl
    have hle : F.ulpExp q ≤ e := by
      unfold Fmt.ulpExp; apply max_le _ h3; omega
    refine ⟨n * 2 ^ (e - F.ulpExp q).toNat, ?_⟩
    push_cast
    conv_lhs => rw [h1]
    rw [mul_div_assoc, ← h1, ← zpow_sub₀ (by norm_num), ← zpow_natCast, Int.toNat_of_nonneg (by omega)]
  · have hb' : |n| = 2 ^ (F.t + 1) := le_antisymm h2 (not_lt.1 hb)
    obtain ⟨n', hn'⟩ : ∃ n' : ℤ, n = n' * 2 ∧ |n'| = 2 ^ F.t := by
      rcases abs_choice n with hc | hc
      · refine ⟨2 ^ F.t, ?_, abs_of_pos (by positivity)⟩
        rw [← hc, hb', pow_succ]
      · refine ⟨-2 ^ F.t, ?_, by rw [abs_neg]; exact abs_of_pos (by positivity)⟩
        have : n = -|n| := by rw [hc]; ring
        rw [this, hb', pow_succ]; ring
    have hn0 : n' ≠ 0 := by rintro rfl; apply hn; rw [hn'.1]; ring
    have e1 : q = n' * 2 ^ (e + 1) := by
      rw [h1, hn'.1, zpow_add₀ (by norm_num)]; push_cast; ring
    have hl := log_of_rep (e := e + 1) (k := F.t) hn0 (by
      rw [hn'.2, pow_succ]
      have : (0:ℤ) < 2 ^ F.t := by positivity
      omega)
    rw [← e1] at hl
    have hle : F.ulpExp q ≤ e + 1 := by
      unfold Fmt.ulpExp; apply max_le _ (by omega); omega
    refine ⟨n' * 2 ^ (e + 1 - F.ulpExp q).toNat, ?_⟩
    push_cast
    conv_lhs => rw [e1]
    rw [mul_div_assoc, ← e1, ← zpow_sub₀ (by norm_num), ← zpow_natCast, Int.toNat_of_nonneg (by omega)]

theorem rv_grep_self {F : Fmt} {q : ℚ} (h : F.GRep q) : F.rv q = q := by
  by_cases hq : q = 0
  · subst hq; exact rv_zero F
  · obtain ⟨k, hk⟩ := grep_ulp h hq
    unfold Fmt.rv
    rw [hk, rne_int, ← hk, div_mul_cancel₀ _ (by positivity)]

theorem multiple_le {q : ℚ} {e e' : ℤ} (h : e' ≤ e) {k : ℤ} (hk : q / 2 ^ e = k) : ∃ k' : ℤ, q / 2 ^ e' = k' := by
  refine ⟨k * 2 ^ (e - e').toNat, ?_⟩
  push_cast
  rw [← hk, ← zpow_natCast, Int.toNat_of_nonneg (by omega), zpow_sub₀ (by norm_num)]
  field_simp

/-- rounding a positive number does not go below a number of the format that is below it -/
theorem rv_ge_pos {F : Fmt} {a q : ℚ} (ha : F.GRep a) (ha0 : 0 < a) (h : a ≤ q) : a ≤ F.rv q := by
  have hq : 0 < q := lt_of_lt_of_le ha0 h
  have hp : (0:ℚ) < 2 ^ (F.ulpExp q) := by positivity
  -- a lower bound that is a multiple of the unit of q
  have key : ∃ b k : ℚ, ∃ z : ℤ, k = z ∧ a ≤ b ∧ b ≤ q ∧ b / 2 ^ (F.ulpExp q) = k := by
    by_cases he : F.ulpExp a = F.ulpExp q
    · obtain ⟨k, hk⟩ := grep_ulp ha (ne_of_gt ha0)
      exact ⟨a, k, k, rfl, le_refl _, h, by rw [← he, hk]⟩
    · have hlt : F.ulpExp a < F.ulpExp q := lt_of_le_of_ne (ulpExp_mono (ne_of_gt ha0) (by
        rw [abs_of_pos ha0, abs_of_pos hq]; exact h)) he
      have hea : F.emin ≤ F.ulpExp a := le_max_right _ _
      have heq : F.ulpExp q = Int.log 2 |q| - F.t := by
        unfold Fmt.ulpExp at hlt ⊢
        rcases max_choice (Int.log 2 |q| - (F.t:ℤ)) F.emin with hc | hc
        · exact hc
        · rw [hc] at hlt; unfold Fmt.ulpExp at hea; omega
      have hla : Int.log 2 |a| - F.t ≤ F.ulpExp a := le_max_left _ _
      have hlog : Int.log 2 |a| < Int.log 2 |q| := by omega
      have h1 : a ≤ 2 ^ (Int.log 2 |q|) := by
        have := Int.lt_zpow_succ_log_self (b := 2) (by norm_num) |a|
        rw [abs_of_pos ha0] at this hlog
        refine le_of_lt (lt_of_lt_of_le (by exact_mod_cast this) ?_)
        apply zpow_le_zpow_right₀ (by norm_num)
        omega
      have h2 : (2:ℚ) ^ (Int.log 2 |q|) ≤ q := by
        have := Int.zpow_log_le_self (b := 2) (by norm_num) (abs_pos.2 (ne_of_gt hq))
        rw [abs_of_pos hq] at this ⊢
        exact_mod_cast this
      refine ⟨_, 2 ^ F.t, 2 ^ F.t, by push_cast; rfl, h1, h2, ?_⟩
      rw [heq, ← zpow_sub₀ (by norm_num), sub_sub_cancel, zpow_natCast]
  obtain ⟨b, k, z, hz, hab, hbq, hk⟩ := key
  refine le_trans hab ?_
  have h3 : rne (b / 2 ^ (F.ulpExp q)) ≤ rne (q / 2 ^ (F.ulpExp q)) :=
    rne_mono (by gcongr)
  rw [hk, hz, rne_int] at h3
  have h4 : k ≤ rne (q / 2 ^ (F.ulpExp q)) := by rw [hz]; exact_mod_cast h3
  have h5 : b = k * 2 ^ (F.ulpExp q) := by rw [← hk, div_mul_cancel₀ _ (ne_of_gt hp)]
  rw [h5]
  unfold Fmt.rv
  exact mul_le_mul_of_nonneg_right h4 (le_of_lt hp)

/-- rounding a positive number does not go above a number of the format that is above it -/
theorem rv_le_pos {F : Fmt} {b q : ℚ} (hb : F.GRep b) (hq : 0 < q) (h : q ≤ b) : F.rv q ≤ b := by
  have hb0 : 0 < b := lt_of_lt_of_le hq h
  have hp : (0:ℚ) < 2 ^ (F.ulpExp q) := by positivity
  obtain ⟨k, hk⟩ := grep_ulp hb (ne_of_gt hb0)
  obtain ⟨k', hk'⟩ := multiple_le (ulpExp_mono (F := F) (ne_of_gt hq) (by
    rw [abs_of_pos hb0, abs_of_pos hq]; exact h)) hk
  have h3 : rne (q / 2 ^ (F.ulpExp q)) ≤ rne (b / 2 ^ (F.ulpExp q)) := rne_mono (by gcongr)
  rw [hk', rne_int] at h3
  have h4 : (rne (q / 2 ^ (F.ulpExp q)) : ℚ) ≤ k' := by exact_mod_cast h3
  have h5 : b = k' * 2 ^ (F.ulpExp q) := by rw [← hk', div_mul_cancel₀ _ (ne_of_gt hp)]
  rw [h5]
  unfold Fmt.rv
  exact mul_le_mul_of_nonneg_right h4 (le_of_lt hp)

theorem rv_nonneg {F : Fmt} {q : ℚ} (h : 0 ≤ q) : 0 ≤ F.rv q := by
  unfold Fmt.rv
  have h1 : rne 0 ≤ rne (q / 2 ^ (F.ulpExp q)) := rne_mono (by positivity)
  have h0 : rne (0:ℚ) = 0 := by exact_mod_cast rne_int 0
  rw [h0] at h1
  have : (0:ℚ) ≤ rne (q / 2 ^ (F.ulpExp q)) := by exact_mod_cast h1
  positivity

theorem GRep.neg {F : Fmt} {q : ℚ} (h : F.GRep q) : F.GRep (-q) := by
  obtain ⟨n, e, h1, h2, h3⟩ := h
  exact ⟨-n, e, by rw [h1]; push_cast; ring, by rwa [abs_neg], h3⟩

theorem rv_ge {F : Fmt} {a q : ℚ} (ha : F.GRep a) (h : a ≤ q) : a ≤ F.rv q := by
  by_cases ha0 : 0 < a
  · exact rv_ge_pos ha ha0 h
  · by_cases hq : 0 ≤ q
    · exact le_trans (not_lt.1 ha0) (rv_nonneg hq)
    · have := rv_le_pos (GRep.neg ha) (q := -q) (by linarith) (by linarith)
      rw [rv_neg] at this
      linarith

theorem rv_le {F : Fmt} {b q : ℚ} (hb : F.GRep b) (h : q ≤ b) : F.rv q ≤ b := by
  have := rv_ge (GRep.neg hb) (q := -q) (by linarith)
  rw [rv_neg] at this
  linarith

/-- the rounded value is a number of the format -/
theorem rv_grep (F : Fmt) (q : ℚ) : F.GRep (F.rv q) := by
  refine ⟨rne (q / 2 ^ (F.ulpExp q)), F.ulpExp q, rfl, ?_, le_max_right _ _⟩
  by_cases hq : q = 0
  · subst hq
    rw [zero_div]
    have : rne (0:ℚ) = 0 := by exact_mod_cast rne_int 0
    rw [this]; simp
  · have hlog := Int.lt_zpow_succ_log_self (b := 2) (by norm_num) |q|
    have hl : Int.log 2 |q| - F.t ≤ F.ulpExp q := le_max_left _ _
    have hp : (0:ℚ) < 2 ^ (F.ulpExp q) := by positivity
    have h1 : |q / 2 ^ (F.ulpExp q)| ≤ 2 ^ (F.t + 1) := by
      rw [abs_div, abs_of_pos hp, div_le_iff₀ hp, ← zpow_natCast, ← zpow_add₀ (by norm_num)]
      refine le_of_lt (lt_of_lt_of_le (by exact_mod_cast hlog) ?_)
      apply zpow_le_zpow_right₀ (by norm_num)
      push_cast; omega
    rw [abs_le] at h1 ⊢
    have e : ((2:ℚ) ^ (F.t + 1)) = (((2 ^ (F.t + 1) : ℤ)) : ℚ) := by push_cast; rfl
    constructor
    · have := rne_mono h1.1
      rw [e, show (-(((2 ^ (F.t + 1) : ℤ)) : ℚ)) = ((-(2 ^ (F.t + 1)) : ℤ) : ℚ) by push_cast; rfl, rne_int] at this
      exact this
    · have := rne_mono h1.2
      rw [e, rne_int] at this
      exact this

theorem grep_pow {F : Fmt} {k : ℤ} (h : F.emin ≤ k) : F.GRep (2 ^ k) :=
  ⟨1, k, by push_cast; ring, by rw [abs_one]; exact_mod_cast Nat.one_le_two_pow, h⟩

theorem rv_mono_pos {F : Fmt} {q r : ℚ} (hq : 0 < q) (h : q ≤ r) : F.rv q ≤ F.rv r := by
  have hr : 0 < r := lt_of_lt_of_le hq h
  by_cases he : F.ulpExp q = F.ulpExp r
  · unfold Fmt.rv
    rw [he]
    have h1 : rne (q / 2 ^ F.ulpExp r) ≤ rne (r / 2 ^ F.ulpExp r) := rne_mono (by gcongr)
    have h2 : (rne (q / 2 ^ F.ulpExp r) : ℚ) ≤ rne (r / 2 ^ F.ulpExp r) := by exact_mod_cast h1
    exact mul_le_mul_of_nonneg_right h2 (by positivity)
  · have hlt : F.ulpExp q < F.ulpExp r := lt_of_le_of_ne (ulpExp_mono (ne_of_gt hq) (by
      rw [abs_of_pos hq, abs_of_pos hr]; exact h)) he
    have hea : F.emin ≤ F.ulpExp q := le_max_right _ _
    have heq : F.ulpExp r = Int.log 2 |r| - F.t := by
      unfold Fmt.ulpExp at hlt ⊢
      rcases max_choice (Int.log 2 |r| - (F.t:ℤ)) F.emin with hc | hc
      · exact hc
      · rw [hc] at hlt; unfold Fmt.ulpExp at hea; omega
    have hla : Int.log 2 |q| - F.t ≤ F.ulpExp q := le_max_left _ _
    have hlog : Int.log 2 |q| < Int.log 2 |r| := by omega
    have h1 : q ≤ 2 ^ (Int.log 2 |r|) := by
      have := Int.lt_zpow_succ_log_self (b := 2) (by norm_num) |q|
      rw [abs_of_pos hq] at this hlog
      refine le_of_lt (lt_of_lt_of_le (by exact_mod_cast this) ?_)
      apply zpow_le_zpow_right₀ (by norm_num)
      omega
    have h2 : (2:ℚ) ^ (Int.log 2 |r|) ≤ r := by
      have := Int.zpow_log_le_self (b := 2) (by norm_num) (abs_pos.2 (ne_of_gt hr))
      rw [abs_of_pos hr] at this ⊢
      exact_mod_cast this
    have hg : F.GRep (2 ^ (Int.log 2 |r|)) := grep_pow (by omega)
    exact le_trans (rv_le hg h1) (rv_ge hg h2)

/-- rounding is monotone -/
theorem rv_mono {F : Fmt} {q r : ℚ} (h : q ≤ r) : F.rv q ≤ F.rv r := by
  have g0 : F.GRep 0 := ⟨0, F.emin, by simp, by simp, le_refl _⟩
  by_cases hq : 0 < q
  · exact rv_mono_pos hq h
  · by_cases hr : 0 ≤ r
    · exact le_trans (rv_le g0 (not_lt.1 hq)) (rv_nonneg hr)
    · have := rv_mono_pos (F := F) (q := -r) (r := -q) (by linarith) (by linarith)
      rw [rv_neg, rv_neg] at this
      linarith

end HyperCV
