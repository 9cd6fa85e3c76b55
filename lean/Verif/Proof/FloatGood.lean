/- Values of a format: everything a bit pattern decodes to or an operation returns is one, and encoding loses
nothing. -/
import Verif.Proof.FloatFacts

namespace HyperCV

/-- a value of the format: NaN, an infinity, or a representable number whose sign bit agrees with its sign -/
def Fmt.Good (F : Fmt) : FV → Prop
  | .nan => True
  | .inf _ => True
  | .fin s q => F.Rep q ∧ (q ≠ 0 → s = decide (q < 0))

/-- the formats of the code -/
def Fmt.Std (F : Fmt) : Prop := 2 ≤ F.w ∧ 1 ≤ F.t

theorem f32_std : f32.Std := ⟨by decide, by decide⟩
theorem f64_std : f64.Std := ⟨by decide, by decide⟩

theorem rep_zero (F : Fmt) : F.Rep 0 := ⟨0, F.emin, by simp, by simp, le_refl _, by simp⟩

theorem good_round (F : Fmt) (z : Bool) (q : ℚ) : F.Good (F.round z q) := by
  by_cases hq : q = 0
  · subst hq; rw [round_zero]; exact ⟨rep_zero F, fun h => absurd rfl h⟩
  · by_cases hb : |F.rv q| < 2 ^ (2 ^ (F.w - 1))
    · rw [round_rv hq hb]
      refine ⟨(rv_grep F q).rep hb, ?_⟩
      intro h
      rcases lt_trichotomy q 0 with h1 | h1 | h1
      · have h2 : F.rv (-q) ≥ 0 := rv_nonneg (by linarith)
        rw [rv_neg] at h2
        have h3 : F.rv q < 0 := lt_of_le_of_ne (by linarith) h
        simp [h1, h3]
      · exact absurd h1 hq
      · have h2 : F.rv q ≥ 0 := rv_nonneg (le_of_lt h1)
        simp [not_lt.2 h2, not_lt.2 (le_of_lt h1)]
    · unfold Fmt.round
      rw [if_neg hq]
      have : (2:ℚ) ^ (2 ^ (F.w - 1)) ≤ |F.rv q| := not_lt.1 hb
      unfold Fmt.rv at this
      simp only [if_pos this]
      trivial

theorem good_ofInt (F : Fmt) (i : ℤ) : F.Good (F.ofInt i) := good_round F _ _

theorem good_conv (F : Fmt) (v : FV) : F.Good (F.conv v) := by
  cases v <;> first | trivial | exact good_round F _ _

theorem good_add (F : Fmt) (a b : FV) : F.Good (F.add a b) := by
  cases a <;> cases b <;> simp only [Fmt.add] <;> (repeat' split) <;>
    first | trivial | exact good_round F _ _

theorem good_sub (F : Fmt) (a b : FV) : F.Good (F.sub a b) := good_add F _ _

theorem good_mul (F : Fmt) (a b : FV) : F.Good (F.mul a b) := by
  cases a <;> cases b <;> simp only [Fmt.mul] <;> (repeat' split) <;>
    first | trivial | exact good_round F _ _

theorem good_div (F : Fmt) (a b : FV) : F.Good (F.div a b) := by
  cases a <;> cases b <;> simp only [Fmt.div] <;> (repeat' split) <;>
    first | trivial | exact good_round F _ _ | exact ⟨rep_zero F, fun h => absurd rfl h⟩

theorem rep_neg {F : Fmt} {q : ℚ} (h : F.Rep q) : F.Rep (-q) := by
  obtain ⟨n, e, h1, h2, h3, h4⟩ := h
  exact ⟨-n, e, by rw [h1]; push_cast; ring, by rwa [abs_neg], h3, by rwa [abs_neg]⟩

theorem good_neg {F : Fmt} {v : FV} (h : F.Good v) : F.Good v.neg := by
  cases v with
  | nan => trivial
  | inf s => trivial
  | fin s q =>
    refine ⟨rep_neg h.1, ?_⟩
    intro hq
    have hq' : q ≠ 0 := by intro e; apply hq; rw [e]; ring
    have := h.2 hq'
    rw [this]
    rcases lt_or_gt_of_ne hq' with h1 | h1
    · simp [h1, not_lt.2 (le_of_lt h1)]
    · simp [h1, not_lt.2 (le_of_lt h1)]

theorem encode_nan_lt {F : Fmt} (hF : F.Std) : F.encode .nan < 2 ^ (F.t + F.w + 1) := by
  simp only [Fmt.encode]
  have h1 : 2 ^ (F.t - 1) ≤ 2 ^ F.t := Nat.pow_le_pow_right (by decide) (by omega)
  have h2 : 2 ^ (F.t + F.w + 1) = 2 * (2 ^ F.w * 2 ^ F.t) := by rw [pow_succ, pow_add]; ring
  have h3 : 0 < 2 ^ F.w := by positivity
  have h4 : (2 ^ F.w - 1) * 2 ^ F.t + 2 ^ F.t = 2 ^ F.w * 2 ^ F.t := by
    rw [Nat.sub_mul, Nat.one_mul, Nat.sub_add_cancel]
    exact Nat.le_mul_of_pos_left _ h3
  have h5 : 0 < 2 ^ F.w * 2 ^ F.t := by positivity
  omega

theorem encode_inf_lt {F : Fmt} {s : Bool} : F.encode (.inf s) < 2 ^ (F.t + F.w + 1) := by
  simp only [Fmt.encode]
  have h1 : 0 < 2 ^ F.t := by positivity
  have h2 : 2 ^ (F.t + F.w + 1) = 2 * 2 ^ (F.t + F.w) := by rw [pow_succ]; ring
  have h2' : 2 ^ (F.t + F.w) = 2 ^ F.w * 2 ^ F.t := by rw [pow_add]; ring
  have h3 : 0 < 2 ^ F.w := by positivity
  have h4 : (2 ^ F.w - 1) * 2 ^ F.t + 2 ^ F.t = 2 ^ F.w * 2 ^ F.t := by
    rw [Nat.sub_mul, Nat.one_mul, Nat.sub_add_cancel]
    exact Nat.le_mul_of_pos_left _ h3
  split <;> omega

theorem good_encode_lt {F : Fmt} (hF : F.Std) {v : FV} (h : F.Good v) : F.encode v < 2 ^ (F.t + F.w + 1) := by
  cases v with
  | nan => exact encode_nan_lt hF
  | inf s => exact encode_inf_lt
  | fin s q => exact encode_lt hF.1 h.1

theorem good_decode_encode {F : Fmt} (hF : F.Std) {v : FV} (h : F.Good v) : F.decode (F.encode v) = v := by
  have hT : 0 < 2 ^ F.t := by positivity
  have hW : 4 ≤ 2 ^ F.w := by
    calc 4 = 2 ^ 2 := rfl
      _ ≤ 2 ^ F.w := Nat.pow_le_pow_right (by norm_num) hF.1
  have hTW : 2 ^ (F.t + F.w) = 2 ^ F.t * 2 ^ F.w := Nat.pow_add ..
  have key : ∀ (b ff : Nat), b ≤ 1 → ff < 2 ^ F.t →
      (b * 2 ^ (F.t + F.w) + ((2 ^ F.w - 1) * 2 ^ F.t + ff)) / 2 ^ (F.t + F.w) % 2 = b ∧
      (b * 2 ^ (F.t + F.w) + ((2 ^ F.w - 1) * 2 ^ F.t + ff)) / 2 ^ F.t % 2 ^ F.w = 2 ^ F.w - 1 ∧
      (b * 2 ^ (F.t + F.w) + ((2 ^ F.w - 1) * 2 ^ F.t + ff)) % 2 ^ F.t = ff := by
    intro b ff hb hf
    rw [hTW]
    generalize 2 ^ F.w = W at *
    generalize 2 ^ F.t = T at *
    obtain ⟨V, rfl⟩ : ∃ V, W = V + 1 := ⟨W - 1, by omega⟩
    have e1 : b * (T * (V+1)) + ((V + 1 - 1) * T + ff) = T * (b * (V+1) + V) + ff := by
      rw [Nat.add_sub_cancel]; ring
    have e2 : b * (T * (V+1)) + ((V + 1 - 1) * T + ff) = (T * (V+1)) * b + (V * T + ff) := by
      rw [Nat.add_sub_cancel]; ring
    have e3 : V * T + ff < T * (V+1) := by
      have : T * (V+1) = V * T + T := by ring
      omega
    refine ⟨?_, ?_, ?_⟩
    · rw [e2, Nat.mul_add_div (by positivity), Nat.div_eq_of_lt e3]; omega
    · rw [e1, Nat.mul_add_div hT, Nat.div_eq_of_lt hf, Nat.add_zero, Nat.mul_comm b, Nat.mul_add_mod]
      exact Nat.mod_eq_of_lt (by omega)
    · rw [e1, Nat.mul_add_mod]; exact Nat.mod_eq_of_lt hf
  cases v with
  | nan =>
    have hh : 2 ^ (F.t - 1) < 2 ^ F.t := Nat.pow_lt_pow_right (by decide) (by have := hF.2; omega)
    have hp : 0 < 2 ^ (F.t - 1) := by positivity
    obtain ⟨_, k2, k3⟩ := key 0 (2 ^ (F.t - 1)) (by decide) hh
    rw [Nat.zero_mul, Nat.zero_add] at k2 k3
    unfold Fmt.encode Fmt.decode
    simp only []
    rw [k2, k3, if_pos rfl, if_neg (by omega)]
  | inf s =>
    unfold Fmt.encode Fmt.decode
    cases s
    · obtain ⟨k1, k2, k3⟩ := key 0 0 (by decide) hT
      rw [Nat.zero_mul, Nat.add_zero, Nat.zero_add] at k1 k2 k3
      simp only [Bool.false_eq_true, if_false, Nat.zero_add]
      rw [k1, k2, k3, if_pos rfl, if_pos rfl]
      rfl
    · obtain ⟨k1, k2, k3⟩ := key 1 0 (by decide) hT
      rw [Nat.one_mul, Nat.add_zero] at k1 k2 k3
      simp only [if_true]
      rw [k1, k2, k3, if_pos rfl, if_pos rfl]
      rfl
  | fin s q => exact decode_encode hF.1 h.1 h.2

theorem good_decode {F : Fmt} (hF : F.Std) (b : Nat) : F.Good (F.decode b) := by
  have hW : (4:ℤ) ≤ 2 ^ F.w := by
    calc (4:ℤ) = 2 ^ 2 := rfl
      _ ≤ 2 ^ F.w := pow_le_pow_right₀ (by norm_num) hF.1
  have hWh : (2 ^ F.w : ℤ) = 2 * 2 ^ (F.w - 1) := by
    rw [← pow_succ', Nat.sub_add_cancel (by have := hF.1; omega)]
  have hT : 0 < 2 ^ F.t := by positivity
  have hem : F.emin = 2 - 2 ^ (F.w - 1) - F.t := rfl
  unfold Fmt.decode
  simp only []
  have he := Nat.mod_lt (b / 2 ^ F.t) (show 0 < 2 ^ F.w by positivity)
  have hf := Nat.mod_lt b hT
  generalize b / 2 ^ F.t % 2 ^ F.w = e at *
  generalize b % 2 ^ F.t = f at *
  generalize b / 2 ^ (F.t + F.w) % 2 = sg
  by_cases h1 : e = 2 ^ F.w - 1
  · rw [if_pos h1]; split <;> trivial
  · rw [if_neg h1]
    have he' : (e:ℤ) + 2 ≤ 2 ^ F.w := by
      have : e + 2 ≤ 2 ^ F.w := by omega
      exact_mod_cast this
    have hrep : F.Rep (if e = 0 then (f:ℚ) * 2 ^ F.emin else (2 ^ F.t + f) * 2 ^ (F.emin + e - 1)) ∧
        0 ≤ (if e = 0 then (f:ℚ) * 2 ^ F.emin else (2 ^ F.t + f) * 2 ^ (F.emin + e - 1)) := by
      by_cases h0 : e = 0
      · rw [if_pos h0]
        have hfq : (f:ℚ) < 2 ^ F.t := by exact_mod_cast hf
        refine ⟨⟨f, F.emin, by push_cast; rfl, ?_, le_refl _, ?_⟩, by positivity⟩
        · rw [abs_of_nonneg (by positivity), pow_succ]
          have : (f:ℤ) < 2 ^ F.t := by exact_mod_cast hf
          omega
        · rw [abs_of_nonneg (by positivity)]
          have k1 : (f:ℚ) * 2 ^ F.emin < 2 ^ F.t * 2 ^ F.emin := mul_lt_mul_of_pos_right hfq (by positivity)
          refine lt_of_lt_of_le k1 ?_
          rw [← zpow_natCast, ← zpow_add₀ (by norm_num), ← zpow_natCast]
          apply zpow_le_zpow_right₀ (by norm_num)
          push_cast
          have : (0:ℤ) < 2 ^ (F.w - 1) := by positivity
          omega
      · rw [if_neg h0]
        have hfq : (2 ^ F.t + f:ℚ) < 2 ^ (F.t + 1) := by
          have : (f:ℚ) < 2 ^ F.t := by exact_mod_cast hf
          rw [pow_succ]; linarith
        refine ⟨⟨2 ^ F.t + f, F.emin + e - 1, by push_cast; rfl, ?_, by omega, ?_⟩, by positivity⟩
        · rw [abs_of_nonneg (by positivity), pow_succ]
          have : (f:ℤ) < 2 ^ F.t := by exact_mod_cast hf
          omega
        · rw [abs_of_nonneg (by positivity)]
          have k1 : (2 ^ F.t + f:ℚ) * 2 ^ (F.emin + e - 1) < 2 ^ (F.t + 1) * 2 ^ (F.emin + e - 1) :=
            mul_lt_mul_of_pos_right hfq (by positivity)
          refine lt_of_lt_of_le k1 ?_
          rw [← zpow_natCast, ← zpow_add₀ (by norm_num), ← zpow_natCast]
          apply zpow_le_zpow_right₀ (by norm_num)
          push_cast
          omega
    generalize (if e = 0 then (f:ℚ) * 2 ^ F.emin else (2 ^ F.t + f) * 2 ^ (F.emin + e - 1)) = a at *
    by_cases hs : sg = 1
    · simp only [hs, if_true]
      refine ⟨rep_neg hrep.1, ?_⟩
      intro h
      have : 0 < a := lt_of_le_of_ne hrep.2 (fun e => h (by rw [← e]; ring))
      simp [this]
    · simp only [hs, if_false]
      refine ⟨hrep.1, ?_⟩
      intro h
      simp [hrep.2]

theorem f32_encode_lt {v : FV} (h : f32.Good v) : f32.encode v < 256 ^ 4 := good_encode_lt f32_std h
theorem f64_encode_lt {v : FV} (h : f64.Good v) : f64.encode v < 256 ^ 8 := good_encode_lt f64_std h
theorem f32_dec_enc {v : FV} (h : f32.Good v) : f32.decode (f32.encode v) = v := good_decode_encode f32_std h
theorem f64_dec_enc {v : FV} (h : f64.Good v) : f64.decode (f64.encode v) = v := good_decode_encode f64_std h

end HyperCV
