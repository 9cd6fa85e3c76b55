/- Decoding a bit pattern and encoding the value gives the pattern back, except for NaNs. -/
import Verif.Proof.FloatGood

namespace HyperCV

theorem ulpExp_eq {F : Fmt} {q : ℚ} {k : ℤ} (h1 : 2 ^ (k + F.t) ≤ |q|) (h2 : |q| < 2 ^ (k + F.t + 1)) (hk : F.emin ≤ k) :
    F.ulpExp q = k := by
  have hp : (0:ℚ) < 2 ^ (k + F.t) := by positivity
  have hq : 0 < |q| := by linarith
  refine le_antisymm (ulpExp_le (abs_pos.1 hq) h2 hk) ?_
  unfold Fmt.ulpExp
  refine le_trans ?_ (le_max_left _ _)
  have := (Int.zpow_le_iff_le_log (b := 2) (by norm_num) hq (x := k + F.t)).1 (by exact_mod_cast h1)
  omega

theorem encode_decode {F : Fmt} {b : Nat} {s : Bool} {q : ℚ} (hb : b < 2 ^ (F.t + F.w + 1)) (h : F.decode b = .fin s q) :
    F.encode (.fin s q) = b := by
  have hT : 0 < 2 ^ F.t := by positivity
  have hWp : 0 < 2 ^ F.w := by positivity
  have hsplit : b = b / 2 ^ (F.t + F.w) * 2 ^ (F.t + F.w) + (b / 2 ^ F.t % 2 ^ F.w * 2 ^ F.t + b % 2 ^ F.t) := by
    rw [Nat.pow_add]
    have h1 := Nat.div_add_mod b (2 ^ F.t)
    have h2 := Nat.div_add_mod (b / 2 ^ F.t) (2 ^ F.w)
    rw [Nat.div_div_eq_div_mul] at h2
    generalize b / (2 ^ F.t * 2 ^ F.w) = x at *
    generalize b / 2 ^ F.t % 2 ^ F.w = y at *
    generalize b % 2 ^ F.t = z at *
    generalize b / 2 ^ F.t = u at *
    rw [← h2] at h1
    rw [← h1]; ring
  have htop : b / 2 ^ (F.t + F.w) < 2 := by
    rw [Nat.div_lt_iff_lt_mul (by positivity)]
    rw [pow_succ] at hb; omega
  have he := Nat.mod_lt (b / 2 ^ F.t) hWp
  have hf := Nat.mod_lt b hT
  unfold Fmt.decode at h
  simp only [] at h
  set e := b / 2 ^ F.t % 2 ^ F.w with hee
  set f := b % 2 ^ F.t with hff
  set g := b / 2 ^ (F.t + F.w) with hgg
  by_cases h1 : e = 2 ^ F.w - 1
  · rw [if_pos h1] at h
    split at h <;> exact absurd h (by simp)
  · rw [if_neg h1] at h
    obtain ⟨hs, hq⟩ := FV.fin.inj h
    have hsg : (if s = true then 2 ^ (F.t + F.w) else 0) = g * 2 ^ (F.t + F.w) := by
      rw [← hs]
      have : g = 0 ∨ g = 1 := by clear_value g; clear * - htop; omega
      rcases this with h0 | h0 <;> simp [h0]
    have habs : |q| = if e = 0 then (f:ℚ) * 2 ^ F.emin else (2 ^ F.t + f) * 2 ^ (F.emin + e - 1) := by
      rw [← hq]
      have hnn : (0:ℚ) ≤ if e = 0 then (f:ℚ) * 2 ^ F.emin else (2 ^ F.t + f) * 2 ^ (F.emin + e - 1) := by
        split <;> positivity
      split
      · rw [abs_neg, abs_of_nonneg hnn]
      · rw [abs_of_nonneg hnn]
    have hfq : (f:ℚ) < 2 ^ F.t := by exact_mod_cast hf
    unfold Fmt.encode
    simp only []
    rw [hsg]
    conv_rhs => rw [hsplit]
    congr 1
    have floorN : ∀ n : Nat, ((n : ℚ)).floor.toNat = n := by
      intro n
      have : ((n : ℚ)).floor = n := by show ⌊(n:ℚ)⌋ = n; exact Int.floor_natCast n
      rw [this]; rfl
    by_cases h0 : e = 0
    · rw [if_pos h0] at habs
      by_cases hf0 : f = 0
      · have : q = 0 := by
          rw [hf0] at habs
          simpa using habs
        rw [if_pos this, h0, hf0]; ring
      · have hqne : q ≠ 0 := by
          intro hc
          rw [hc, abs_zero] at habs
          have : (0:ℚ) < f * 2 ^ F.emin := by
            have : 0 < f := by omega
            positivity
          linarith
        have hu : F.ulpExp q = F.emin := by
          refine le_antisymm (ulpExp_le hqne ?_ (le_refl _)) (le_max_right _ _)
          rw [habs]
          have : (2:ℚ) ^ (F.emin + F.t + 1) = 2 * (2 ^ F.t * 2 ^ F.emin) := by
            rw [zpow_add₀ (by norm_num), zpow_add₀ (by norm_num), zpow_natCast]; ring
          rw [this]
          have hpe : (0:ℚ) < 2 ^ F.emin := by positivity
          have := mul_lt_mul_of_pos_right hfq hpe
          have : (0:ℚ) < 2 ^ F.t * 2 ^ F.emin := by positivity
          linarith
        rw [if_neg hqne, hu, habs, mul_div_assoc, div_self (by positivity), mul_one, floorN, h0]
        simp
    · rw [if_neg h0] at habs
      have hpk : (0:ℚ) < 2 ^ (F.emin + e - 1) := by positivity
      have hqne : q ≠ 0 := by
        intro hc
        rw [hc, abs_zero] at habs
        have : (0:ℚ) < (2 ^ F.t + f) * 2 ^ (F.emin + e - 1) := by positivity
        linarith
      have hu : F.ulpExp q = F.emin + e - 1 := by
        have e1 : (2:ℚ) ^ (F.emin + e - 1 + F.t) = 2 ^ F.t * 2 ^ (F.emin + e - 1) := by
          rw [zpow_add₀ (by norm_num), zpow_natCast]; ring
        have hfn : (0:ℚ) ≤ f := by positivity
        refine ulpExp_eq ?_ ?_ (by omega)
        · rw [habs, e1]
          exact mul_le_mul_of_nonneg_right (by linarith) (le_of_lt hpk)
        · rw [habs, zpow_add₀ (by norm_num), e1, zpow_one]
          have := mul_lt_mul_of_pos_right hfq hpk
          linarith
      rw [if_neg hqne, hu, habs, mul_div_assoc, div_self (ne_of_gt hpk), mul_one]
      have : ((2:ℚ) ^ F.t + f) = ((2 ^ F.t + f : Nat) : ℚ) := by push_cast; rfl
      rw [this, floorN]
      have e2 : (F.emin + e - 1 - F.emin).toNat = e - 1 := by omega
      rw [e2]
      have : e * 2 ^ F.t = (e - 1) * 2 ^ F.t + 2 ^ F.t := by
        rw [← Nat.succ_mul]; congr 1; omega
      omega

end HyperCV
