/- C44: `get_optimal_DFT_size`. -/
import Verif.Proof.DftSize

namespace HyperCV

/-- `x = 2^a * 3^b * 5^c` -/
def Spec.Smooth5 (x : Nat) : Prop := ∃ a b c, x = 2 ^ a * 3 ^ b * 5 ^ c

open Spec

/-- **C44** for `0 ≤ n ≤ 14171760`: the result is the least number `2^a 3^b 5^c` that is at least `n`.
Missing from the full property: larger `n`, where the table lacks the multiples of 3^15 (`C44_refuted`), see
`C44_size_large_partial` for what holds there. -/
theorem C44_size_partial {n : Int} (h0 : 0 ≤ n) (h : n ≤ 14171760) :
    ∃ t : Nat, get_optimal_DFT_size n = .ok (t:Int) ∧ Smooth5 t ∧ n ≤ t ∧
      ∀ s : Nat, Smooth5 s → n ≤ (s:Int) → t ≤ s := by
  obtain ⟨t, h1, h2, h3, h4⟩ := dft_size_run h0 (by omega)
  obtain ⟨a, b, c, _, e⟩ := dtab_mem_smooth h2
  have hP : t ≤ 14171760 := h4 14171760 (dtab_complete 4 11 1 (by decide) (by decide)) h
  refine ⟨t, h1, ⟨a, b, c, e⟩, h3, ?_⟩
  rintro s ⟨a', b', c', rfl⟩ hs
  by_cases hb : b' ≤ 14
  · by_cases hM : 2 ^ a' * 3 ^ b' * 5 ^ c' ≤ 2125764000
    · exact h4 _ (dtab_complete a' b' c' hb hM) hs
    · omega
  · have h15 : 3 ^ 15 ≤ 3 ^ b' := Nat.pow_le_pow_right (by decide) (by omega)
    have k1 : 1 ≤ 2 ^ a' := Nat.one_le_two_pow
    have k2 : 1 ≤ 5 ^ c' := Nat.one_le_pow _ _ (by decide)
    have k3 : 1 * 3 ^ 15 * 1 ≤ 2 ^ a' * 3 ^ b' * 5 ^ c' := Nat.mul_le_mul (Nat.mul_le_mul k1 h15) k2
    omega

example : (0:Int) ≤ 10000000 ∧ (10000000:Int) ≤ 14171760 := by decide

/-- **C44** for every `0 ≤ n` below the last table entry: the result is at least `n` and is the least such number
`2^a 3^b 5^c` with `b ≤ 14`.
Missing from the full property: the exponents `b ≥ 15` (`C44_refuted`). -/
theorem C44_size_large_partial {n : Int} (h0 : 0 ≤ n) (h : n < 2125764000) :
    ∃ t : Nat, get_optimal_DFT_size n = .ok (t:Int) ∧ n ≤ t ∧ (∃ a b c, b ≤ 14 ∧ t = 2 ^ a * 3 ^ b * 5 ^ c) ∧
      ∀ a b c, b ≤ 14 → n ≤ ((2 ^ a * 3 ^ b * 5 ^ c : Nat) : Int) → t ≤ 2 ^ a * 3 ^ b * 5 ^ c := by
  obtain ⟨t, h1, h2, h3, h4⟩ := dft_size_run h0 h
  refine ⟨t, h1, h3, dtab_mem_smooth h2, ?_⟩
  intro a b c hb hs
  by_cases hM : 2 ^ a * 3 ^ b * 5 ^ c ≤ 2125764000
  · exact h4 _ (dtab_complete a b c hb hM) hs
  · have := h4 2125764000 (List.mem_of_getElem? dtab_last) (by omega)
    omega

example : (0:Int) ≤ 2000000000 ∧ (2000000000:Int) < 2125764000 := by decide

/-- **C44** is false of the code: every admissible size divisible by 3^15 is skipped, although it is itself the
least number of the form that is at least `n`; a strictly larger size is returned. -/
theorem C44_refuted (a b c : Nat) (hb : 15 ≤ b) (h : 2 ^ a * 3 ^ b * 5 ^ c < 2125764000) :
    ∃ t : Nat, get_optimal_DFT_size ((2 ^ a * 3 ^ b * 5 ^ c : Nat) : Int) = .ok (t:Int) ∧
      2 ^ a * 3 ^ b * 5 ^ c < t := by
  obtain ⟨t, h1, h2, h3, _⟩ := dft_size_run (n := ((2 ^ a * 3 ^ b * 5 ^ c : Nat) : Int)) (by omega) (by omega)
  refine ⟨t, h1, ?_⟩
  obtain ⟨a', b', c', hb', e⟩ := dtab_mem_smooth h2
  refine lt_of_le_of_ne (by omega) ?_
  intro he
  have d1 : 3 ^ 15 ∣ t := by
    rw [← he]
    exact Dvd.dvd.mul_right (Dvd.dvd.mul_left (pow_dvd_pow 3 hb) _) _
  rw [e] at d1
  have c5 : Nat.Coprime (3 ^ 15) (5 ^ c') := Nat.Coprime.pow _ _ (by decide)
  have c2 : Nat.Coprime (3 ^ 15) (2 ^ a') := Nat.Coprime.pow _ _ (by decide)
  have d2 := c2.dvd_of_dvd_mul_left (c5.dvd_of_dvd_mul_right d1)
  have := (Nat.pow_dvd_pow_iff_le_right (by decide : 1 < 3)).1 d2
  omega

/-- 3^15 = 14348907 is rounded up to 14400000 -/
example : get_optimal_DFT_size 14348907 = .ok 14400000 ∧ 2 ^ 0 * 3 ^ 15 * 5 ^ 0 = 14348907 := by decide +kernel

/-- **C44** at the last table entry, which is the least admissible size for itself: -1 is returned. -/
theorem C44_refuted_last : get_optimal_DFT_size 2125764000 = .ok (-1) ∧ Smooth5 2125764000 :=
  ⟨dft_size_big (by omega), ⟨5, 12, 3, by decide⟩⟩

/-- **C44**, out of range: -1 for every negative size and every size beyond the table. -/
theorem C44_out_of_range {n : Int} (h : -2147483648 ≤ n ∧ n < 0 ∨ 2125764000 < n ∧ n ≤ 2147483647) :
    get_optimal_DFT_size n = .ok (-1) := dft_size_big (by omega)

example : -2147483648 ≤ (-1:Int) ∧ (-1:Int) < 0 := by decide

end HyperCV
