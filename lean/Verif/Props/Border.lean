/- C21: border extrapolation. -/
import Verif.Proof.Border
import Verif.Spec.Border

namespace HyperCV
open Spec

/-- **C21**: for every length from 1 on and every `int` index (for WRAP: unless `p - len` overflows), the
routine terminates and returns the documented index, which lies inside the source. -/
theorem C21_border (e : Extension) {p len : Int} (hl : 1 ≤ len) (hlR : len ≤ 2147483647)
    (hp : -2147483647 ≤ p ∧ p ≤ 2147483647) (hw : e = .wrap → -2147483648 ≤ p - len) :
    border p len e.code = .ok (e.index p len) ∧ 0 ≤ e.index p len ∧ e.index p len < len := by
  cases e with
  | replicate =>
    refine ⟨?_, ?_⟩
    · show border p len 1 = _
      rw [border_replicate hl hlR]
      simp only [Extension.index]
      congr 1
      split
      · omega
      · split <;> omega
    · simp only [Extension.index]
      split
      · omega
      · split <;> omega
  | wrap =>
    exact ⟨border_wrap hl hlR ⟨hw rfl, hp.2⟩, Int.emod_nonneg _ (by omega), Int.emod_lt_of_pos _ (by omega)⟩
  | reflect =>
    by_cases h1 : len = 1
    · subst h1
      have e : p % (2 * 1) = 0 ∨ p % (2 * 1) = 1 := by omega
      have hidx : Extension.index .reflect p 1 = 0 := by
        simp only [Extension.index]
        split <;> omega
      rw [hidx]
      exact ⟨border_len1 (Or.inl rfl), by omega, by omega⟩
    · have h := border_reflect (p := p) (t := 2) (Or.inl rfl) (by omega) hlR hp
      rw [if_neg (by omega)] at h
      have hidx : Extension.index .reflect p len = refl len 0 p := by
        simp only [Extension.index, refl]
        have e : 2 * len - 2 * 0 = 2 * len := by ring
        rw [e]
        split
        · rfl
        · omega
      rw [hidx]; exact h
  | reflect101 =>
    by_cases h1 : len = 1
    · subst h1
      have hidx : Extension.index .reflect101 p 1 = 0 := by simp [Extension.index]
      rw [hidx]
      exact ⟨border_len1 (Or.inr rfl), by omega, by omega⟩
    · have h := border_reflect (p := p) (t := 4) (Or.inr rfl) (by omega) hlR hp
      rw [if_pos rfl] at h
      have hidx : Extension.index .reflect101 p len = refl len 1 p := by
        simp only [Extension.index, refl]
        rw [if_neg h1]
        have e : 2 * len - 2 * 1 = 2 * len - 2 := by ring
        rw [e]
        split
        · rfl
        · omega
      rw [hidx]; exact h

/-- the iteration bound used by the model is not the reason for the result -/
theorem C21_fuel (e : Extension) {p len : Int} {n : Nat} (hl : 1 ≤ len) (hlR : len ≤ 2147483647)
    (hp : -2147483647 ≤ p ∧ p ≤ 2147483647) (hn : p.natAbs + 2 ≤ n) :
    borderFuel n p len e.code = border p len e.code := borderFuel_mono hl hlR hp hn

/-- **C21**: indices already inside are returned unchanged, for every accepted border type. -/
theorem C21_inside {p len t : Int} (ht : 0 ≤ t ∧ t ≤ 4) (h : 0 ≤ p ∧ p < len) : border p len t = .ok p :=
  border_in (by omega) h

/-- **C21**: unknown border types and negative lengths are refused. -/
theorem C21_refused {p len t : Int} (h : len < 0 ∨ ¬ (0 ≤ t ∧ t ≤ 4)) : border p len t = .error .exit := by
  unfold border borderFuel
  by_cases h0 : len < 0
  · rw [if_pos h0]; rfl
  · rw [if_neg h0, if_pos (by omega)]; rfl

example : (1 : Int) ≤ 5 ∧ (5 : Int) ≤ 2147483647 ∧ -2147483648 ≤ (-13 : Int) - 5 ∧
    border (-13) 5 2 = .ok 2 ∧ border (-13) 5 4 = .ok 3 ∧ border (-13) 5 3 = .ok 2 ∧ border (-13) 5 1 = .ok 0 := by
  decide

/-- Outside the domain of C21 the guarantees fail: an empty source is accepted, and the reflection loop then
never ends (for every number of iterations), wrap divides by zero, and clamping returns -1. -/
theorem C21_empty_source :
    (∀ (n : Nat) (p : Int), -2147483647 ≤ p ∧ p ≤ 2147483646 → borderFuel n p 0 2 = .error .diverge) ∧
    border 3 0 3 = .error (.ub .divZero) ∧ border 3 0 1 = .ok (-1) :=
  ⟨border_reflect_len0_diverges, by decide, by decide⟩

/-- CONSTANT returns index 1 for every outside position, which is not inside a source of length 1. -/
theorem C21_constant_outside : border (-1) 1 0 = .ok 1 ∧ border 7 1 0 = .ok 1 := by decide

/-- The smallest `int` overflows. -/
theorem C21_intmin : border (-2147483648) 5 2 = .error (.ub .overflow) ∧
    border (-2147483648) 5 3 = .error (.ub .overflow) := by decide

end HyperCV
