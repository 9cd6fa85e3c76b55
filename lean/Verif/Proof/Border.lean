/- Border extrapolation. -/
import Verif.Model.TypeH
import Verif.Base.Lemmas
import Mathlib.Tactic.Ring
import Mathlib.Tactic.Linarith

namespace HyperCV

/-- symmetric periodic extension with mirror `x ↦ d - 1 - x` and period `2 len - 2 d` -/
def refl (len d x : Int) : Int :=
  if x % (2 * len - 2 * d) < len then x % (2 * len - 2 * d)
  else 2 * len - d - 1 - x % (2 * len - 2 * d)

theorem emod_mirror {P d x : Int} (hP : 0 < P) (hd : d = 0 ∨ d = 1) :
    (d - 1 - x) % P = if x % P ≤ d - 1 then d - 1 - x % P else P + d - 1 - x % P := by
  have h1 := Int.emod_nonneg x (show P ≠ 0 by omega)
  have h2 := Int.emod_lt_of_pos x hP
  have h3 := Int.emod_add_mul_ediv x P
  have e : d - 1 - x = (d - 1 - x % P) + P * (-(x / P)) := by
    have : P * (-(x / P)) = - (P * (x / P)) := by ring
    omega
  rw [e, Int.add_mul_emod_self_left]
  split
  · exact Int.emod_eq_of_lt (by omega) (by omega)
  · have : d - 1 - x % P = (P + d - 1 - x % P) + P * (-1) := by ring
    rw [this, Int.add_mul_emod_self_left]
    exact Int.emod_eq_of_lt (by omega) (by omega)

theorem refl_mirror {len d x : Int} (hl : 2 ≤ len) (hd : d = 0 ∨ d = 1) :
    refl len d (d - 1 - x) = refl len d x := by
  have hP : 0 < 2 * len - 2 * d := by omega
  have h1 := Int.emod_nonneg x (show 2 * len - 2 * d ≠ 0 by omega)
  have h2 := Int.emod_lt_of_pos x hP
  unfold refl
  rw [emod_mirror hP hd]
  split <;> split <;> split <;> omega

theorem refl_mirror' {len d x : Int} (hl : 2 ≤ len) (hd : d = 0 ∨ d = 1) :
    refl len d (2 * len - 1 - d - x) = refl len d x := by
  rw [← refl_mirror hl hd (x := x)]
  unfold refl
  have e : 2 * len - 1 - d - x = (d - 1 - x) + (2 * len - 2 * d) * 1 := by ring
  rw [e, Int.add_mul_emod_self_left]

theorem refl_in {len d x : Int} (hd : d = 0 ∨ d = 1) (h0 : 0 ≤ x) (h1 : x < len) (hl : 2 ≤ len) :
    refl len d x = x := by
  unfold refl
  rw [Int.emod_eq_of_lt h0 (by omega), if_pos h1]

/-- one iteration -/
theorem reflect_step {len d x : Int} (hl : 2 ≤ len) (hlR : len ≤ 2147483647) (hd : d = 0 ∨ d = 1)
    (hx : -2147483647 ≤ x ∧ x ≤ 2147483647) :
    (if x < 0 then - CI.lit x - CI.lit 1 + CI.lit d
      else CI.lit len - CI.lit 1 - (CI.lit x - CI.lit len) - CI.lit d : CI)
    = CI.lit (if x < 0 then d - 1 - x else 2 * len - 1 - d - x) ∨ (0 ≤ x ∧ x < len) := by
  by_cases h : x < 0
  · left
    rw [if_pos h, if_pos h, CI.neg_ok (by constructor <;> omega), CI.sub_ok (by constructor <;> omega),
      CI.add_ok (by constructor <;> omega)]
    congr 1; omega
  · by_cases h2 : x < len
    · right; omega
    · left
      rw [if_neg h, if_neg h, CI.sub_ok (a := len) (by constructor <;> omega),
        CI.sub_ok (a := x) (by constructor <;> omega), CI.sub_ok (by constructor <;> omega),
        CI.sub_ok (by constructor <;> omega)]
      congr 1; omega

theorem reflectLoop_succ (len d x : Int) (n : Nat) {y : Int}
    (h : (if x < 0 then - CI.lit x - CI.lit 1 + CI.lit d
      else CI.lit len - CI.lit 1 - (CI.lit x - CI.lit len) - CI.lit d : CI) = CI.lit y) :
    reflectLoop len d (n + 1) x = if y < 0 ∨ len ≤ y then reflectLoop len d n y else CI.lit y := by
  conv_lhs => unfold reflectLoop
  rw [h]; rfl

theorem reflect_ok {len d : Int} (hl : 2 ≤ len) (hlR : len ≤ 2147483647) (hd : d = 0 ∨ d = 1) :
    ∀ (k : Nat) (x : Int) (n : Nat), x.natAbs ≤ k → (x < 0 ∨ len ≤ x) →
      -2147483647 ≤ x ∧ x ≤ 2147483647 → (if x < 0 then x.natAbs + 2 else x.natAbs + 1) ≤ n →
      reflectLoop len d n x = CI.lit (refl len d x) ∧ 0 ≤ refl len d x ∧ refl len d x < len := by
  intro k
  induction k with
  | zero =>
    intro x n hk hout _ _
    omega
  | succ k ih =>
    intro x n hk hout hx hn
    obtain ⟨n, rfl⟩ : ∃ n', n = n' + 1 := ⟨n - 1, by split at hn <;> omega⟩
    have hs := (reflect_step hl hlR hd hx).resolve_right (by omega)
    rw [reflectLoop_succ _ _ _ _ hs]
    by_cases hneg : x < 0
    · simp only [if_pos hneg] at hn ⊢
      have hr : refl len d (d - 1 - x) = refl len d x := refl_mirror hl hd
      by_cases hin : d - 1 - x < 0 ∨ len ≤ d - 1 - x
      · rw [if_pos hin]
        -- the value is positive and at least `len`; take one more step
        have hge : len ≤ d - 1 - x := by omega
        obtain ⟨n, rfl⟩ : ∃ n', n = n' + 1 := ⟨n - 1, by omega⟩
        have hs2 := (reflect_step hl hlR hd (x := d - 1 - x) (by omega)).resolve_right (by omega)
        rw [if_neg (show ¬ d - 1 - x < 0 by omega), if_neg (show ¬ d - 1 - x < 0 by omega)] at hs2
        rw [reflectLoop_succ _ _ _ _ (y := 2 * len - 1 - d - (d - 1 - x))
          (by rw [if_neg (show ¬ d - 1 - x < 0 by omega)]; exact hs2)]
        have hr2 : refl len d (2 * len - 1 - d - (d - 1 - x)) = refl len d x := by
          rw [refl_mirror' hl hd, hr]
        by_cases hin2 : 2 * len - 1 - d - (d - 1 - x) < 0 ∨ len ≤ 2 * len - 1 - d - (d - 1 - x)
        · rw [if_pos hin2, ← hr2]
          apply ih _ n (by omega) hin2 (by omega)
          split <;> omega
        · rw [if_neg hin2, ← hr2, refl_in hd (by omega) (by omega) hl]
          exact ⟨rfl, by omega, by omega⟩
      · rw [if_neg hin, ← hr, refl_in hd (by omega) (by omega) hl]
        exact ⟨rfl, by omega, by omega⟩
    · simp only [if_neg hneg] at hn ⊢
      have hr : refl len d (2 * len - 1 - d - x) = refl len d x := refl_mirror' hl hd
      by_cases hin : 2 * len - 1 - d - x < 0 ∨ len ≤ 2 * len - 1 - d - x
      · rw [if_pos hin, ← hr]
        apply ih _ n (by omega) hin (by omega)
        split <;> omega
      · rw [if_neg hin, ← hr, refl_in hd (by omega) (by omega) hl]
        exact ⟨rfl, by omega, by omega⟩

/-- the fuel of `border` is enough: more fuel gives the same result -/
theorem borderFuel_mono {p len t : Int} {n : Nat} (hl : 1 ≤ len) (hlR : len ≤ 2147483647)
    (hp : -2147483647 ≤ p ∧ p ≤ 2147483647) (hn : p.natAbs + 2 ≤ n) :
    borderFuel n p len t = border p len t := by
  unfold border borderFuel
  by_cases h2 : len = 1
  · simp only [h2, if_true]
  · by_cases hin : 0 ≤ p ∧ p < len
    · simp only [hin, and_self, if_true]
    · have key : reflectLoop len (if t = 4 then 1 else 0) n p
          = reflectLoop len (if t = 4 then 1 else 0) (p.natAbs + 2) p := by
        have hd : (if t = 4 then (1:Int) else 0) = 0 ∨ (if t = 4 then (1:Int) else 0) = 1 := by
          split <;> simp
        rw [(reflect_ok (by omega) hlR hd _ p n (Nat.le_refl _) (by omega) hp (by split <;> omega)).1,
          (reflect_ok (by omega) hlR hd _ p (p.natAbs + 2) (Nat.le_refl _) (by omega) hp (by split <;> omega)).1]
      rw [key]

/-- with an empty source the half-sample reflection never terminates -/
theorem border_reflect_len0_diverges :
    ∀ (n : Nat) (p : Int), -2147483647 ≤ p ∧ p ≤ 2147483646 → borderFuel n p 0 2 = CI.err .diverge := by
  have key : ∀ (n : Nat) (p : Int), -2147483647 ≤ p ∧ p ≤ 2147483646 →
      reflectLoop 0 0 n p = CI.err .diverge := by
    intro n
    induction n with
    | zero => intro p _; rfl
    | succ n ih =>
      intro p hp
      by_cases hneg : p < 0
      · rw [reflectLoop_succ _ _ _ _ (y := -p - 1)]
        · rw [if_pos (by omega)]; exact ih _ (by omega)
        · rw [if_pos hneg, CI.neg_ok (by constructor <;> omega), CI.sub_ok (by constructor <;> omega),
            CI.add_ok (by constructor <;> omega)]
          congr 1
          omega
      · rw [reflectLoop_succ _ _ _ _ (y := -1 - p)]
        · rw [if_pos (by omega)]; exact ih _ (by omega)
        · rw [if_neg hneg, CI.sub_ok (a := 0) (by constructor <;> omega),
            CI.sub_ok (a := p) (by constructor <;> omega), CI.sub_ok (by constructor <;> omega),
            CI.sub_ok (by constructor <;> omega)]
          congr 1
          omega
  intro n p hp
  unfold borderFuel
  have h1 : ¬ (0 ≤ p ∧ p < 0) := by omega
  simp [h1, key n p hp]

theorem border_in {p len t : Int} (ht : t = 0 ∨ t = 1 ∨ t = 2 ∨ t = 3 ∨ t = 4) (h : 0 ≤ p ∧ p < len) :
    border p len t = CI.lit p := by
  unfold border borderFuel
  rw [if_neg (by omega), if_neg (by omega), if_pos h]

theorem border_replicate {p len : Int} (hl : 1 ≤ len) (hlR : len ≤ 2147483647) :
    border p len 1 = CI.lit (max 0 (min p (len - 1))) := by
  by_cases h : 0 ≤ p ∧ p < len
  · rw [border_in (by simp) h]; congr 1; omega
  · unfold border borderFuel
    rw [if_neg (by omega), if_neg (by omega), if_neg h, if_pos rfl]
    by_cases h0 : p < 0
    · rw [if_pos h0]
      congr 1; omega
    · rw [if_neg h0, CI.sub_ok (by constructor <;> omega)]
      congr 1; omega

theorem border_reflect {p len t : Int} (ht : t = 2 ∨ t = 4) (hl : 2 ≤ len) (hlR : len ≤ 2147483647)
    (hp : -2147483647 ≤ p ∧ p ≤ 2147483647) :
    border p len t = CI.lit (refl len (if t = 4 then 1 else 0) p) ∧
      0 ≤ refl len (if t = 4 then 1 else 0) p ∧ refl len (if t = 4 then 1 else 0) p < len := by
  have hd : (if t = 4 then (1:Int) else 0) = 0 ∨ (if t = 4 then (1:Int) else 0) = 1 := by split <;> simp
  by_cases h : 0 ≤ p ∧ p < len
  · rw [border_in (by omega) h, refl_in hd h.1 h.2 hl]
    exact ⟨rfl, h⟩
  · have := reflect_ok hl hlR hd _ p (p.natAbs + 2) (Nat.le_refl _) (by omega) hp (by split <;> omega)
    refine ⟨?_, this.2⟩
    unfold border borderFuel
    rw [if_neg (by omega), if_neg (by omega), if_neg h, if_neg (show ¬ t = 1 by omega), if_pos ht, if_neg (show ¬ len = 1 by omega)]
    exact this.1

theorem border_len1 {p t : Int} (ht : t = 2 ∨ t = 4) : border p 1 t = CI.lit 0 := by
  by_cases h : 0 ≤ p ∧ p < 1
  · rw [border_in (by omega) h]; congr 1; omega
  · unfold border borderFuel
    rw [if_neg (by omega), if_neg (by omega), if_neg h, if_neg (show ¬ t = 1 by omega), if_pos ht, if_pos rfl]

theorem wrapTail_lit (len x : Int) :
    wrapTail len (CI.lit x) = if len ≤ x then CI.lit x % CI.lit len else CI.lit x := rfl

theorem border_wrap {p len : Int} (hl : 1 ≤ len) (hlR : len ≤ 2147483647)
    (hp : -2147483648 ≤ p - len ∧ p ≤ 2147483647) :
    border p len 3 = CI.lit (p % len) := by
  by_cases h : 0 ≤ p ∧ p < len
  · rw [border_in (by simp) h, Int.emod_eq_of_lt h.1 h.2]
  · unfold border borderFuel
    rw [if_neg (by omega), if_neg (by omega), if_neg h, if_neg (by omega), if_neg (by omega), if_pos rfl]
    by_cases h0 : p < 0
    · rw [if_pos h0]
      -- quotient
      have hq : (p - len + 1).tdiv len = -((len - 1 - p) / len) := by
        have e : p - len + 1 = -(len - 1 - p) := by ring
        rw [e, Int.neg_tdiv, Int.tdiv_eq_ediv_of_nonneg (by omega)]
      have h1 := Int.emod_nonneg (len - 1 - p) (show len ≠ 0 by omega)
      have h2 := Int.emod_lt_of_pos (len - 1 - p) (show 0 < len by omega)
      have h3 := Int.emod_add_mul_ediv (len - 1 - p) len
      have h4 : 0 ≤ (len - 1 - p) / len := Int.ediv_nonneg (by omega) (by omega)
      have h5 : (len - 1 - p) / len ≤ len - 1 - p := Int.ediv_le_self _ (by omega)
      have hc : -((len - 1 - p) / len) * len = -(len * ((len - 1 - p) / len)) := by ring
      rw [CI.sub_ok (by constructor <;> omega), CI.add_ok (by constructor <;> omega),
        CI.div_ok (by omega) (by rw [hq]; constructor <;> omega), hq,
        CI.mul_ok (by rw [hc]; constructor <;> omega), hc, CI.sub_ok (by constructor <;> omega)]
      have hv : p % len = p + len * ((len - 1 - p) / len) := by
        have e : p = (p + len * ((len - 1 - p) / len)) + len * (-((len - 1 - p) / len)) := by ring
        conv_lhs => rw [e]
        rw [Int.add_mul_emod_self_left]
        exact Int.emod_eq_of_lt (by omega) (by omega)
      rw [wrapTail_lit]
      rw [if_neg (by omega), hv]
      congr 1; ring
    · rw [if_neg h0]
      rw [wrapTail_lit]
      rw [if_pos (by omega)]
      have e1 : p.tdiv len = p / len := Int.tdiv_eq_ediv_of_nonneg (by omega)
      have e2 : p.tmod len = p % len := Int.tmod_eq_emod_of_nonneg (by omega)
      have h1 := Int.emod_nonneg p (show len ≠ 0 by omega)
      have h2 := Int.emod_lt_of_pos p (show 0 < len by omega)
      have h4 : 0 ≤ p / len := Int.ediv_nonneg (by omega) (by omega)
      have h5 : p / len ≤ p := Int.ediv_le_self _ (by omega)
      rw [CI.mod_ok (a := p) (b := len) (by omega) (by rw [e1]; constructor <;> omega)
        (by rw [e2]; constructor <;> omega), e2]

end HyperCV
