/- Rounded operations on finite values: what they return, monotonicity, errors. -/
import Verif.Proof.Gradient
import Verif.Proof.Statistics
import Verif.Props.Draw

namespace HyperCV

/-- a finite result of rounding is the rounded value -/
theorem round_fin_rv {F : Fmt} {z s : Bool} {q v : ℚ} (h : F.round z q = .fin s v) : v = F.rv q := by
  by_cases hq : q = 0
  · subst hq
    rw [round_zero] at h
    rw [rv_zero]
    injection h with _ h2
    exact h2.symm
  · unfold Fmt.round at h
    rw [if_neg hq] at h
    simp only [] at h
    split at h
    · cases h
    · injection h with _ h2
      exact h2.symm

theorem round_is {F : Fmt} {z : Bool} {q : ℚ} (h : |F.rv q| < 2 ^ (2 ^ (F.w - 1))) : (F.round z q).Is (F.rv q) := round_rv' h

theorem add_fin_inv {F : Fmt} {a b : FV} {s : Bool} {v : ℚ} (h : F.add a b = .fin s v) :
    ∃ x y, a.Is x ∧ b.Is y ∧ v = F.rv (x + y) := by
  cases a <;> cases b <;> simp only [Fmt.add] at h
  case inf.inf => split at h <;> cases h
  case fin.fin s x s' y => exact ⟨x, y, ⟨s, rfl⟩, ⟨s', rfl⟩, round_fin_rv h⟩
  all_goals cases h

theorem mul_fin_inv {F : Fmt} {a b : FV} {s : Bool} {v : ℚ} (h : F.mul a b = .fin s v) :
    ∃ x y, a.Is x ∧ b.Is y ∧ v = F.rv (x * y) := by
  cases a <;> cases b <;> simp only [Fmt.mul] at h
  case inf.fin => split at h <;> cases h
  case fin.inf => split at h <;> cases h
  case fin.fin s x s' y => exact ⟨x, y, ⟨s, rfl⟩, ⟨s', rfl⟩, round_fin_rv h⟩
  all_goals cases h

theorem rnd_add {F : Fmt} {a b : FV} {x y : ℚ} (ha : a.Is x) (hb : b.Is y) (h : |F.rv (x + y)| < 2 ^ (2 ^ (F.w - 1))) :
    (F.add a b).Is (F.rv (x + y)) := by
  obtain ⟨s, rfl⟩ := ha
  obtain ⟨s', rfl⟩ := hb
  exact round_is h

theorem is_neg {a : FV} {x : ℚ} (ha : a.Is x) : a.neg.Is (-x) := by
  obtain ⟨s, rfl⟩ := ha
  exact ⟨_, rfl⟩

theorem rnd_sub {F : Fmt} {a b : FV} {x y : ℚ} (ha : a.Is x) (hb : b.Is y) (h : |F.rv (x - y)| < 2 ^ (2 ^ (F.w - 1))) :
    (F.sub a b).Is (F.rv (x - y)) := by
  rw [sub_eq_add_neg] at h ⊢
  exact rnd_add ha (is_neg hb) h

theorem rnd_mul {F : Fmt} {a b : FV} {x y : ℚ} (ha : a.Is x) (hb : b.Is y) (h : |F.rv (x * y)| < 2 ^ (2 ^ (F.w - 1))) :
    (F.mul a b).Is (F.rv (x * y)) := by
  obtain ⟨s, rfl⟩ := ha
  obtain ⟨s', rfl⟩ := hb
  exact round_is h

theorem rnd_div {F : Fmt} {a b : FV} {x y : ℚ} (ha : a.Is x) (hb : b.Is y) (hy : y ≠ 0) (h : |F.rv (x / y)| < 2 ^ (2 ^ (F.w - 1))) :
    (F.div a b).Is (F.rv (x / y)) := by
  obtain ⟨s, rfl⟩ := ha
  obtain ⟨s', rfl⟩ := hb
  show FV.Is (if y = 0 then _ else _) _
  rw [if_neg hy]
  exact round_is h

theorem rnd_conv {F : Fmt} {a : FV} {x : ℚ} (ha : a.Is x) (h : |F.rv x| < 2 ^ (2 ^ (F.w - 1))) : (F.conv a).Is (F.rv x) := by
  obtain ⟨s, rfl⟩ := ha
  exact round_is h

theorem FV.Is.inj {a : FV} {x y : ℚ} (h : a.Is x) (h' : a.Is y) : x = y := by
  obtain ⟨s, rfl⟩ := h
  obtain ⟨s', e⟩ := h'
  injection e

/-- truncation of a rational number -/
def tq (q : ℚ) : ℤ := if 0 ≤ q then ⌊q⌋ else -⌊-q⌋

theorem tq_mono {q r : ℚ} (h : q ≤ r) : tq q ≤ tq r := by
  unfold tq
  by_cases h1 : 0 ≤ q
  · rw [if_pos h1, if_pos (le_trans h1 h)]; exact Int.floor_le_floor h
  · rw [if_neg h1]
    have h2 : 0 ≤ ⌊-q⌋ := Int.floor_nonneg.2 (by linarith)
    by_cases h3 : 0 ≤ r
    · rw [if_pos h3]
      have := Int.floor_nonneg.2 h3
      omega
    · rw [if_neg h3]
      have := Int.floor_le_floor (show -r ≤ -q by linarith)
      omega

theorem tq_close (q : ℚ) : |(tq q : ℚ) - q| < 1 := by
  unfold tq
  split
  · rw [abs_lt]; constructor <;> linarith [Int.floor_le q, Int.lt_floor_add_one q]
  · push_cast
    rw [abs_lt]; constructor <;> linarith [Int.floor_le (-q), Int.lt_floor_add_one (-q)]

theorem tq_le {q : ℚ} {n : ℤ} (h : q ≤ n) : tq q ≤ n := by
  have := tq_mono h
  have e : tq (n:ℚ) = n := by
    unfold tq
    split
    · exact Int.floor_intCast n
    · have : -(n:ℚ) = ((-n : ℤ) : ℚ) := by push_cast; rfl
      rw [this, Int.floor_intCast]; ring
  omega

theorem le_tq {q : ℚ} {n : ℤ} (h : (n:ℚ) ≤ q) : n ≤ tq q := by
  have := tq_mono h
  have e : tq (n:ℚ) = n := by
    unfold tq
    split
    · exact Int.floor_intCast n
    · have : -(n:ℚ) = ((-n : ℤ) : ℚ) := by push_cast; rfl
      rw [this, Int.floor_intCast]; ring
  omega

theorem trunc_is {a : FV} {x : ℚ} (ha : a.Is x) : a.trunc = if -2147483648 ≤ tq x ∧ tq x ≤ 2147483647 then some (tq x) else none := by
  obtain ⟨s, rfl⟩ := ha
  rfl

theorem trunc_some {a : FV} {n : ℤ} (h : a.trunc = some n) : ∃ x, a.Is x ∧ n = tq x := by
  cases a with
  | nan => cases h
  | inf s => cases h
  | fin s q =>
    refine ⟨q, ⟨s, rfl⟩, ?_⟩
    rw [trunc_is ⟨s, rfl⟩] at h
    split at h
    · exact (Option.some.inj h).symm
    · cases h

/-- error of a rounding to `float` -/
theorem rv_abs (q : ℚ) : |f32.rv q - q| ≤ |q| / 2 ^ 24 + 1 / 2 ^ 100 := by
  by_cases h : (2:ℚ) ^ (-126 : ℤ) ≤ |q|
  · have := rv_rel h
    have : (0:ℚ) < 1 / 2 ^ 100 := by positivity
    linarith
  · by_cases hq : q = 0
    · subst hq; rw [rv_zero]; norm_num
    · have h1 : f32.ulpExp q ≤ -149 := ulpExp_le hq (by
        refine lt_of_lt_of_le (not_le.1 h) ?_
        exact zpow_le_zpow_right₀ (by norm_num) (by decide)) (by decide)
      have h2 : (2:ℚ) ^ (f32.ulpExp q) ≤ 2 ^ (-149 : ℤ) := zpow_le_zpow_right₀ (by norm_num) h1
      have h3 := rv_err f32 q
      have h4 : (2:ℚ) ^ (-149 : ℤ) / 2 ≤ 1 / 2 ^ 100 := by norm_num
      have h5 : 0 ≤ |q| / 2 ^ 24 := by positivity
      exact le_trans h3 (le_trans (div_le_div_of_nonneg_right h2 (by norm_num)) (le_trans h4 (le_add_of_nonneg_left h5)))

end HyperCV
