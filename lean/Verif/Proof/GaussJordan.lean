/- Correctness of the elimination in exact arithmetic. -/
import Verif.Model.GaussJordan
import Mathlib.Algebra.BigOperators.Ring.Finset
import Mathlib.Algebra.BigOperators.Intervals
import Mathlib.Algebra.Field.Basic
import Mathlib.Tactic.Ring
import Mathlib.Tactic.FieldSimp
import Mathlib.Tactic.LinearCombination

namespace HyperCV
open Finset

variable {F : Type} [Field F] [DecidableEq F]

/-- exact arithmetic in a field -/
def fieldArith (F : Type) [Field F] [DecidableEq F] : Arith F where
  add := (· + ·)
  mul := (· * ·)
  neg := fun x => -x
  recip := fun x => 1 / x
  isZero := fun x => decide (x = 0)
  zero := 0
  one := 1

/-- no non-zero vector is mapped to zero -/
def Inj (m : Nat) (A : Mat F) : Prop :=
  ∀ v : Nat → F, (∀ a, a < m → ∑ b ∈ range m, A a b * v b = 0) → ∀ b, b < m → v b = 0

/-- `R * A0 = A` -/
def Prod (m : Nat) (R A0 A : Mat F) : Prop := ∀ a b, a < m → b < m → ∑ t ∈ range m, R a t * A0 t b = A a b

/-- the columns before `c` are those of the identity -/
def Cols (m c : Nat) (A : Mat F) : Prop := ∀ a b, a < m → b < c → A a b = if a = b then 1 else 0

theorem prod_swap {m i r : Nat} {R A0 A : Mat F} (hi : i < m) (hr : r < m) (h : Prod m R A0 A) :
    Prod m (gSwap i r R) A0 (gSwap i r A) := by
  intro a b ha hb
  unfold gSwap
  split
  · exact h r b hr hb
  · split
    · exact h i b hi hb
    · exact h a b ha hb

theorem inj_swap {m i r : Nat} {A : Mat F} (hi : i < m) (hr : r < m) (h : Inj m A) : Inj m (gSwap i r A) := by
  intro v hv
  apply h v
  intro a ha
  by_cases e : a = i
  · subst e
    have := hv r hr
    unfold gSwap at this
    by_cases e2 : r = a
    · subst e2; simpa using this
    · simpa [e2] using this
  · by_cases e2 : a = r
    · subst e2
      have := hv i hi
      unfold gSwap at this
      simpa using this
    · have := hv a ha
      unfold gSwap at this
      simpa [e, e2] using this

theorem prod_scale {m i : Nat} {s : F} {R A0 A : Mat F} (h : Prod m R A0 A) :
    Prod m (gScale (fieldArith F) i s R) A0 (gScale (fieldArith F) i s A) := by
  intro a b ha hb
  unfold gScale
  by_cases e : a = i
  · simp only [if_pos e]
    show ∑ t ∈ range m, (R a t * s) * A0 t b = A a b * s
    rw [← h a b ha hb, sum_mul]
    exact sum_congr rfl (fun t _ => by ring)
  · simp only [if_neg e]
    exact h a b ha hb

theorem inj_scale {m i : Nat} {s : F} {A : Mat F} (hs : s ≠ 0) (h : Inj m A) :
    Inj m (gScale (fieldArith F) i s A) := by
  intro v hv
  apply h v
  intro a ha
  have := hv a ha
  unfold gScale at this
  by_cases e : a = i
  · simp only [if_pos e] at this
    have e2 : ∑ b ∈ range m, (fieldArith F).mul (A a b) s * v b = s * ∑ b ∈ range m, A a b * v b := by
      rw [mul_sum]
      exact sum_congr rfl (fun t _ => by show A a t * s * v t = _; ring)
    rw [e2] at this
    exact (mul_eq_zero.1 this).resolve_left hs
  · simpa only [if_neg e] using this

theorem prod_shear {m i j : Nat} {s : F} {R A0 A : Mat F} (hi : i < m) (h : Prod m R A0 A) :
    Prod m (gShear (fieldArith F) j i s R) A0 (gShear (fieldArith F) j i s A) := by
  intro a b ha hb
  unfold gShear
  by_cases e : a = j
  · simp only [if_pos e]
    show ∑ t ∈ range m, (R a t + s * R i t) * A0 t b = A a b + s * A i b
    rw [← h a b ha hb, ← h i b hi hb, mul_sum, ← sum_add_distrib]
    exact sum_congr rfl (fun t _ => by ring)
  · simp only [if_neg e]
    exact h a b ha hb

theorem inj_shear {m i j : Nat} {s : F} {A : Mat F} (hi : i < m) (hne : j ≠ i) (h : Inj m A) :
    Inj m (gShear (fieldArith F) j i s A) := by
  intro v hv
  apply h v
  intro a ha
  have hrow : ∑ b ∈ range m, A i b * v b = 0 := by
    have := hv i hi
    unfold gShear at this
    simpa only [if_neg hne.symm] using this
  have := hv a ha
  unfold gShear at this
  by_cases e : a = j
  · simp only [if_pos e] at this
    have e2 : ∑ b ∈ range m, (fieldArith F).add (A a b) ((fieldArith F).mul s (A i b)) * v b
        = ∑ b ∈ range m, A a b * v b + s * ∑ b ∈ range m, A i b * v b := by
      rw [mul_sum, ← sum_add_distrib]
      exact sum_congr rfl (fun t _ => by show (A a t + s * A i t) * v t = _; ring)
    rw [e2, hrow, mul_zero, add_zero] at this
    exact this
  · simpa only [if_neg e] using this

/-- the state of the elimination before column `c` -/
structure GInv (m c : Nat) (A0 : Mat F) (s : Mat F × Mat F) : Prop where
  prod : Prod m s.2 A0 s.1
  inj : Inj m s.1
  cols : Cols m c s.1

theorem find_spec (A : Mat F) (i : Nat) : ∀ f r,
    (gFind (fieldArith F) A i f r < r + f → A (gFind (fieldArith F) A i f r) i ≠ 0) ∧
    (∀ t, r ≤ t → t < gFind (fieldArith F) A i f r → A t i = 0) ∧
    r ≤ gFind (fieldArith F) A i f r ∧ gFind (fieldArith F) A i f r ≤ r + f := by
  intro f
  induction f with
  | zero =>
    intro r
    unfold gFind
    exact ⟨fun h => absurd h (by omega), fun t h1 h2 => by omega, Nat.le_refl _, by omega⟩
  | succ f ih =>
    intro r
    unfold gFind
    by_cases h : (fieldArith F).isZero (A r i) = true
    · rw [if_pos h]
      obtain ⟨h1, h2, h3, h4⟩ := ih (r+1)
      refine ⟨fun hlt => h1 (by omega), ?_, by omega, by omega⟩
      intro t ht1 ht2
      by_cases e : t = r
      · subst e; exact of_decide_eq_true h
      · exact h2 t (by omega) ht2
    · rw [if_neg h]
      refine ⟨fun _ hz => h (decide_eq_true hz), fun t h1 h2 => by omega, Nat.le_refl _, by omega⟩

/-- some pivot exists at or below the diagonal -/
theorem pivot_exists {m c : Nat} {A : Mat F} (hc : c < m) (hi : Inj m A) (hcols : Cols m c A) :
    ∃ r, c ≤ r ∧ r < m ∧ A r c ≠ 0 := by
  by_contra hno
  have hz : ∀ r, c ≤ r → r < m → A r c = 0 := by
    intro r h1 h2
    by_contra h3
    exact hno ⟨r, h1, h2, h3⟩
  let v : Nat → F := fun b => if b < c then A b c else if b = c then -1 else 0
  have hv : ∀ a, a < m → ∑ b ∈ range m, A a b * v b = 0 := by
    intro a ha
    have split : ∀ b, b ∈ range m → A a b * v b
        = (if b = a then (if a < c then A a c else 0) else 0) + (if b = c then - A a c else 0) := by
      intro b hb
      show A a b * (if b < c then A b c else if b = c then -1 else 0) = _
      by_cases h1 : b < c
      · rw [if_pos h1, hcols a b ha h1, if_neg (show ¬ b = c by omega), add_zero]
        by_cases h2 : a = b
        · subst h2; rw [if_pos rfl, if_pos rfl, if_pos h1, one_mul]
        · rw [if_neg h2, if_neg (Ne.symm h2), zero_mul]
      · rw [if_neg h1]
        have h0 : (if b = a then (if a < c then A a c else 0) else 0) = (0:F) := by
          by_cases h2 : b = a
          · rw [if_pos h2, if_neg (by omega)]
          · rw [if_neg h2]
        rw [h0, zero_add]
        by_cases h2 : b = c
        · subst h2; rw [if_pos rfl, if_pos rfl]; ring
        · rw [if_neg h2, if_neg h2, mul_zero]
    rw [sum_congr rfl split, sum_add_distrib, sum_ite_eq', sum_ite_eq', if_pos (mem_range.2 ha), if_pos (mem_range.2 hc)]
    by_cases h1 : a < c
    · rw [if_pos h1]; ring
    · rw [if_neg h1, hz a (by omega) ha]; ring
  have := hi v hv c hc
  have e : v c = -1 := by
    show (if c < c then A c c else if c = c then -1 else 0) = (-1:F)
    rw [if_neg (by omega), if_pos rfl]
  rw [e] at this
  exact neg_ne_zero.2 one_ne_zero this

theorem pivot_ok {m c : Nat} {A0 : Mat F} {s : Mat F × Mat F} (hc : c < m) (h : GInv m c A0 s) :
    ∃ t, gPivot (fieldArith F) m c s = some t ∧ GInv m c A0 t ∧ t.1 c c ≠ 0 := by
  unfold gPivot
  by_cases hz : (fieldArith F).isZero (s.1 c c) = true
  · have hz' : s.1 c c = 0 := of_decide_eq_true hz
    rw [if_pos hz]
    obtain ⟨h1, h2, h3, h4⟩ := find_spec s.1 c (m - (c+1)) (c+1)
    generalize gFind (fieldArith F) s.1 c (m - (c+1)) (c+1) = r at h1 h2 h3 h4
    obtain ⟨q, q1, q2, q3⟩ := pivot_exists hc h.inj h.cols
    have hr : r < m := by
      by_contra hcon
      by_cases e : q = c
      · subst e; exact q3 hz'
      · exact q3 (h2 q (by omega) (by omega))
    rw [if_neg (by omega)]
    refine ⟨_, rfl, ⟨prod_swap hc hr h.prod, inj_swap hc hr h.inj, ?_⟩, ?_⟩
    · intro a b ha hb
      show gSwap c r s.1 a b = _
      unfold gSwap
      by_cases e1 : a = c
      · rw [if_pos e1, h.cols r b hr hb, if_neg (by omega), if_neg (by omega)]
      · rw [if_neg e1]
        by_cases e2 : a = r
        · rw [if_pos e2, h.cols c b hc hb, if_neg (by omega), if_neg (by omega)]
        · rw [if_neg e2]; exact h.cols a b ha hb
    · show gSwap c r s.1 c c ≠ 0
      unfold gSwap
      rw [if_pos rfl]
      exact h1 (by omega)
  · rw [if_neg hz]
    exact ⟨s, rfl, h, fun e => hz (decide_eq_true e)⟩

theorem elim_ok {m c : Nat} {A0 : Mat F} {s : Mat F × Mat F} (hc : c < m) (h : GInv m c A0 s) (hp : s.1 c c ≠ 0) :
    GInv m (c+1) A0 (gElim (fieldArith F) m c s) := by
  unfold gElim
  generalize hS : (gScale (fieldArith F) c ((fieldArith F).recip (s.1 c c)) s.1,
    gScale (fieldArith F) c ((fieldArith F).recip (s.1 c c)) s.2) = s1
  have hr : (fieldArith F).recip (s.1 c c) ≠ 0 := by
    show 1 / s.1 c c ≠ 0
    exact div_ne_zero one_ne_zero hp
  have g1 : GInv m c A0 s1 := by
    subst hS
    refine ⟨prod_scale h.prod, inj_scale hr h.inj, ?_⟩
    intro a b ha hb
    show gScale (fieldArith F) c _ s.1 a b = _
    unfold gScale
    by_cases e : a = c
    · rw [if_pos e, if_neg (by omega)]
      show s.1 a b * _ = 0
      rw [h.cols a b ha hb, if_neg (by omega), zero_mul]
    · rw [if_neg e]; exact h.cols a b ha hb
  have p1 : s1.1 c c = 1 := by
    subst hS
    show gScale (fieldArith F) c _ s.1 c c = 1
    unfold gScale
    rw [if_pos rfl]
    show s.1 c c * (1 / s.1 c c) = 1
    field_simp
  -- after j rows: column c is cleared above j, and row c is unchanged
  have rows : ∀ j, j ≤ m → GInv m c A0 (gRows (fieldArith F) c j s1) ∧
      (∀ b, (gRows (fieldArith F) c j s1).1 c b = s1.1 c b) ∧
      (∀ a, a < j → a ≠ c → (gRows (fieldArith F) c j s1).1 a c = 0) := by
    intro j
    induction j with
    | zero => intro _; exact ⟨g1, fun _ => rfl, fun a ha => by omega⟩
    | succ j ih =>
      intro hj
      obtain ⟨i1, i2, i3⟩ := ih (by omega)
      unfold gRows
      by_cases e : c = j
      · rw [if_pos e]
        exact ⟨i1, i2, fun a ha hne => i3 a (by omega) hne⟩
      · rw [if_neg e]
        generalize gRows (fieldArith F) c j s1 = u at i1 i2 i3
        refine ⟨⟨prod_shear hc i1.prod, inj_shear hc (Ne.symm e) i1.inj, ?_⟩, ?_, ?_⟩
        · intro a b ha hb
          show gShear (fieldArith F) j c _ u.1 a b = _
          unfold gShear
          by_cases e2 : a = j
          · rw [if_pos e2]
            show u.1 a b + _ * u.1 c b = _
            rw [i1.cols c b hc hb, if_neg (by omega), mul_zero, add_zero]
            exact i1.cols a b ha hb
          · rw [if_neg e2]; exact i1.cols a b ha hb
        · intro b
          show gShear (fieldArith F) j c _ u.1 c b = _
          unfold gShear
          rw [if_neg e]; exact i2 b
        · intro a ha hne
          show gShear (fieldArith F) j c _ u.1 a c = _
          unfold gShear
          by_cases e2 : a = j
          · rw [if_pos e2]
            show u.1 a c + -(u.1 j c) * u.1 c c = 0
            rw [i2 c, p1, e2]; ring
          · rw [if_neg e2]; exact i3 a (by omega) hne
  obtain ⟨r1, r2, r3⟩ := rows m (Nat.le_refl _)
  refine ⟨r1.prod, r1.inj, ?_⟩
  intro a b ha hb
  by_cases e : b = c
  · subst e
    by_cases e2 : a = b
    · subst e2; rw [if_pos rfl, r2 a]; exact p1
    · rw [if_neg e2]; exact r3 a ha e2
  · exact r1.cols a b ha (by omega)

theorem loop_ok {m : Nat} {A0 : Mat F} : ∀ f c, c + f = m → ∀ s : Mat F × Mat F, GInv m c A0 s →
    (gLoop (fieldArith F) m f c s).2 = true ∧ GInv m m A0 (gLoop (fieldArith F) m f c s).1 := by
  intro f
  induction f with
  | zero => intro c hc s h; have : c = m := by omega
            subst this; exact ⟨rfl, h⟩
  | succ f ih =>
    intro c hc s h
    unfold gLoop
    obtain ⟨t, h1, h2, h3⟩ := pivot_ok (show c < m by omega) h
    rw [h1]
    exact ih (c+1) (by omega) _ (elim_ok (by omega) h2 h3)

/-- a matrix with a left inverse is inverted -/
theorem gInvert_ok {m : Nat} {A B : Mat F}
    (hB : ∀ i j, i < m → j < m → ∑ t ∈ range m, B i t * A t j = if i = j then 1 else 0) :
    (gInvert (fieldArith F) m A).2 = true ∧
    ∀ i j, i < m → j < m → ∑ t ∈ range m, (gInvert (fieldArith F) m A).1.2 i t * A t j = if i = j then 1 else 0 := by
  have h0 : GInv m 0 A (A, gId (fieldArith F)) := by
    refine ⟨?_, ?_, fun a b _ hb => by omega⟩
    · intro a b ha hb
      show ∑ t ∈ range m, (if a = t then (1:F) else 0) * A t b = A a b
      have : ∀ t, t ∈ range m → (if a = t then (1:F) else 0) * A t b = if a = t then A t b else 0 := by
        intro t _; split <;> simp
      rw [sum_congr rfl this, sum_ite_eq, if_pos (mem_range.2 ha)]
    · intro v hv b hb
      have : ∑ t ∈ range m, B b t * ∑ c ∈ range m, A t c * v c = v b := by
        have e1 : ∑ t ∈ range m, B b t * ∑ c ∈ range m, A t c * v c
            = ∑ c ∈ range m, (∑ t ∈ range m, B b t * A t c) * v c := by
          simp only [mul_sum, sum_mul]
          rw [sum_comm]
          exact sum_congr rfl (fun c _ => sum_congr rfl (fun t _ => by ring))
        rw [e1]
        have e2 : ∀ c, c ∈ range m → (∑ t ∈ range m, B b t * A t c) * v c = if b = c then v c else 0 := by
          intro c hc
          rw [hB b c hb (mem_range.1 hc)]
          split <;> simp
        rw [sum_congr rfl e2, sum_ite_eq, if_pos (mem_range.2 hb)]
      rw [← this]
      apply sum_eq_zero
      intro t ht
      have := hv t (mem_range.1 ht)
      show B b t * ∑ c ∈ range m, A t c * v c = 0
      rw [show ∑ c ∈ range m, A t c * v c = 0 from this, mul_zero]
  obtain ⟨r1, r2⟩ := loop_ok m 0 (by omega) _ h0
  refine ⟨r1, fun i j hi hj => ?_⟩
  have := r2.prod i j hi hj
  rw [r2.cols i j hi hj] at this
  exact this

end HyperCV
