/- C43: matrix inversion. -/
import Verif.Proof.InvertExact
import Verif.Props.Math
import Mathlib.Data.Nat.Prime.Basic

namespace HyperCV
open Spec Finset

/-- `B` is a left inverse of the `m` x `m` matrix `A` -/
def Spec.LeftInverse {F : Type} [Field F] (m : Nat) (B A : Nat → Nat → F) : Prop :=
  ∀ i j, i < m → j < m → ∑ t ∈ range m, B i t * A t j = if i = j then 1 else 0

/-- **C43**, the code: for all contents and sizes the call returns, changes only `mat` and `res`, and leaves in them
exactly the two matrices that the elimination `gInvert` computes with `float` arithmetic. -/
theorem C43_refines {mem : Mem} {res mat m : Nat} {A R : Nat → Nat → Nat} (hwf : mem.WF) (hne : mat ≠ res)
    (b : m * m ≤ 536870911) (ha : IsMat mem mat 4 m m A) (hr : IsMat mem res 4 m m R) :
    ∃ mem', invert_matrix_float res mat m mem = .ok ((), mem') ∧ OnlyBlocks mem mem' mat res ∧
      IsMat mem' mat 4 m m (gInvert floatArith m A).1.1 ∧ IsMat mem' res 4 m m (gInvert floatArith m A).1.2 := by
  obtain ⟨mem', h1, h2⟩ := invert_run hwf hne b (isMat_iff.1 ha) (isMat_iff.1 hr)
  exact ⟨mem', h1, h2.ob, isMat_iff.2 h2.ha, isMat_iff.2 h2.hr⟩

/-- **C43**, the algorithm: in exact arithmetic over any field and for every dimension, the elimination processes all
columns and its result is a left inverse whenever there is one (so `A` is invertible). -/
theorem C43_exact_partial {F : Type} [Field F] [DecidableEq F] {m : Nat} {A B : Nat → Nat → F} (h : LeftInverse m B A) :
    (gInvert (fieldArith F) m A).2 = true ∧ LeftInverse m (gInvert (fieldArith F) m A).1.2 A :=
  gInvert_ok h

/-- [[0, 2], [4, 1]] -/
def demoQ : Nat → Nat → ℚ := fun i j => if i = 0 then (if j = 0 then 0 else 2) else (if j = 0 then 4 else 1)

/-- its inverse -/
example : LeftInverse 2 (fun i j => if i = 0 then (if j = 0 then -1/8 else 1/4) else (if j = 0 then 1/2 else 0)) demoQ := by
  intro i j hi hj
  interval_cases i <;> interval_cases j <;> norm_num [demoQ, Finset.sum_range_succ]

/-- **C43** for `float` matrices: if `A` is invertible and every exact intermediate value is a `float`, then `res`
holds exactly the inverse.
Missing from the full property: a bound on the rounding error when intermediate values are not representable; failure is
not signalled, see `C43_refuted`. -/
theorem C43_float_partial {mem : Mem} {res mat m : Nat} {A R : Nat → Nat → Nat} {Q B : Nat → Nat → ℚ} (hwf : mem.WF)
    (hne : mat ≠ res) (b : m * m ≤ 536870911) (ha : IsMat mem mat 4 m m A) (hr : IsMat mem res 4 m m R)
    (hq : ∀ i j, i < m → j < m → FloatIs f32 (A i j) (Q i j)) (hrep : RepRun m Q) (hinv : LeftInverse m B Q) :
    ∃ mem' R' P, invert_matrix_float res mat m mem = .ok ((), mem') ∧ OnlyBlocks mem mem' mat res ∧
      IsMat mem' res 4 m m R' ∧ (∀ i j, i < m → j < m → FloatIs f32 (R' i j) (P i j)) ∧ LeftInverse m P Q := by
  obtain ⟨mem', h1, h2, h3, h4⟩ := C43_refines hwf hne b ha hr
  have ag := agree_loop m 0 (by omega) (A, gId floatArith) (Q, gId (fieldArith ℚ)) ⟨hq, agree_id m⟩ hrep
  exact ⟨mem', _, _, h1, h2, h4, ag.2, (C43_exact_partial hinv).2⟩

theorem rep_dyadic (n : ℤ) (k : Nat) (hn : |n| ≤ 2 ^ 24) (hk : k ≤ 100) : f32.Rep (n / 2 ^ k) := by
  refine ⟨n, -(k:ℤ), by rw [zpow_neg, zpow_natCast]; ring, hn, ?_, ?_⟩
  · show -149 ≤ -(k:ℤ)
    omega
  · have h1 : |(n / 2 ^ k : ℚ)| ≤ 2 ^ 24 := by
      rw [abs_div, abs_of_pos (show (0:ℚ) < 2 ^ k by positivity)]
      have : |(n:ℚ)| ≤ 2 ^ 24 := by exact_mod_cast hn
      refine le_trans (div_le_self (abs_nonneg _) ?_) this
      exact one_le_pow₀ (by norm_num)
    refine lt_of_le_of_lt h1 ?_
    exact pow_lt_pow_right₀ (by norm_num) (by decide)

/-- a decidable sufficient condition -/
def dyadicCheck (q : ℚ) : Bool := decide (q.den ∣ 2 ^ 20) && decide (|q.num| ≤ 16)

theorem rep_of_check {q : ℚ} (h : dyadicCheck q = true) : f32.Rep q := by
  unfold dyadicCheck at h
  rw [Bool.and_eq_true, decide_eq_true_eq, decide_eq_true_eq] at h
  obtain ⟨k, hk, e⟩ := (Nat.dvd_prime_pow Nat.prime_two).1 h.1
  rw [← Rat.num_div_den q, e]
  push_cast
  exact rep_dyadic q.num k (le_trans h.2 (by norm_num)) (by omega)

/-- the elimination of [[0, 2], [4, 1]] (with a row exchange) stays in `float` -/
example : RepRun 2 demoQ := by
  have p0 : gPivot (fieldArith ℚ) 2 0 (demoQ, gId (fieldArith ℚ)) = some (gSwap 0 1 demoQ, gSwap 0 1 (gId (fieldArith ℚ))) :=
    rfl
  have p1 : gPivot (fieldArith ℚ) 2 1 (gElim (fieldArith ℚ) 2 0 (gSwap 0 1 demoQ, gSwap 0 1 (gId (fieldArith ℚ))))
      = some (gElim (fieldArith ℚ) 2 0 (gSwap 0 1 demoQ, gSwap 0 1 (gId (fieldArith ℚ)))) := by
    unfold gPivot
    rw [if_neg (by decide +kernel)]
  unfold RepRun RepLoop
  rw [p0]
  refine ⟨⟨by decide +kernel, rep_of_check (by decide +kernel), ?_, ?_, ?_⟩, ?_⟩
  · intro b hb; interval_cases b <;> exact rep_of_check (by decide +kernel)
  · intro b hb; interval_cases b <;> exact rep_of_check (by decide +kernel)
  · intro j hj hne
    interval_cases j
    · exact absurd rfl hne
    · refine ⟨fun b hb => ?_, fun b hb => ?_⟩ <;> interval_cases b <;>
        exact ⟨rep_of_check (by decide +kernel), rep_of_check (by decide +kernel)⟩
  · unfold RepLoop
    rw [p1]
    refine ⟨⟨by decide +kernel, rep_of_check (by decide +kernel), ?_, ?_, ?_⟩, trivial⟩
    · intro b hb; interval_cases b <;> exact rep_of_check (by decide +kernel)
    · intro b hb; interval_cases b <;> exact rep_of_check (by decide +kernel)
    · intro j hj hne
      interval_cases j
      · refine ⟨fun b hb => ?_, fun b hb => ?_⟩ <;> interval_cases b <;>
          exact ⟨rep_of_check (by decide +kernel), rep_of_check (by decide +kernel)⟩
      · exact absurd rfl hne

/-- **C43** is false of the code as far as failure is concerned: the function returns nothing, and for every matrix
(of every size) whose first column is zero it returns normally, leaving the identity in `res`. -/
theorem C43_refuted {mem : Mem} {res mat m : Nat} {A R : Nat → Nat → Nat} (hwf : mem.WF) (hne : mat ≠ res)
    (b : m * m ≤ 536870911) (ha : IsMat mem mat 4 m m A) (hr : IsMat mem res 4 m m R) (hm : 0 < m)
    (hz : ∀ i, i < m → FloatIs f32 (A i 0) 0) :
    ∃ mem', invert_matrix_float res mat m mem = .ok ((), mem') ∧ IsMat mem' mat 4 m m A ∧
      IsMat mem' res 4 m m (fun i j => if i = j then 0x3F800000 else 0) := by
  obtain ⟨mem', h1, h2, h3, h4⟩ := C43_refines hwf hne b ha hr
  have hf : ∀ f r, r + f = m → gFind floatArith A 0 f r = m := by
    intro f
    induction f with
    | zero => intro r hr; unfold gFind; omega
    | succ f ih =>
      intro r hr
      unfold gFind
      have : floatArith.isZero (A r 0) = true := by
        show isZeroF (A r 0) = true
        rw [isZeroF_exact (hz r (by omega))]; rfl
      rw [if_pos this]
      exact ih (r+1) (by omega)
  have e : gInvert floatArith m A = ((A, gId floatArith), false) := by
    obtain ⟨k, rfl⟩ : ∃ k, m = k + 1 := ⟨m - 1, by omega⟩
    unfold gInvert gLoop
    have : gPivot floatArith (k+1) 0 (A, gId floatArith) = none := by
      unfold gPivot
      have h0 : floatArith.isZero (A 0 0) = true := by
        show isZeroF (A 0 0) = true
        rw [isZeroF_exact (hz 0 hm)]; rfl
      rw [if_pos h0, if_pos (hf _ _ (by omega))]
    rw [this]
  rw [e] at h3 h4
  exact ⟨mem', h1, h3, h4⟩

/-- a 2 x 2 matrix with zero first column and an output matrix, in a well-formed heap -/
example : ∃ mem : Mem, mem.WF ∧ IsMat mem 0 4 2 2 (fun _ j => if j = 0 then 0 else 0x3F800000) ∧
    IsMat mem 1 4 2 2 (fun _ _ => 0) ∧ FloatIs f32 0 0 := by
  refine ⟨{ (Mem.empty.putM 0 4 2 2 (fun _ j => if j = 0 then 0 else 0x3F800000)).putM 1 4 2 2 (fun _ _ => 0) with next := 2 },
    ?_, ?_, ?_, ⟨false, by decide +kernel⟩⟩
  · intro h hh
    refine ⟨?_, rfl, rfl⟩
    have h2 : 2 ≤ h := hh
    show ((Mem.empty.put 0 _ _).put 1 _ _).blk h = none
    rw [put_blk_ne _ _ _ (by omega), put_blk_ne _ _ _ (by omega)]
    rfl
  · have := (holdsM_putM (d := 0) (w := 4) (R := 2) (C := 2) (A := fun _ j => if j = 0 then 0 else 0x3F800000) Mem.empty
      (by intro i j _ _; beta_reduce; split <;> decide)).putM_ne (d' := 1) (w' := 4) (R' := 2) (C' := 2)
      (A' := fun _ _ => 0) (by decide)
    exact isMat_iff.2 ⟨this.1, this.2⟩
  · have := holdsM_putM (d := 1) (w := 4) (R := 2) (C := 2) (A := fun _ _ => 0)
      (Mem.empty.putM 0 4 2 2 (fun _ j => if j = 0 then 0 else 0x3F800000)) (by intro i j _ _; show (0:Nat) < 256 ^ 4; decide)
    exact isMat_iff.2 ⟨this.1, this.2⟩

end HyperCV
