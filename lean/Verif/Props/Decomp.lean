/- Properties C86-C88: the norm, the QR decomposition and the eigenvectors. -/
import Verif.Proof.Qr
import Verif.Proof.FloatRoot
import Verif.Proof.Eig

namespace HyperCV
open Spec

namespace Spec

/-- the Euclidean length of the vector `x 0`, ..., `x (n-1)` -/
noncomputable def length (n : Nat) (x : Nat → ℚ) : ℝ := Real.sqrt (∑ i ∈ Finset.range n, (x i : ℝ) ^ 2)

/-- `Q` times `R` is the `n` x `n` matrix `A` up to `ε` in every entry, and `R` is upper triangular -/
def NearQR (ε : ℚ) (n : Nat) (A Q R : Nat → Nat → ℚ) : Prop :=
  (∀ i j, i < n → j < n → |∑ k ∈ Finset.range n, Q i k * R k j - A i j| ≤ ε) ∧ ∀ k j, j < k → k < n → R k j = 0

/-- column `c` of `V` is, up to `ε` in every entry, multiplied by `l` when the `n` x `n` matrix `A` is applied to it -/
def NearEigen (ε : ℚ) (n : Nat) (A V : Nat → Nat → ℚ) (c : Nat) (l : ℚ) : Prop :=
  ∀ i, i < n → |∑ k ∈ Finset.range n, A i k * V k c - l * V i c| ≤ ε

end Spec

variable {m : Mem} {a q r n : Nat}

theorem wf_free (hm : m.WF) : ∀ x, m.next ≤ x → m.blk x = none := fun x hx => (hm x hx).1

/-! ### C86: the norm -/

/-- **C86**, the part that holds: for every vector of up to 2^20 finite `float`s whose squared length lies between 2^-100 and 2^126 the result is the
Euclidean length up to a relative error of `(n+3) / 2^23`, and nothing is changed.  Missing: longer and shorter vectors, see the refutations. -/
theorem C86_norm_partial {f : Nat → Nat} {x : Nat → ℚ} (hf : IsArray m a 4 n f) (hx : ∀ i, i < n → (f32.decode (f i)).Is (x i)) (hn : n ≤ 2 ^ 20)
    (h1 : (2:ℚ) ^ (-100 : ℤ) ≤ ∑ i ∈ Finset.range n, x i ^ 2) (h2 : ∑ i ∈ Finset.range n, x i ^ 2 ≤ 2 ^ 126) :
    ∃ v w, matrix_norm_float a n m = .ok (v, m) ∧ v.Is w ∧ |(w:ℝ) - Spec.length n x| ≤ (n + 3) / 2 ^ 23 * Spec.length n x := by
  obtain ⟨w, w1, w2⟩ := norm_err hn hx h1 h2
  exact ⟨_, w, norm_run (isArray_iff.1 hf), w1.1, w2⟩

example : ∃ (m : Mem) (f : Nat → Nat) (x : Nat → ℚ), IsArray m 0 4 2 f ∧ (∀ i, i < 2 → (f32.decode (f i)).Is (x i)) ∧ (2:ℚ) ^ (-100 : ℤ) ≤ ∑ i ∈ Finset.range 2, x i ^ 2 ∧
    ∑ i ∈ Finset.range 2, x i ^ 2 ≤ 2 ^ 126 := by
  refine ⟨(Mem.empty.grow 8 (encN 4 fun i => if i = 0 then 1077936128 else 1082130432)), fun i => if i = 0 then 1077936128 else 1082130432,
    fun i => if i = 0 then 3 else 4, ?_, ?_, ?_, ?_⟩
  · exact isArray_iff.2 ⟨grow_holds _ _ _, fun i _ => by beta_reduce; split <;> decide⟩
  · intro i hi
    rcases i with _ | _ | i
    · exact ⟨false, by decide +kernel⟩
    · exact ⟨false, by decide +kernel⟩
    · omega
  · norm_num [Finset.sum_range_succ, zpow_neg]
  · norm_num [Finset.sum_range_succ]

/-- **C86 is false in general**: the vector whose only element is 2^70 has the length 2^70, a `float`, but the result is infinite, because the square is not. -/
theorem C86_overflow_refuted {f : Nat → Nat} (hf : IsArray m a 4 1 f) (h : f32.decode (f 0) = .fin false (2 ^ 70)) :
    Spec.length 1 (fun _ => 2 ^ 70) = 2 ^ 70 ∧ matrix_norm_float a 1 m = .ok (.inf false, m) := by
  constructor
  · unfold Spec.length
    simp only [Finset.sum_range_one]
    push_cast
    exact Real.sqrt_sq (by positivity)
  · have := norm_run (isArray_iff.1 hf)
    rw [show ((1:Nat):Int) = 1 from rfl] at this
    rw [this]
    have e : normFold 1 (fun i => f32.decode (f i)) = normFold 1 (fun _ => .fin false (2 ^ 70)) := by
      unfold normFold
      simp [h]
    rw [e]
    exact congrArg (fun v => Except.ok (v, m)) (by decide +kernel)

/-- **C86 is false in general**: the vector whose only element is 2^-80 has the length 2^-80, a `float`, but the result is zero. -/
theorem C86_underflow_refuted {f : Nat → Nat} (hf : IsArray m a 4 1 f) (h : f32.decode (f 0) = .fin false (1 / 2 ^ 80)) :
    Spec.length 1 (fun _ => 1 / 2 ^ 80) = 1 / 2 ^ 80 ∧ matrix_norm_float a 1 m = .ok (.fin false 0, m) := by
  constructor
  · unfold Spec.length
    simp only [Finset.sum_range_one]
    push_cast
    exact Real.sqrt_sq (by positivity)
  · have := norm_run (isArray_iff.1 hf)
    rw [show ((1:Nat):Int) = 1 from rfl] at this
    rw [this]
    have e : normFold 1 (fun i => f32.decode (f i)) = normFold 1 (fun _ => .fin false (1 / 2 ^ 80)) := by
      unfold normFold
      simp [h]
    rw [e]
    exact congrArg (fun v => Except.ok (v, m)) (by decide +kernel)

example : ∃ (m : Mem) (f : Nat → Nat), IsArray m 0 4 1 f ∧ f32.decode (f 0) = .fin false (2 ^ 70) :=
  ⟨Mem.empty.grow 4 (encN 4 fun _ => 1652555776), fun _ => 1652555776, isArray_iff.2 ⟨grow_holds _ _ _, fun _ _ => by beta_reduce; decide⟩, by decide +kernel⟩

example : ∃ (m : Mem) (f : Nat → Nat), IsArray m 0 4 1 f ∧ f32.decode (f 0) = .fin false (1 / 2 ^ 80) :=
  ⟨Mem.empty.grow 4 (encN 4 fun _ => 394264576), fun _ => 394264576, isArray_iff.2 ⟨grow_holds _ _ _, fun _ _ => by beta_reduce; decide⟩, by decide +kernel⟩

/-! ### C87: the QR decomposition -/

/-- the quotient by a number near the length -/
theorem unit_err {v w : FV} {x y : ℚ} {N d : ℝ} (hv : v.Is x) (hw : w.Is y) (hN : 0 < N) (hx : |(x:ℝ)| ≤ N) (hd : d ≤ 1 / 2) (hy : |(y:ℝ) - N| ≤ d * N) :
    ∃ z, (f32.div v w).Is z ∧ |(z:ℝ) - x / N| ≤ 2 * d + 2 / 2 ^ 23 := by
  have h1 := abs_le.1 hy
  have hdN : d * N ≤ N / 2 := by nlinarith
  have hy0 : N / 2 ≤ (y:ℝ) := by linarith
  have hyp : (0:ℝ) < y := by linarith
  have hyq : (0:ℚ) < y := by exact_mod_cast hyp
  have hq : |(x:ℝ) / y| ≤ 2 := by
    rw [abs_div, abs_of_pos hyp, div_le_iff₀ hyp]
    linarith
  have hq' : |x / y| ≤ 2 := by
    have : ((|x / y| : ℚ) : ℝ) ≤ ((2 : ℚ) : ℝ) := by push_cast; exact hq
    exact_mod_cast this
  have he : f32.eta ≤ 1 / 2 ^ 24 := by rw [f32_eta]; norm_num [zpow_neg]
  obtain ⟨z, z1, z2⟩ := val_div (F := f32) hv hw hyq.ne' (by
    rw [f32_u, f32_max]
    norm_num at he ⊢
    nlinarith)
  refine ⟨z, z1.1, ?_⟩
  have z3 : |(z:ℝ) - x / y| ≤ 3 / 2 ^ 24 := by
    have : |z - x / y| ≤ 3 / 2 ^ 24 := by
      refine le_trans z2 ?_
      rw [f32_u]
      norm_num at he ⊢
      linarith
    have := (Rat.cast_le (K := ℝ)).2 this
    push_cast at this
    exact this
  have e : (z:ℝ) - x / N = (z - x / y) + (x / y) * ((N - y) / N) := by field_simp; ring
  rw [e]
  refine le_trans (abs_add_le _ _) ?_
  rw [abs_mul, abs_div (N - (y:ℝ)), abs_of_pos hN]
  have h5 : |N - (y:ℝ)| / N ≤ d := by
    rw [div_le_iff₀ hN, abs_sub_comm]; exact hy
  have h6 : |(x:ℝ) / y| * (|N - (y:ℝ)| / N) ≤ 2 * d := by
    have h7 : 0 ≤ |N - (y:ℝ)| / N := by positivity
    calc |(x:ℝ) / y| * (|N - (y:ℝ)| / N) ≤ 2 * (|N - (y:ℝ)| / N) := mul_le_mul_of_nonneg_right hq h7
      _ ≤ 2 * d := by linarith
  norm_num at z3 ⊢
  linarith

theorem small_size (hn : n * n ≤ 2147483647) : n ≤ 2 ^ 16 := by
  by_contra c
  have : 2 ^ 16 + 1 ≤ n := by omega
  have := Nat.mul_le_mul this this
  omega

/-- **C87**, the part that holds: for every square matrix whose first column is finite with a squared length between 2^-100 and 2^126 the call returns, the
first column of the first factor is the first column divided by its length up to `(n+4) / 2^22` in every entry, and the first entry of the second factor is that
length up to the relative error `(n+3) / 2^23`.  The entries of the second factor below the diagonal are not written, and of the memory that existed only the
two factors change.  Missing: the other columns, see the refutation. -/
theorem C87_first_column_partial {A Q0 R0 : Nat → Nat → Nat} {x : Nat → ℚ} (hm : m.WF) (hA : IsMat m a 4 n n A) (hQ : IsMat m q 4 n n Q0) (hR : IsMat m r 4 n n R0)
    (hne1 : a ≠ q) (hne2 : a ≠ r) (hne3 : q ≠ r) (hn : n * n ≤ 2147483647) (hx : ∀ i, i < n → (f32.decode (A i 0)).Is (x i))
    (h1 : (2:ℚ) ^ (-100 : ℤ) ≤ ∑ i ∈ Finset.range n, x i ^ 2) (h2 : ∑ i ∈ Finset.range n, x i ^ 2 ≤ 2 ^ 126) :
    ∃ m' Q R, matrix_QR_float a q r n m = .ok ((), m') ∧ IsMat m' q 4 n n Q ∧ IsMat m' r 4 n n R ∧
      (∀ i, i < n → ∃ z, (f32.decode (Q i 0)).Is z ∧ |(z:ℝ) - x i / Spec.length n x| ≤ (n + 4) / 2 ^ 22) ∧
      (∃ w, (f32.decode (R 0 0)).Is w ∧ |(w:ℝ) - Spec.length n x| ≤ (n + 3) / 2 ^ 23 * Spec.length n x) ∧
      (∀ k j, j < k → k < n → R k j = R0 k j) ∧
      m'.hm = m.hm ∧ m'.sm = m.sm ∧ ∀ h, h ≠ q → h ≠ r → h < m.next → m'.blk h = m.blk h := by
  have n0 : 0 < n := by
    rcases Nat.eq_zero_or_pos n with c | c
    · subst c
      rw [Finset.range_zero, Finset.sum_empty] at h1
      have : (0:ℚ) < 2 ^ (-100 : ℤ) := by positivity
      linarith
    · exact c
  obtain ⟨m', fa, fc, e, q1, r1, k1, k2, t1, t2, t3, t4⟩ := qr_run hne1 hne2 hne3 (wf_free hm) hn (isArray_iff.1 hA) (isArray_iff.1 hQ) (isArray_iff.1 hR)
  have hx' : ∀ i, i < n → (f32.decode ((fun p => A (p / n) (p % n)) (i * n + 0))).Is (x i) := by
    intro i hi
    beta_reduce
    rw [mix_div n0, mix_mod n0]
    exact hx i hi
  have sz := small_size hn
  obtain ⟨w, w1, w2⟩ := norm_err (n := n) (v := fun i => f32.decode ((fun p => A (p / n) (p % n)) (i * n + 0))) (by omega) hx' h1 h2
  have eT : ((∑ i ∈ Finset.range n, x i ^ 2 : ℚ) : ℝ) = ∑ i ∈ Finset.range n, (x i : ℝ) ^ 2 :=
    (map_sum (Rat.castHom ℝ) _ _).trans (Finset.sum_congr rfl fun i _ => Rat.cast_pow _ _)
  have hN : 0 < Spec.length n x := by
    unfold Spec.length
    rw [← eT]
    apply Real.sqrt_pos.2
    have : (0:ℚ) < ∑ i ∈ Finset.range n, x i ^ 2 := lt_of_lt_of_le (by positivity) h1
    exact_mod_cast this
  have hnr : (n:ℝ) ≤ 65536 := by exact_mod_cast sz
  refine ⟨m', _, _, e, isArray_iff.2 q1, isArray_iff.2 r1, ?_, ?_, ?_, t1, t2, t4⟩
  · intro i hi
    have hle : |(x i : ℝ)| ≤ Spec.length n x := by
      unfold Spec.length
      apply Real.abs_le_sqrt
      exact Finset.single_le_sum (f := fun i => (x i : ℝ) ^ 2) (fun _ _ => sq_nonneg _) (Finset.mem_range.2 hi)
    obtain ⟨z, z1, z2⟩ := unit_err (d := (n + 3) / 2 ^ 23) (hx' i hi) w1.1 hN hle (by norm_num; linarith) w2
    refine ⟨z, ?_, ?_⟩
    · unfold qrQ
      rw [f32_dec_enc (good_div _ _ _)]
      exact z1
    · refine le_trans z2 (le_of_eq ?_)
      ring
  · refine ⟨w, ?_, w2⟩
    unfold qrR
    rw [if_neg (Nat.lt_irrefl 0), if_pos rfl, f32_dec_enc (show f32.Good (qrNorm n (fun p => A (p / n) (p % n)) 0) from good_rootF _)]
    exact w1.1
  · intro k j hj hk
    unfold qrR
    rw [if_neg (by omega), if_neg (by omega)]
    beta_reduce
    rw [mix_div (show j < n by omega), mix_mod (show j < n by omega)]

/-- **every call loses memory**: the two columns that are allocated stay allocated, for every size -/
theorem C87_leak {A Q0 R0 : Nat → Nat → Nat} (hm : m.WF) (hA : IsMat m a 4 n n A) (hQ : IsMat m q 4 n n Q0) (hR : IsMat m r 4 n n R0)
    (hne1 : a ≠ q) (hne2 : a ≠ r) (hne3 : q ≠ r) (hn : n * n ≤ 2147483647) :
    ∃ m', matrix_QR_float a q r n m = .ok ((), m') ∧
      (m.blk m.next = none ∧ ∃ l, m'.blk m.next = some l ∧ l.length = n * 4) ∧
      (m.blk (m.next + 1) = none ∧ ∃ l, m'.blk (m.next + 1) = some l ∧ l.length = n * 4) := by
  obtain ⟨m', fa, fc, e, q1, r1, k1, k2, t1, t2, t3, t4⟩ := qr_run hne1 hne2 hne3 (wf_free hm) hn (isArray_iff.1 hA) (isArray_iff.1 hQ) (isArray_iff.1 hR)
  exact ⟨m', e, ⟨wf_free hm _ (le_refl _), _, k1.1, by simp [tab]⟩, ⟨wf_free hm _ (by omega), _, k2.1, by simp [tab]⟩⟩

/-- the sum of a column with a single one -/
theorem sum_one {v : Nat → FV} {j : Nat} (hv : ∀ i, i < n → (v i).Is (if i = j then 1 else 0)) :
    (sumFold n v).Is (if j < n then 1 else 0) := by
  unfold sumFold
  induction n with
  | zero => exact ⟨false, rfl⟩
  | succ n ih =>
    rw [List.range_succ, List.foldl_append]
    have h1 := ih (fun i hi => hv i (by omega))
    have h2 := hv n (by omega)
    have e : (if j < n + 1 then (1:ℚ) else 0) = (if j < n then 1 else 0) + (if n = j then 1 else 0) := by
      by_cases c : j < n
      · rw [if_pos c, if_pos (by omega), if_neg (by omega)]; norm_num
      · by_cases c2 : n = j
        · rw [if_neg c, if_pos (by omega), if_pos c2]; norm_num
        · rw [if_neg c, if_neg (by omega), if_neg c2]; norm_num
    rw [e]
    refine is_add h1 h2 ?_
    rw [← e]
    split
    · exact_mod_cast rep32_int (n := 1) (by norm_num)
    · exact rep_zero _

/-- **C87 is false**: for every size above one the decomposition of the identity returns a first factor that cannot be completed: no upper triangular second
factor gives a product within 1/2 of the identity. -/
theorem C87_identity_refuted {A Q0 R0 : Nat → Nat → Nat} (hm : m.WF) (hA : IsMat m a 4 n n A) (hQ : IsMat m q 4 n n Q0) (hR : IsMat m r 4 n n R0)
    (hne1 : a ≠ q) (hne2 : a ≠ r) (hne3 : q ≠ r) (hn : n * n ≤ 2147483647) (h2 : 2 ≤ n)
    (hI : ∀ i j, i < n → j < n → (f32.decode (A i j)).Is (if i = j then 1 else 0)) :
    ∃ m' Q, matrix_QR_float a q r n m = .ok ((), m') ∧ IsMat m' q 4 n n Q ∧
      ∀ Qv Rv, (∀ i j, i < n → j < n → (f32.decode (Q i j)).Is (Qv i j)) → ¬ NearQR (1 / 2) n (fun i j => if i = j then 1 else 0) Qv Rv := by
  obtain ⟨m', fa, fc, e, q1, r1, k1, k2, t1, t2, t3, t4⟩ := qr_run hne1 hne2 hne3 (wf_free hm) hn (isArray_iff.1 hA) (isArray_iff.1 hQ) (isArray_iff.1 hR)
  refine ⟨m', _, e, isArray_iff.2 q1, ?_⟩
  have sz := small_size hn
  have hA' : ∀ i j, i < n → j < n → (f32.decode ((fun p => A (p / n) (p % n)) (i * n + j))).Is (if i = j then 1 else 0) := by
    intro i j hi hj
    beta_reduce
    rw [mix_div hj, mix_mod hj]
    exact hI i j hi hj
  generalize (fun p => A (p / n) (p % n)) = B at hA'
  -- a zero divided by a norm
  have key : ∀ j, j < n → ∀ x : Nat → ℚ, (∀ i, i < n → (f32.decode (qrWork n B j i)).Is (x i)) → x 1 = 0 → (∀ i, i < n → |x i| ≤ 1) → (∃ i, i < n ∧ x i ^ 2 = 1) →
      (f32.decode (qrQ n B 1 j)).Is 0 := by
    intro j hj x hx x1 hb ⟨i0, hi0, hs⟩
    have l1 : 1 ≤ ∑ i ∈ Finset.range n, x i ^ 2 := by
      have := Finset.single_le_sum (f := fun i => x i ^ 2) (fun _ _ => sq_nonneg _) (Finset.mem_range.2 hi0)
      simpa [hs] using this
    have l2 : ∑ i ∈ Finset.range n, x i ^ 2 ≤ n := by
      have : ∑ i ∈ Finset.range n, x i ^ 2 ≤ ∑ i ∈ Finset.range n, (1:ℚ) := Finset.sum_le_sum fun i hi => by
        have := hb i (Finset.mem_range.1 hi)
        rw [← sq_abs]
        nlinarith [abs_nonneg (x i)]
      simpa using this
    have hnq : (n:ℚ) ≤ 65536 := by exact_mod_cast sz
    have hnr : (n:ℝ) ≤ 65536 := by exact_mod_cast sz
    obtain ⟨w, w1, w2⟩ := norm_err (n := n) (v := fun i => f32.decode (qrWork n B j i)) (by omega) hx
      (le_trans (by norm_num [zpow_neg]) l1) (le_trans l2 (by norm_num; linarith))
    have eT : ((∑ i ∈ Finset.range n, x i ^ 2 : ℚ) : ℝ) = ∑ i ∈ Finset.range n, (x i : ℝ) ^ 2 :=
      (map_sum (Rat.castHom ℝ) _ _).trans (Finset.sum_congr rfl fun i _ => Rat.cast_pow _ _)
    have hN : 0 < Real.sqrt (∑ i ∈ Finset.range n, (x i : ℝ) ^ 2) := by
      rw [← eT]
      apply Real.sqrt_pos.2
      have : (0:ℚ) < ∑ i ∈ Finset.range n, x i ^ 2 := by linarith
      exact_mod_cast this
    have hw : w ≠ 0 := by
      rintro rfl
      rw [Rat.cast_zero, zero_sub, abs_neg, abs_of_pos hN] at w2
      have : ((n:ℝ) + 3) / 2 ^ 23 ≤ 1 / 2 := by norm_num; linarith
      nlinarith
    unfold qrQ
    rw [f32_dec_enc (good_div _ _ _)]
    have h0 := hx 1 (by omega)
    rw [x1] at h0
    have := is_div (F := f32) h0 w1.1 hw (by rw [zero_div]; exact rep_zero _)
    rw [zero_div] at this
    exact this
  have c0 : (f32.decode (qrQ n B 1 0)).Is 0 := by
    refine key 0 (by omega) (fun i => if i = 0 then 1 else 0) (fun i hi => hA' i 0 hi (by omega)) rfl ?_ ⟨0, by omega, by norm_num⟩
    intro i _
    beta_reduce
    split <;> norm_num
  have s1 : (qrSum n B 1).Is 1 := by
    have := sum_one (n := n) (j := 1) (v := fun i => f32.decode (B (i * n + 1))) (fun i hi => hA' i 1 hi (by omega))
    rw [if_pos (by omega)] at this
    exact this
  have c1 : (f32.decode (qrQ n B 1 1)).Is 0 := by
    refine key 1 (by omega) (fun i => (if i = 1 then 1 else 0) - 1) ?_ (by norm_num) ?_ ⟨0, by omega, by norm_num⟩
    · intro i hi
      show (f32.decode (f32.encode (f32.sub (f32.decode (B (i * n + 1))) (qrSum n B 1)))).Is _
      rw [f32_dec_enc (good_sub _ _ _)]
      refine is_sub (hA' i 1 hi (by omega)) s1 ?_
      split
      · rw [sub_self]; exact rep_zero _
      · have := rep32_int (n := -1) (by norm_num)
        push_cast at this
        rw [zero_sub]; exact this
    · intro i _
      beta_reduce
      split <;> norm_num
  intro Qv Rv hv hqr
  have is_inj : ∀ {v : FV} {x y : ℚ}, v.Is x → v.Is y → x = y := by
    rintro v x y ⟨s, rfl⟩ ⟨s', h⟩
    injection h
  have v0 : Qv 1 0 = 0 := is_inj (hv 1 0 (by omega) (by omega)) c0
  have v1 : Qv 1 1 = 0 := is_inj (hv 1 1 (by omega) (by omega)) c1
  have h := hqr.1 1 1 (by omega) (by omega)
  have z : ∑ k ∈ Finset.range n, Qv 1 k * Rv k 1 = 0 := by
    refine Finset.sum_eq_zero fun k hk => ?_
    rcases k with _ | _ | k
    · rw [v0, zero_mul]
    · rw [v1, zero_mul]
    · rw [hqr.2 (k + 1 + 1) 1 (by omega) (Finset.mem_range.1 hk), mul_zero]
  rw [z] at h
  norm_num at h

/-- a memory whose blocks are arrays of `float`s -/
def floatMem (bs : List (List Nat)) : Mem :=
  { Mem.empty with blk := fun h => (bs[h]?).map fun l => tab (l.length * 4) (encN 4 fun i => l.getD i 0), next := bs.length }

theorem floatMem_holds {bs : List (List Nat)} {h : Nat} {l : List Nat} (hl : bs[h]? = some l) (hb : ∀ i, i < l.length → l.getD i 0 < 256 ^ 4) :
    HoldsN (floatMem bs) h 4 l.length (fun i => l.getD i 0) := by
  refine ⟨?_, hb⟩
  unfold Holds floatMem
  simp only [hl, Option.map_some]

theorem floatMem_WF (bs : List (List Nat)) : (floatMem bs).WF := by
  intro x hx
  refine ⟨?_, rfl, rfl⟩
  show (bs[x]?).map _ = none
  rw [List.getElem?_eq_none (show bs.length ≤ x from hx)]
  rfl

/-- the entries of a 2 x 2 matrix, row by row -/
def mat2 (a b c d : Nat) (i j : Nat) : Nat := [a, b, c, d].getD (i * 2 + j) 0

theorem floatMem_mat2 {bs : List (List Nat)} {h : Nat} {a b c d : Nat} (hl : bs[h]? = some [a, b, c, d]) (h1 : a < 256 ^ 4) (h2 : b < 256 ^ 4) (h3 : c < 256 ^ 4)
    (h4 : d < 256 ^ 4) : IsMat (floatMem bs) h 4 2 2 (mat2 a b c d) := by
  refine isArray_iff.2 ?_
  have := floatMem_holds hl (by
    intro i hi
    rcases i with _ | _ | _ | _ | i
    · exact h1
    · exact h2
    · exact h3
    · exact h4
    · simp at hi; omega)
  have e : (fun p => mat2 a b c d (p / 2) (p % 2)) = fun i => [a, b, c, d].getD i 0 := by
    funext p
    unfold mat2
    rw [Nat.mul_comm, Nat.div_add_mod]
  show HoldsN _ _ _ _ (fun p => mat2 a b c d (p / 2) (p % 2))
  rw [e]
  exact this

/-- memory with the 2 x 2 identity and room for two factors -/
def qrDemo : Mem := floatMem [[1065353216, 0, 0, 1065353216], [0, 0, 0, 0], [0, 0, 0, 0]]

example : qrDemo.WF ∧ IsMat qrDemo 0 4 2 2 (mat2 1065353216 0 0 1065353216) ∧ IsMat qrDemo 1 4 2 2 (mat2 0 0 0 0) ∧ IsMat qrDemo 2 4 2 2 (mat2 0 0 0 0) ∧
    (∀ i j, i < 2 → j < 2 → (f32.decode (mat2 1065353216 0 0 1065353216 i j)).Is (if i = j then 1 else 0)) := by
  refine ⟨floatMem_WF _, floatMem_mat2 rfl (by decide) (by decide) (by decide) (by decide), floatMem_mat2 rfl (by decide) (by decide) (by decide) (by decide),
    floatMem_mat2 rfl (by decide) (by decide) (by decide) (by decide), ?_⟩
  intro i j hi hj
  obtain rfl | rfl : i = 0 ∨ i = 1 := by omega
  all_goals obtain rfl | rfl : j = 0 ∨ j = 1 := by omega
  all_goals exact ⟨false, by decide +kernel⟩

/-! ### C88: the eigenvectors -/

/-- **C88**, what holds for every square matrix and every list of numbers: the call returns, writes the vectors and nothing else, and releases what it
allocated.  Missing: that the columns are eigenvectors, see the refutations. -/
theorem C88_memory_partial {vec val : Nat} {A V0 : Nat → Nat → Nat} {l : Nat → Nat} (hm : m.WF) (hA : IsMat m a 4 n n A) (hV : IsMat m vec 4 n n V0)
    (hl : IsArray m val 4 n l) (h1 : a ≠ vec) (h2 : val ≠ vec) (hn : n * n ≤ 2147483647) :
    ∃ m' V, cal_eigen_vector_float a vec val n n m = .ok ((), m') ∧ IsMat m' vec 4 n n V ∧ OnlyBlocks m m' vec vec := by
  obtain ⟨m', F, e, f1, t1, t2, t3⟩ := eig_safe h1 h2 (wf_free hm) hn (isArray_iff.1 hA) (isArray_iff.1 hl) (isArray_iff.1 hV)
  refine ⟨m', fun i j => F (i * n + j), e, isArray_iff.2 ?_, t1, t2, fun x hx _ => t3 x hx⟩
  have : (fun p => (fun i j => F (i * n + j)) (p / n) (p % n)) = F := by
    funext p
    beta_reduce
    rw [Nat.mul_comm, Nat.div_add_mod]
  rw [this]
  exact f1

/-- the matrix ((2, 1), (1, 2)) with its eigenvalues 3 and 1 -/
def eigDemo : Mem := floatMem [[1073741824, 1065353216, 1065353216, 1073741824], [0, 0, 0, 0], [1077936128, 1065353216]]

example : eigDemo.WF ∧ IsMat eigDemo 0 4 2 2 (mat2 1073741824 1065353216 1065353216 1073741824) ∧ IsMat eigDemo 1 4 2 2 (mat2 0 0 0 0) ∧
    IsArray eigDemo 2 4 2 (fun i => [1077936128, 1065353216].getD i 0) :=
  ⟨floatMem_WF _, floatMem_mat2 rfl (by decide) (by decide) (by decide) (by decide), floatMem_mat2 rfl (by decide) (by decide) (by decide) (by decide),
    isArray_iff.2 (floatMem_holds (l := [1077936128, 1065353216]) rfl (by decide))⟩

/-- the bytes of a block after a computation -/
def blkOf {α : Type} (x : Except Fail (α × Mem)) (h : Nat) : Option (List UInt8) :=
  match x with
  | .ok (_, m) => m.blk h
  | .error _ => none

theorem blkOf_some {α : Type} {x : Except Fail (α × Mem)} {h : Nat} {b : List UInt8} (e : blkOf x h = some b) : ∃ r m', x = .ok (r, m') ∧ m'.blk h = some b := by
  unfold blkOf at e
  split at e
  · exact ⟨_, _, rfl, e⟩
  · cases e

theorem mat2_of_blk {m : Mem} {h a b c d : Nat} (e : m.blk h = some (tab 16 (encN 4 fun i => [a, b, c, d].getD i 0))) (h1 : a < 256 ^ 4) (h2 : b < 256 ^ 4)
    (h3 : c < 256 ^ 4) (h4 : d < 256 ^ 4) : IsMat m h 4 2 2 (mat2 a b c d) := by
  refine isArray_iff.2 ?_
  have e2 : (fun p => mat2 a b c d (p / 2) (p % 2)) = fun i => [a, b, c, d].getD i 0 := by
    funext p
    unfold mat2
    rw [Nat.mul_comm, Nat.div_add_mod]
  show HoldsN _ _ _ _ (fun p => mat2 a b c d (p / 2) (p % 2))
  rw [e2]
  refine ⟨e, ?_⟩
  intro i hi
  rcases i with _ | _ | _ | _ | i
  · exact h1
  · exact h2
  · exact h3
  · exact h4
  · omega

/-- **C88 is false**: for the symmetric matrix ((2, 1), (1, 2)) and its eigenvalue 3 the returned column is not an eigenvector, not even up to 1: it is the one
that belongs to the eigenvalue 1. -/
theorem C88_direction_refuted : ∃ m' V Vv, cal_eigen_vector_float 0 1 2 2 2 eigDemo = .ok ((), m') ∧ IsMat m' 1 4 2 2 V ∧
    (∀ i j, i < 2 → j < 2 → (f32.decode (V i j)).Is (Vv i j)) ∧
    NearEigen 0 2 (fun i j => if i = j then 2 else 1) Vv 0 1 ∧ ¬ NearEigen 1 2 (fun i j => if i = j then 2 else 1) Vv 0 3 := by
  have e : blkOf (cal_eigen_vector_float 0 1 2 2 2 eigDemo) 1 = some (tab 16 (encN 4 fun i => [3207922931, 3207922931, 1060439283, 1060439283].getD i 0)) := by
    decide +kernel
  obtain ⟨u, m', e1, e2⟩ := blkOf_some e
  have d1 : f32.decode 3207922931 = .fin true (-(11863283 / 16777216)) := by decide +kernel
  have d2 : f32.decode 1060439283 = .fin false (11863283 / 16777216) := by decide +kernel
  refine ⟨m', _, fun i _ => if i = 0 then -(11863283 / 16777216) else 11863283 / 16777216, e1, mat2_of_blk e2 (by decide) (by decide) (by decide) (by decide),
    ?_, ?_, ?_⟩
  · intro i j hi hj
    obtain rfl | rfl : i = 0 ∨ i = 1 := by omega
    all_goals obtain rfl | rfl : j = 0 ∨ j = 1 := by omega
    · exact ⟨_, d1⟩
    · exact ⟨_, d1⟩
    · exact ⟨_, d2⟩
    · exact ⟨_, d2⟩
  · intro i hi
    obtain rfl | rfl : i = 0 ∨ i = 1 := by omega
    all_goals norm_num [Finset.sum_range_succ]
  · intro h
    have := h 0 (by omega)
    norm_num [Finset.sum_range_succ] at this

/-- the diagonal matrix with the entries 1 and 2 and its eigenvalues -/
def eigDemo2 : Mem := floatMem [[1065353216, 0, 0, 1073741824], [0, 0, 0, 0], [1065353216, 1073741824]]

/-- **C88 is false**: for the diagonal matrix with the entries 1 and 2 the first column consists of something that is not a number -/
theorem C88_nan_refuted : ∃ m' V, cal_eigen_vector_float 0 1 2 2 2 eigDemo2 = .ok ((), m') ∧ IsMat m' 1 4 2 2 V ∧
    f32.decode (V 0 0) = .nan ∧ f32.decode (V 1 0) = .nan := by
  have e : blkOf (cal_eigen_vector_float 0 1 2 2 2 eigDemo2) 1 = some (tab 16 (encN 4 fun i => [2143289344, 0, 2143289344, 1065353216].getD i 0)) := by
    decide +kernel
  obtain ⟨u, m', e1, e2⟩ := blkOf_some e
  exact ⟨m', _, e1, mat2_of_blk e2 (by decide) (by decide) (by decide) (by decide), by decide +kernel, by decide +kernel⟩

end HyperCV
