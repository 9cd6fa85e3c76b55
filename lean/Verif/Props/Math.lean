/- C39, C40, C61: sorting, factorial, means. -/
import Verif.Proof.Math
import Verif.Props.Image
import Mathlib.Tactic.IntervalCases

namespace HyperCV
open Spec

/-! ### C39 -/

/-- **C39**: for every array of `n` floats without NaN, `sort_array_down_float(a, n)` returns, the array then is a
rearrangement of the input (element `i` is the former element `σ i` for a permutation `σ` of the indices) in
non-increasing order, and nothing else is modified. -/
theorem C39_sort {m : Mem} {a n : Nat} {v : Nat → Nat} (hn : n ≤ 2147483647) (h : IsArray m a 4 n v)
    (hnan : ∀ i, i < n → f32.decode (v i) ≠ .nan) :
    ∃ v' m', sort_array_down_float a n m = .ok ((), m') ∧ IsArray m' a 4 n v' ∧ OnlyBlock m m' a ∧
      (∃ σ : Nat → Nat, (∀ i, i < n → σ i < n) ∧ (∀ i j, i < n → j < n → σ i = σ j → i = j) ∧
        ∀ i, i < n → v' i = v (σ i)) ∧
      ∀ i j, i < j → j < n → FV.lt (f32.decode (v' i)) (f32.decode (v' j)) = false := by
  have hh := isArray_iff.1 h
  rcases Nat.eq_zero_or_pos n with h0 | h0
  · subst h0
    refine ⟨v, m, rfl, h, ⟨rfl, rfl, rfl, fun _ _ => rfl⟩, Rearr.refl 0 v, ?_⟩
    intro i j _ hj; omega
  · obtain ⟨g, r1, r2, r3⟩ := rounds_run (m := m) (a := a) (n := n) (n - 1) 0 v hh.2 hnan (by omega)
      (fun p q _ h2 h3 => by omega)
    rw [hh.put_self] at r1
    refine ⟨g, m.putN a 4 n g, ?_, ?_, onlyBlock_put m a _ _, r2, r3⟩
    · unfold sort_array_down_float
      have e : (CI.lit (n:Int) - CI.lit 1 : CI) = CI.lit ((n - 1 : Nat) : Int) := by
        rw [CI.sub_ok (by constructor <;> omega)]
        congr 1; omega
      rw [bind_ok (ev_ok e m), Int.toNat_natCast]
      exact r1
    · obtain ⟨σ, s1, _, s3⟩ := r2
      exact isArray_iff.2 (holdsN_putN m (fun i hi => by rw [s3 i hi]; exact hh.2 _ (s1 i hi)))

/-- a heap with one array of four floats 1, -2, 0.5, 1 -/
def demoF32 : Nat → Nat := fun i => if i = 1 then 0xC0000000 else if i = 2 then 0x3F000000 else 0x3F800000

theorem demoArr (w n : Nat) {v : Nat → Nat} (h : ∀ i, i < n → v i < 256 ^ w) :
    IsArray (Mem.empty.putN 1 w n v) 1 w n v := isArray_iff.2 (holdsN_putN _ h)

example : IsArray (Mem.empty.putN 1 4 4 demoF32) 1 4 4 demoF32 ∧
    (∀ i, i < 4 → f32.decode (demoF32 i) ≠ .nan) :=
  ⟨demoArr 4 4 (by decide), by decide +kernel⟩

/-! ### C40 -/

/-- **C40**: for `0 ≤ n ≤ 20`, except `n = 10`, `hypercv_factorial(n)` is `n!`.
Missing from the full property: `n = 10` (`C40_refuted`). -/
theorem C40_factorial_partial {n : Nat} (hn : n ≤ 20) (h10 : n ≠ 10) :
    hypercv_factorial n = .ok (n.factorial : Int) := by
  by_cases h : n ≤ 10
  · have : n < 10 := by omega
    interval_cases n <;> decide
  · unfold hypercv_factorial
    rw [if_neg (by omega), if_neg (by omega)]
    have := factLoop_ok (n - 1) 1 (by
      have : (1 + (n - 1)).factorial ≤ (20).factorial := Nat.factorial_le (by omega)
      have e : Nat.factorial 20 = 2432902008176640000 := by decide
      omega)
    have e1 : ((n:Int) - 1).toNat = n - 1 := by omega
    rw [e1]
    have e2 : 1 + (n - 1) = n := by omega
    rw [e2] at this
    simpa using this

example : (20:Nat) ≤ 20 ∧ (20:Nat) ≠ 10 := by decide

/-- **C40**: negative arguments are rejected with `-1`. -/
theorem C40_negative {n : Int} (h : n < 0) : hypercv_factorial n = .ok (-1) := if_pos h

example : (-3 : Int) < 0 := by decide

/-- **C40** is false of the code: the table entry for 10 is `11!`. -/
theorem C40_refuted : hypercv_factorial 10 = .ok (Nat.factorial 11 : Int) ∧
    hypercv_factorial 10 ≠ .ok (Nat.factorial 10 : Int) := by decide

/-- **C40**, beyond the range of `long`: every `n ≥ 21` overflows (undefined behaviour); no sentinel is returned. -/
theorem C40_overflow {n : Nat} (h : 21 ≤ n) : hypercv_factorial n = .error (.ub .overflow) := by
  unfold hypercv_factorial
  rw [if_neg (by omega), if_neg (by omega)]
  have := factLoop_over (n - 1) 1 (by omega) (by omega)
  have e1 : ((n:Int) - 1).toNat = n - 1 := by omega
  rw [e1]
  simpa using this

example : 21 ≤ 1000 := by decide

/-! ### C61 -/

/-- the sum of the first `k` elements -/
def Spec.partialSum (z : Nat → Int) (k : Nat) : Int := ((List.range k).map z).sum

/-- **C61**, unsigned element types: if the elements and all partial sums are at most 2^24 the mean is the exact mean
rounded once to `float`, and memory is unchanged.
Missing from the full property: larger sums, see `C61_refuted`. -/
theorem C61_unsigned_partial {m : Mem} {t n : Nat} {v : Nat → Nat} (hn0 : 0 < n) (hn : n ≤ 16777216)
    (hs : partialSum (fun i => v i) n ≤ 16777216) :
    (IsArray m t 1 n v → mean_uchar t n m = .ok (f32.round false ((partialSum (fun i => v i) n : ℚ) / n), m)) ∧
    (IsArray m t 2 n v → mean_ushort t n m = .ok (f32.round false ((partialSum (fun i => v i) n : ℚ) / n), m)) ∧
    (IsArray m t 4 n v → mean_uint t n m = .ok (f32.round false ((partialSum (fun i => v i) n : ℚ) / n), m)) := by
  have mono : ∀ k j, partialSum (fun i => v i) k ≤ partialSum (fun i => v i) (k + j) := by
    intro k j
    induction j with
    | zero => exact le_refl _
    | succ j ih =>
      refine le_trans ih ?_
      unfold partialSum
      rw [← Nat.add_assoc, List.range_succ, List.map_append, List.sum_append]
      simp
  have nn : ∀ k, 0 ≤ partialSum (fun i => v i) k := fun k => by
    have := mono 0 k
    rw [Nat.zero_add] at this
    exact le_trans (le_refl _) this
  have hk : ∀ k, k ≤ n → partialSum (fun i => v i) k ≤ 16777216 := fun k hk => by
    obtain ⟨j, rfl⟩ := Nat.exists_eq_add_of_le hk
    exact le_trans (mono k j) hs
  have hz : ∀ i, i < n → |((v i : Nat) : Int)| ≤ 16777216 := by
    intro i hi
    rw [abs_of_nonneg (by omega)]
    have h1 := hk (i+1) hi
    have h2 := nn i
    unfold partialSum at h1 h2
    rw [List.range_succ, List.map_append, List.sum_append] at h1
    simp only [List.map_cons, List.map_nil, List.sum_cons, List.sum_nil] at h1
    omega
  have hs' : ∀ k, k ≤ n → |((List.range k).map (fun i => ((v i : Nat) : Int))).sum| ≤ 16777216 := by
    intro k h
    exact (abs_of_nonneg (nn k)).trans_le (hk k h)
  refine ⟨fun h => ?_, fun h => ?_, fun h => ?_⟩ <;>
  · refine mean_exact hn0 hn (z := fun i => v i) (fun i hi => ?_) hz hs'
    exact bind_ok (f := fun b : Nat => (pure (f32.ofInt (b:Int)) : M FV)) ((isArray_iff.1 h).load hi)

example : (0 < 3 ∧ 3 ≤ 16777216 ∧ partialSum (fun i => (demoF32 i % 1000 : Nat)) 3 ≤ 16777216) ∧
    IsArray (Mem.empty.putN 1 2 3 (fun i => demoF32 i % 1000)) 1 2 3 (fun i => demoF32 i % 1000) :=
  ⟨by decide, demoArr 2 3 (by decide)⟩

/-- **C61**, signed element types (elements stored in two's complement).
Missing from the full property: larger sums, see `C61_refuted`. -/
theorem C61_signed_partial {m : Mem} {t n : Nat} {z : Nat → Int} (hn0 : 0 < n) (hn : n ≤ 16777216)
    (hz : ∀ i, i < n → |z i| ≤ 16777216) (hs : ∀ k, k ≤ n → |partialSum z k| ≤ 16777216) :
    ((∀ i, i < n → -128 ≤ z i ∧ z i ≤ 127) → IsArray m t 1 n (fun i => (z i % 256).toNat) →
      mean_char t n m = .ok (f32.round false ((partialSum z n : ℚ) / n), m)) ∧
    ((∀ i, i < n → -32768 ≤ z i ∧ z i ≤ 32767) → IsArray m t 2 n (fun i => (z i % 65536).toNat) →
      mean_short t n m = .ok (f32.round false ((partialSum z n : ℚ) / n), m)) ∧
    (IsArray m t 4 n (fun i => (z i % 4294967296).toNat) →
      mean_int t n m = .ok (f32.round false ((partialSum z n : ℚ) / n), m)) := by
  refine ⟨fun hr h => ?_, fun hr h => ?_, fun h => ?_⟩
  · refine mean_exact hn0 hn (fun i hi => ?_) hz hs
    refine (bind_ok (f := fun b => (pure (f32.ofInt (sval 1 b)) : M FV)) ((isArray_iff.1 h).load hi)).trans ?_
    have := hr i hi
    have e : sval 1 (z i % 256).toNat = z i := by
      unfold sval; split <;> omega
    rw [e]; rfl
  · refine mean_exact hn0 hn (fun i hi => ?_) hz hs
    refine (bind_ok (f := fun b => (pure (f32.ofInt (sval 2 b)) : M FV)) ((isArray_iff.1 h).load hi)).trans ?_
    have := hr i hi
    have e : sval 2 (z i % 65536).toNat = z i := by
      unfold sval; split <;> omega
    rw [e]; rfl
  · refine mean_exact hn0 hn (fun i hi => ?_) hz hs
    refine (bind_ok (f := fun b => (pure (f32.ofInt (sval 4 b)) : M FV)) ((isArray_iff.1 h).load hi)).trans ?_
    have := abs_le.1 (hz i hi)
    have e : sval 4 (z i % 4294967296).toNat = z i := by
      unfold sval; split <;> omega
    rw [e]; rfl

def demoZ : Nat → Int := fun i => if i = 1 then -100 else 17

example : (∀ i, i < 3 → |demoZ i| ≤ 16777216) ∧ (∀ k, k ≤ 3 → |partialSum demoZ k| ≤ 16777216) ∧
    (∀ i, i < 3 → -128 ≤ demoZ i ∧ demoZ i ≤ 127) ∧
    IsArray (Mem.empty.putN 1 1 3 (fun i => (demoZ i % 256).toNat)) 1 1 3 (fun i => (demoZ i % 256).toNat) :=
  ⟨by decide, by decide, by decide, demoArr 1 3 (by decide)⟩

/-- **C61** is false of the code in general: from 2^24 on the `float` accumulator loses small elements.  For every
array holding 16777216 followed by `n - 1` ones, however many, the sum stays at 16777216. -/
theorem C61_refuted {m : Mem} {t n : Nat} (hn0 : 0 < n)
    (h : IsArray m t 4 n (fun i => if i = 0 then 16777216 else 1)) :
    mean_uint t n m = .ok (f32.div (.fin false 16777216) (f32.ofInt n), m) := by
  unfold mean_uint meanOf
  rw [bind_ok (accSum_run (v := fun i => f32.ofInt ((if i = 0 then 16777216 else 1 : Nat) : Int)) (fun i hi =>
    bind_ok (f := fun b : Nat => (pure (f32.ofInt (b:Int)) : M FV)) ((isArray_iff.1 h).load hi)))]
  have : ∀ k, (List.range (k+1)).foldl (fun r i => f32.add r (f32.ofInt ((if i = 0 then 16777216 else 1 : Nat) : Int)))
      (.fin false 0) = .fin false 16777216 := by
    intro k
    induction k with
    | zero => decide +kernel
    | succ k ih =>
      rw [List.range_succ, List.foldl_append, ih]
      simp only [List.foldl_cons, List.foldl_nil, Nat.succ_ne_zero, if_false]
      decide +kernel
  obtain ⟨k, rfl⟩ : ∃ k, n = k + 1 := ⟨n - 1, by omega⟩
  rw [this k]; rfl

/-- three elements: the result is 5592405.5, the exact mean 5592406 is a `float` -/
example : f32.div (.fin false 16777216) (f32.ofInt 3) = .fin false (11184811 / 2) ∧
    f32.round false (((16777216 + 1 + 1 : Int) : ℚ) / 3) = .fin false 5592406 := by decide +kernel

example : IsArray (Mem.empty.putN 1 4 3 (fun i => if i = 0 then 16777216 else 1)) 1 4 3
    (fun i => if i = 0 then 16777216 else 1) := demoArr 4 3 (by decide)

/-- **C61**, empty arrays: the mean of zero elements is NaN, without touching memory. -/
theorem C61_empty (m : Mem) (t : Nat) : mean_uchar t 0 m = .ok (.nan, m) ∧ mean_int t 0 m = .ok (.nan, m) ∧
    mean_float t 0 m = .ok (.nan, m) ∧ mean_double t 0 m = .ok (.nan, m) := by
  have a : f32.div (.fin false 0) (f32.ofInt 0) = .nan := by decide +kernel
  have b : f64.div (.fin false 0) (f64.ofInt 0) = .nan := by decide +kernel
  exact ⟨congrArg (fun x => Except.ok (x, m)) a, congrArg (fun x => Except.ok (x, m)) a,
    congrArg (fun x => Except.ok (x, m)) a, congrArg (fun x => Except.ok (x, m)) b⟩

end HyperCV
