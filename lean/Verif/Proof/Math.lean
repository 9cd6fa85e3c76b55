import Verif.Model.Math
import Verif.Spec.Typed
import Verif.Proof.DataType
import Verif.Proof.Image
import Mathlib.Data.Nat.Factorial.Basic
import Mathlib.Logic.Equiv.Basic

namespace HyperCV
open Spec

theorem isArray_iff {m : Mem} {h w n : Nat} {a : Nat → Nat} : IsArray m h w n a ↔ HoldsN m h w n a := by
  constructor
  · rintro ⟨h1, f, h2, h3⟩
    refine ⟨?_, h1⟩
    have hb := bytes_iff.1 h2
    refine hb.congr ?_
    intro p hp
    have hw : 0 < w := by rcases Nat.eq_zero_or_pos w with e | e; (subst e; simp at hp); exact e
    have hi : p / w < n := Nat.div_lt_of_lt_mul (by rwa [Nat.mul_comm])
    have e : p / w * w + p % w = p := by rw [Nat.mul_comm]; exact Nat.div_add_mod p w
    have := h3 (p / w) (p % w) hi (Nat.mod_lt _ hw)
    rw [e] at this
    exact this
  · rintro ⟨h1, h2⟩
    exact ⟨h2, _, bytes_iff.2 h1, fun i t _ ht => encN_at a ht⟩

theorem onlyBlock_put (m : Mem) (h n : Nat) (f : Nat → UInt8) : OnlyBlock m (m.put h n f) h :=
  ⟨rfl, rfl, rfl, fun x hx => by simp [Mem.put, Mem.setBlk, hx]⟩

/-! ### Factorial -/

theorem factLoop_ok (r : Nat) : ∀ (i : Nat), ((i + r).factorial : Int) ≤ 9223372036854775807 →
    factLoop r ((i:Int) + 1) (i.factorial : Int) = .ok ((i + r).factorial : Int) := by
  induction r with
  | zero => intro i _; rfl
  | succ r ih =>
    intro i h
    unfold factLoop
    have e : (i.factorial : Int) * ((i:Int) + 1) = ((i+1).factorial : Int) := by
      rw [Nat.factorial_succ]; push_cast; ring
    have hle : ((i+1).factorial : Int) ≤ ((i + (r+1)).factorial : Int) := by
      exact_mod_cast Nat.factorial_le (by omega)
    have hm : mulLong (i.factorial : Int) ((i:Int) + 1) = .ok ((i+1).factorial : Int) := by
      unfold mulLong
      rw [e, if_pos (by constructor <;> omega)]
    rw [hm]
    have := ih (i+1) (by rw [show i + 1 + r = i + (r + 1) by omega]; exact h)
    rw [show i + 1 + r = i + (r + 1) by omega] at this
    push_cast at this
    exact this

theorem factLoop_over (r : Nat) : ∀ (i : Nat), i ≤ 20 → 21 ≤ i + r →
    factLoop r ((i:Int) + 1) (i.factorial : Int) = .error (.ub .overflow) := by
  induction r with
  | zero => intro i h1 h2; omega
  | succ r ih =>
    intro i h1 h2
    unfold factLoop
    have e : (i.factorial : Int) * ((i:Int) + 1) = ((i+1).factorial : Int) := by
      rw [Nat.factorial_succ]; push_cast; ring
    by_cases hi : i = 20
    · subst hi
      have hm : mulLong ((20:Nat).factorial : Int) (((20:Nat):Int) + 1) = .error (.ub .overflow) := by decide
      rw [hm]; rfl
    · have hle : ((i+1).factorial : Int) ≤ ((20:Nat).factorial : Int) := by
        exact_mod_cast Nat.factorial_le (by omega)
      have h20 : ((20:Nat).factorial : Int) = 2432902008176640000 := by decide
      have hm : mulLong (i.factorial : Int) ((i:Int) + 1) = .ok ((i+1).factorial : Int) := by
        unfold mulLong
        rw [e, if_pos (by constructor <;> omega)]
      rw [hm]
      have := ih (i+1) (by omega) (by omega)
      push_cast at this
      exact this

/-! ### Means -/

theorem accSum_run {F : Fmt} {m : Mem} {ld : Int → M FV} {n : Nat} (v : Nat → FV)
    (h : ∀ i : Nat, i < n → ld (i:Int) m = .ok (v i, m)) :
    accSum F ld n m = .ok ((List.range n).foldl (fun r i => F.add r (v i)) (.fin false 0), m) := by
  unfold accSum
  have := forA_run (n := n) (body := fun i res => do let v ← ld i; pure (F.add res v))
    (fun _ => m) (fun k => (List.range k).foldl (fun r i => F.add r (v i)) (.fin false 0)) (by
      intro i hi
      rw [bind_ok (h i hi), List.range_succ, List.foldl_append]
      rfl)
  exact this

/-! ### Sorting -/

/-- `x >= y` for numbers that are not NaN -/
def fge (x y : Nat) : Prop := FV.lt (f32.decode x) (f32.decode y) = false

theorem FV.ge_trans {a b c : FV} (hb : b ≠ .nan) (h1 : FV.lt a b = false) (h2 : FV.lt b c = false) :
    FV.lt a c = false := by
  cases a <;> cases b <;> cases c <;> simp_all [FV.lt]
  all_goals first | (exact le_trans h2 h1) | skip
  all_goals (rename_i x y z; revert h1 h2; cases x <;> cases y <;> cases z <;> simp)

theorem FV.lt_asymm {a b : FV} (h : FV.lt a b = true) : FV.lt b a = false := by
  cases a <;> cases b <;> simp_all [FV.lt]
  exact le_of_lt h

theorem fge_trans {x y z : Nat} (hy : f32.decode y ≠ .nan) (h1 : fge x y) (h2 : fge y z) : fge x z :=
  FV.ge_trans hy h1 h2

/-- `b` is a rearrangement of the first `n` values of `a` -/
def Rearr (n : Nat) (b a : Nat → Nat) : Prop :=
  ∃ σ : Nat → Nat, (∀ i, i < n → σ i < n) ∧ (∀ i j, i < n → j < n → σ i = σ j → i = j) ∧ ∀ i, i < n → b i = a (σ i)

theorem Rearr.refl (n : Nat) (a : Nat → Nat) : Rearr n a a := ⟨id, fun _ h => h, fun _ _ _ _ h => h, fun _ _ => rfl⟩

theorem Rearr.trans {n : Nat} {a b c : Nat → Nat} (h1 : Rearr n c b) (h2 : Rearr n b a) : Rearr n c a := by
  obtain ⟨σ, s1, s2, s3⟩ := h1
  obtain ⟨τ, t1, t2, t3⟩ := h2
  exact ⟨fun i => τ (σ i), fun i hi => t1 _ (s1 i hi),
    fun i j hi hj e => s2 i j hi hj (t2 _ _ (s1 i hi) (s1 j hj) e),
    fun i hi => by rw [s3 i hi, t3 _ (s1 i hi)]⟩

/-- exchange of two neighbours -/
def swapAt (g : Nat → Nat) (j : Nat) : Nat → Nat := fun i => if i = j then g (j+1) else if i = j+1 then g j else g i

theorem swapAt_rearr {n j : Nat} (g : Nat → Nat) (hj : j + 1 < n) : Rearr n (swapAt g j) g := by
  refine ⟨fun i => if i = j then j+1 else if i = j+1 then j else i, ?_, ?_, ?_⟩
  · intro i hi; beta_reduce; (repeat' split) <;> omega
  · intro i i' hi hi' e; beta_reduce at e; revert e; (repeat' split) <;> omega
  · intro i hi; unfold swapAt; beta_reduce; (repeat' split) <;> rfl

/-- what the inner loop has established after `k` steps, from the array `g0` -/
structure Inner (n : Nat) (g0 : Nat → Nat) (k : Nat) (g : Nat → Nat) (f : Bool) : Prop where
  rearr : Rearr n g g0
  low : ∀ p, p ≤ k → ∃ p', p' ≤ k ∧ g p = g0 p'
  high : ∀ p, k < p → g p = g0 p
  least : ∀ p, p ≤ k → fge (g p) (g k)
  flag : f = true → g = g0 ∧ ∀ p, p < k → fge (g0 p) (g0 (p+1))

theorem fge_refl (x : Nat) : fge x x := by
  unfold fge
  cases f32.decode x <;> simp [FV.lt]

theorem inner_run {m : Mem} {a n : Nat} {g0 : Nat → Nat} (hb : ∀ i, i < n → g0 i < 256 ^ 4)
    (hn : ∀ i, i < n → f32.decode (g0 i) ≠ .nan) {K : Nat} (hK : K + 1 ≤ n) :
    ∃ g f, forA 0 (K:Int) true (fun j f => sortStep a j f) (m.putN a 4 n g0) = .ok (f, m.putN a 4 n g) ∧
      Inner n g0 K g f := by
  -- the states are computed by recursion
  have step : ∀ k g f, k + 1 < n → Inner n g0 k g f →
      ∃ g' f', sortStep a (k:Int) f (m.putN a 4 n g) = .ok (f', m.putN a 4 n g') ∧ Inner n g0 (k+1) g' f' := by
    intro k g f hk h
    have hgb : ∀ i, i < n → g i < 256 ^ 4 := by
      obtain ⟨σ, s1, _, s3⟩ := h.rearr
      intro i hi; rw [s3 i hi]; exact hb _ (s1 i hi)
    have hgn : ∀ i, i < n → f32.decode (g i) ≠ .nan := by
      obtain ⟨σ, s1, _, s3⟩ := h.rearr
      intro i hi; rw [s3 i hi]; exact hn _ (s1 i hi)
    have hh := holdsN_putN m (h := a) hgb
    unfold sortStep
    rw [bind_ok (hh.load (show k < n by omega))]
    have l2 : loadN 4 a ((k:Int) + 1) (m.putN a 4 n g) = .ok (g (k+1), m.putN a 4 n g) := hh.load hk
    rw [bind_ok l2]
    by_cases hlt : FV.lt (f32.decode (g k)) (f32.decode (g (k+1))) = true
    · rw [if_pos hlt]
      refine ⟨swapAt g k, false, ?_, ?_⟩
      · rw [bind_ok (storeN_put (show k < n by omega))]
        have s2 := storeN_put (m := m) (h := a) (w := 4) (n := n) (i := k+1) (v := g k)
          (a := fun j => if j = k then g (k+1) % 256 ^ 4 else g j) hk
        rw [bind_ok (show storeN 4 a ((k:Int) + 1) (g k) _ = _ from s2)]
        refine congrArg (fun x => Except.ok (false, x)) (putN_congr m ?_)
        intro i hi
        unfold swapAt
        rw [Nat.mod_eq_of_lt (hgb (k+1) hk), Nat.mod_eq_of_lt (hgb k (by omega))]
        by_cases h1 : i = k
        · subst h1; simp
        · by_cases h2 : i = k + 1 <;> simp [h1, h2]
      · refine ⟨(swapAt_rearr g hk).trans h.rearr, ?_, ?_, ?_, fun e => by cases e⟩
        · intro p hp
          unfold swapAt
          by_cases h1 : p = k
          · rw [if_pos h1]; exact ⟨k+1, by omega, h.high (k+1) (by omega)⟩
          · rw [if_neg h1]
            by_cases h2 : p = k + 1
            · rw [if_pos h2]
              obtain ⟨p', q1, q2⟩ := h.low k (Nat.le_refl _)
              exact ⟨p', by omega, q2⟩
            · rw [if_neg h2]
              obtain ⟨p', q1, q2⟩ := h.low p (by omega)
              exact ⟨p', by omega, q2⟩
        · intro p hp
          unfold swapAt
          rw [if_neg (by omega), if_neg (by omega)]
          exact h.high p (by omega)
        · intro p hp
          have ek : swapAt g k (k+1) = g k := by simp [swapAt]
          rw [ek]
          unfold swapAt
          by_cases h1 : p = k
          · rw [if_pos h1]; exact FV.lt_asymm hlt
          · rw [if_neg h1]
            by_cases h2 : p = k + 1
            · rw [if_pos h2]; exact fge_refl _
            · rw [if_neg h2]; exact h.least p (by omega)
    · rw [if_neg hlt]
      have hge : fge (g k) (g (k+1)) := by
        unfold fge; simpa using hlt
      refine ⟨g, f, rfl, h.rearr, ?_, fun p hp => h.high p (by omega), ?_, ?_⟩
      · intro p hp
        by_cases h2 : p = k + 1
        · subst h2; exact ⟨k+1, Nat.le_refl _, h.high (k+1) (by omega)⟩
        · obtain ⟨p', q1, q2⟩ := h.low p (by omega)
          exact ⟨p', by omega, q2⟩
      · intro p hp
        by_cases h2 : p = k + 1
        · subst h2; exact fge_refl _
        · exact fge_trans (hgn k (by omega)) (h.least p (by omega)) hge
      · intro e
        obtain ⟨e1, e2⟩ := h.flag e
        refine ⟨e1, ?_⟩
        intro p hp
        by_cases h2 : p = k
        · subst h2; rw [e1] at hge; exact hge
        · exact e2 p (by omega)
  have start : Inner n g0 0 g0 true :=
    ⟨Rearr.refl n g0, fun p hp => ⟨p, hp, rfl⟩, fun _ _ => rfl,
      fun p hp => by
        have : p = 0 := by omega
        subst this; exact fge_refl _,
      fun _ => ⟨rfl, fun p hp => by omega⟩⟩
  have main : ∀ r k g f, k + r + 1 ≤ n → Inner n g0 k g f →
      ∃ g' f', forLoop (fun j f => sortStep a j f) r (k:Int) f (m.putN a 4 n g) = .ok (f', m.putN a 4 n g') ∧
        Inner n g0 (k+r) g' f' := by
    intro r
    induction r with
    | zero => intro k g f _ h; exact ⟨g, f, rfl, h⟩
    | succ r ih =>
      intro k g f hk h
      obtain ⟨g1, f1, q1, q2⟩ := step k g f (by omega) h
      obtain ⟨g2, f2, q3, q4⟩ := ih (k+1) g1 f1 (by omega) q2
      refine ⟨g2, f2, ?_, by rw [show k + (r+1) = k + 1 + r by omega]; exact q4⟩
      unfold forLoop
      rw [bind_ok q1]
      exact q3
  obtain ⟨g, f, q1, q2⟩ := main K 0 g0 true (by omega) start
  refine ⟨g, f, ?_, by rw [Nat.zero_add] at q2; exact q2⟩
  unfold forA
  rw [show ((K:Int) - 0).toNat = K by omega]
  exact q1

/-- non-increasing -/
def Sorted (n : Nat) (g : Nat → Nat) : Prop := ∀ p q, p < q → q < n → fge (g p) (g q)

theorem rounds_run {m : Mem} {a n : Nat} : ∀ (r i : Nat) (g : Nat → Nat), (∀ i, i < n → g i < 256 ^ 4) →
    (∀ i, i < n → f32.decode (g i) ≠ .nan) → i + r = n - 1 →
    (∀ p q, p < q → q < n → n - i ≤ q → fge (g p) (g q)) →
    ∃ g', sortRounds a (n:Int) r (i:Int) (m.putN a 4 n g) = .ok ((), m.putN a 4 n g') ∧ Rearr n g' g ∧ Sorted n g' := by
  intro r
  induction r with
  | zero =>
    intro i g _ _ hi hs
    exact ⟨g, rfl, Rearr.refl n g, fun p q h1 h2 => hs p q h1 h2 (by omega)⟩
  | succ r ih =>
    intro i g hb hn hi hs
    obtain ⟨g1, f, q1, q2⟩ := inner_run (m := m) (a := a) hb hn (K := n - i - 1) (by omega)
    have ei : (n:Int) - (i:Int) - 1 = ((n - i - 1 : Nat) : Int) := by omega
    unfold sortRounds
    rw [ei, bind_ok q1]
    obtain ⟨σ, s1, s2, s3⟩ := q2.rearr
    have hb1 : ∀ i, i < n → g1 i < 256 ^ 4 := fun i hi => by rw [s3 i hi]; exact hb _ (s1 i hi)
    have hn1 : ∀ i, i < n → f32.decode (g1 i) ≠ .nan := fun i hi => by rw [s3 i hi]; exact hn _ (s1 i hi)
    have hs1 : ∀ p q, p < q → q < n → n - (i+1) ≤ q → fge (g1 p) (g1 q) := by
      intro p q hpq hq hq1
      by_cases hk : q = n - i - 1
      · rw [hk]; exact q2.least p (by omega)
      · rw [q2.high q (by omega)]
        by_cases hp : p ≤ n - i - 1
        · obtain ⟨p', t1, t2⟩ := q2.low p hp
          rw [t2]; exact hs p' q (by omega) hq (by omega)
        · rw [q2.high p (by omega)]; exact hs p q hpq hq (by omega)
    cases f with
    | true =>
      rw [if_pos rfl]
      refine ⟨g1, rfl, q2.rearr, ?_⟩
      obtain ⟨e1, e2⟩ := q2.flag rfl
      subst e1
      -- adjacent order implies order on the first part
      have adj : ∀ d p, p + d ≤ n - i - 1 → fge (g1 p) (g1 (p + d)) := by
        intro d
        induction d with
        | zero => intro p _; exact fge_refl _
        | succ d ihd =>
          intro p hp
          have := ihd p (by omega)
          exact fge_trans (hn1 (p + d) (by omega)) this (e2 (p+d) (by omega))
      intro p q hpq hq
      by_cases hk : n - i ≤ q
      · exact hs p q hpq hq hk
      · have := adj (q - p) p (by omega)
        rwa [show p + (q - p) = q by omega] at this
    | false =>
      rw [if_neg (by decide)]
      obtain ⟨g2, t1, t2, t3⟩ := ih (i+1) g1 hb1 hn1 (by omega) hs1
      exact ⟨g2, t1, t2.trans q2.rearr, t3⟩

/-! ### Exact sums -/

theorem ofInt_rep {z : ℤ} (h : |z| ≤ 16777216) : f32.ofInt z = .fin (decide (z < 0)) z := by
  unfold Fmt.ofInt
  by_cases h0 : z = 0
  · subst h0; simp [round_zero]
  · rw [round_rep (f32_rep_int h) (by exact_mod_cast h0)]
    simp

theorem sum_exact {z : Nat → ℤ} : ∀ n, (∀ i, i < n → |z i| ≤ 16777216) →
    (∀ k, k ≤ n → |((List.range k).map z).sum| ≤ 16777216) →
    (List.range n).foldl (fun r i => f32.add r (f32.ofInt (z i))) (.fin false 0)
      = .fin (decide (((List.range n).map z).sum < 0)) ((((List.range n).map z).sum : ℤ) : ℚ) := by
  intro n
  induction n with
  | zero => intro _ _; simp
  | succ n ih =>
    intro hz hs
    have hs1 := hs (n+1) (Nat.le_refl _)
    rw [List.range_succ, List.foldl_append, ih (fun i hi => hz i (by omega)) (fun k hk => hs k (by omega))]
    rw [List.range_succ, List.map_append, List.sum_append] at hs1
    rw [List.map_append, List.sum_append]
    simp only [List.foldl_cons, List.foldl_nil, List.map_cons, List.map_nil, List.sum_cons, List.sum_nil, add_zero] at hs1 ⊢
    rw [ofInt_rep (hz n (by omega))]
    generalize ((List.range n).map z).sum = S at *
    unfold Fmt.add
    have e : ((S:ℚ) + ((z n : ℤ) : ℚ)) = ((S + z n : ℤ) : ℚ) := by push_cast; rfl
    simp only []
    rw [e]
    by_cases h0 : S + z n = 0
    · rw [h0]
      have : ¬ (S < 0 ∧ z n < 0) := by omega
      simp only [Int.cast_zero, round_zero]
      congr 1
      by_cases h1 : S < 0 <;> by_cases h2 : z n < 0 <;> simp_all
    · rw [round_rep (f32_rep_int hs1) (by exact_mod_cast h0)]
      congr 1
      simp only [decide_eq_decide]
      exact_mod_cast Iff.rfl

theorem mean_exact {m : Mem} {ld : Int → M FV} {n : Nat} {z : Nat → ℤ} (hn0 : 0 < n) (hn : n ≤ 16777216)
    (h : ∀ i : Nat, i < n → ld (i:Int) m = .ok (f32.ofInt (z i), m)) (hz : ∀ i, i < n → |z i| ≤ 16777216)
    (hs : ∀ k, k ≤ n → |((List.range k).map z).sum| ≤ 16777216) :
    meanOf f32 ld n m = .ok (f32.round false ((((List.range n).map z).sum : ℚ) / n), m) := by
  unfold meanOf
  rw [bind_ok (accSum_run _ h), sum_exact n hz hs]
  have e1 : f32.ofInt (n:ℤ) = .fin false (n:ℚ) := by
    rw [ofInt_rep (by rw [abs_of_nonneg (by omega)]; omega)]
    simp
  rw [e1]
  generalize ((List.range n).map z).sum = S
  have hq : (n:ℚ) ≠ 0 := by positivity
  show Except.ok (f32.div _ _, m) = _
  unfold Fmt.div
  simp only [hq, if_false]
  congr 2
  by_cases h0 : S = 0
  · subst h0; simp
  · unfold Fmt.round
    have : (S:ℚ) / n ≠ 0 := div_ne_zero (by exact_mod_cast h0) hq
    simp [this]

end HyperCV
