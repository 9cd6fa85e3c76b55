/- Moving a shape, shapes of one pixel, and the similarity of equal values. -/
import Verif.Proof.ShapeRun

set_option exponentiation.threshold 2000

namespace HyperCV
open Spec Finset

/-! ### Moving a shape -/

theorem sum_placed {C C' dx : Nat} (h : dx + C ≤ C') (g : Nat → Int) (hg : ∀ i, i < C' → ¬ (dx ≤ i ∧ i < dx + C) → g i = 0) :
    ∑ i ∈ range C', g i = ∑ i ∈ range C, g (dx + i) := by
  have h1 : ∑ i ∈ range C', g i = ∑ i ∈ Ico dx (dx + C), g i := by
    symm
    refine sum_subset ?_ ?_
    · intro i hi
      have := mem_Ico.1 hi
      exact mem_range.2 (by omega)
    · intro i hi hn
      exact hg i (mem_range.1 hi) fun hc => hn (mem_Ico.2 hc)
  rw [h1, sum_Ico_eq_sum_range, Nat.add_sub_cancel_left]

theorem sum2_placed {R C R' C' dy dx : Nat} {f f' : Nat → Nat → Nat} (h : Placed R C f R' C' f' dy dx) (g : Nat → Nat → Int) :
    ∑ j ∈ range R', ∑ i ∈ range C', g j i * f' j i = ∑ j ∈ range R, ∑ i ∈ range C, g (dy + j) (dx + i) * f j i := by
  obtain ⟨h1, h2, h3, h4⟩ := h
  rw [sum_placed h1 (fun j => ∑ i ∈ range C', g j i * f' j i)]
  · refine sum_congr rfl fun j hj => ?_
    have hj := mem_range.1 hj
    rw [sum_placed h2 (fun i => g (dy + j) i * f' (dy + j) i)]
    · refine sum_congr rfl fun i hi => ?_
      rw [h3 j i hj (mem_range.1 hi)]
    · intro i hi hn
      rw [h4 (dy + j) i (by omega) hi (fun hc => hn ⟨hc.2.2.1, hc.2.2.2⟩)]
      simp
  · intro j hj hn
    refine sum_eq_zero fun i hi => ?_
    rw [h4 j i hj (mem_range.1 hi) (fun hc => hn ⟨hc.1, hc.2.1⟩)]
    simp

variable {R C R' C' dy dx : Nat} {f f' : Nat → Nat → Nat}

theorem mass_placed (h : Placed R C f R' C' f' dy dx) : mass R' C' f' = mass R C f := by
  have := sum2_placed h fun _ _ => 1
  simp only [one_mul] at this
  unfold mass
  exact_mod_cast this

theorem massX_placed (h : Placed R C f R' C' f' dy dx) : massX R' C' f' = massX R C f + dx * mass R C f := by
  have := sum2_placed h fun _ i => (i:Int)
  unfold massX mass
  have h2 : (∑ j ∈ range R', ∑ i ∈ range C', i * f' j i : Nat) = ∑ j ∈ range R, ∑ i ∈ range C, (dx + i) * f j i := by exact_mod_cast this
  rw [h2, mul_sum, ← sum_add_distrib]
  refine sum_congr rfl fun j _ => ?_
  rw [mul_sum, ← sum_add_distrib]
  exact sum_congr rfl fun i _ => by ring

theorem massY_placed (h : Placed R C f R' C' f' dy dx) : massY R' C' f' = massY R C f + dy * mass R C f := by
  have := sum2_placed h fun j _ => (j:Int)
  unfold massY mass
  have h2 : (∑ j ∈ range R', ∑ i ∈ range C', j * f' j i : Nat) = ∑ j ∈ range R, ∑ i ∈ range C, (dy + j) * f j i := by exact_mod_cast this
  rw [h2, mul_sum, ← sum_add_distrib]
  refine sum_congr rfl fun j _ => ?_
  rw [mul_sum, ← sum_add_distrib]
  exact sum_congr rfl fun i _ => by ring

theorem nearest_shift {a b d : Nat} (hb : 0 < b) : nearest (a + d * b) b = nearest a b + d := by
  unfold nearest
  rw [show 2 * (a + d * b) + b = 2 * a + b + d * (2 * b) by ring, Nat.add_mul_div_right _ _ (by omega)]

theorem moment_placed (h : Placed R C f R' C' f' dy dx) (hn : 0 < mass R C f) (p q : Nat) : moment R' C' f' p q = moment R C f p q := by
  unfold moment
  rw [massX_placed h, massY_placed h, mass_placed h, nearest_shift hn, nearest_shift hn]
  rw [sum2_placed h (fun j i => ((i:Int) - ((nearest (massX R C f) (mass R C f) + dx : Nat) : Int)) ^ p * ((j:Int) - ((nearest (massY R C f) (mass R C f) + dy : Nat) : Int)) ^ q)]
  refine sum_congr rfl fun j _ => sum_congr rfl fun i _ => ?_
  congr 3
  · push_cast; ring
  · push_cast; ring

theorem placed_self (R C : Nat) (f : Nat → Nat → Nat) : Placed R C f R C f 0 0 := by
  refine ⟨by omega, by omega, ?_, ?_⟩
  · intro j i _ _; rw [Nat.zero_add, Nat.zero_add]
  · intro j i hj hi h; exact absurd ⟨by omega, by omega, by omega, by omega⟩ h

/-! ### The first invariant -/

theorem spread_mass (h : Spread R C f) : 0 < mass R C f := by
  obtain ⟨j, i, _, _, hj, hi, _, _, _, h1, _⟩ := h
  unfold mass
  refine lt_of_lt_of_le (Nat.pos_of_ne_zero h1) (le_trans ?_ (single_le_sum (fun _ _ => Nat.zero_le _) (mem_range.2 hj)))
  exact single_le_sum (f := fun i => f j i) (fun _ _ => Nat.zero_le _) (mem_range.2 hi)

theorem spread_moment (h : Spread R C f) : 1 ≤ moment R C f 2 0 + moment R C f 0 2 := by
  obtain ⟨j, i, j', i', hj, hi, hj', hi', hne, h1, h2⟩ := h
  unfold moment
  generalize nearest (massX R C f) (mass R C f) = cx
  generalize nearest (massY R C f) (mass R C f) = cy
  rw [← sum_add_distrib]
  have key : ∀ j i, j < R → i < C → (j ≠ cy ∨ i ≠ cx) → f j i ≠ 0 → (1:Int) ≤ ∑ j ∈ range R, (∑ i ∈ range C, ((i:Int) - cx) ^ 2 * (((j:Nat):Int) - cy) ^ 0 * f j i + ∑ i ∈ range C, ((i:Int) - cx) ^ 0 * ((j:Int) - cy) ^ 2 * f j i) := by
    intro j i hj hi hne hf
    have e : ∀ j : Nat, (∑ i ∈ range C, ((i:Int) - cx) ^ 2 * ((j:Int) - cy) ^ 0 * f j i + ∑ i ∈ range C, ((i:Int) - cx) ^ 0 * ((j:Int) - cy) ^ 2 * f j i)
        = ∑ i ∈ range C, (((i:Int) - cx) ^ 2 + ((j:Int) - cy) ^ 2) * f j i := by
      intro j
      rw [← sum_add_distrib]
      exact sum_congr rfl fun i _ => by ring
    have nn : ∀ j i : Nat, 0 ≤ (((i:Int) - cx) ^ 2 + ((j:Int) - cy) ^ 2) * (f j i : Int) := fun j i => by positivity
    rw [sum_congr rfl fun j _ => e j]
    refine le_trans ?_ (single_le_sum (fun j _ => sum_nonneg fun i _ => nn j i) (mem_range.2 hj))
    refine le_trans ?_ (single_le_sum (f := fun i : Nat => (((i:Int) - cx) ^ 2 + ((j:Int) - cy) ^ 2) * (f j i : Int)) (fun i _ => nn j i) (mem_range.2 hi))
    have hf1 : (1:Int) ≤ f j i := by omega
    have hd : (1:Int) ≤ ((i:Int) - cx) ^ 2 + ((j:Int) - cy) ^ 2 := by
      rcases hne with h | h
      · have : (j:Int) - cy ≠ 0 := by omega
        have := sq_nonneg ((i:Int) - cx)
        have : 0 < ((j:Int) - cy) ^ 2 := by positivity
        omega
      · have : (i:Int) - cx ≠ 0 := by omega
        have := sq_nonneg ((j:Int) - cy)
        have : 0 < ((i:Int) - cx) ^ 2 := by positivity
        omega
    nlinarith
  by_cases hc : j ≠ cy ∨ i ≠ cx
  · exact key j i hj hi hc h1
  · refine key j' i' hj' hi' ?_ h2
    omega

theorem moment11_le : 2 * |moment R C f 1 1| ≤ moment R C f 2 0 + moment R C f 0 2 := by
  unfold moment
  generalize nearest (massX R C f) (mass R C f) = cx
  generalize nearest (massY R C f) (mass R C f) = cy
  rw [← sum_add_distrib]
  refine le_trans (mul_le_mul_of_nonneg_left (abs_sum_le_sum_abs _ _) (by norm_num)) ?_
  rw [mul_sum]
  refine sum_le_sum fun j _ => ?_
  rw [← sum_add_distrib]
  refine le_trans (mul_le_mul_of_nonneg_left (abs_sum_le_sum_abs _ _) (by norm_num)) ?_
  rw [mul_sum]
  refine sum_le_sum fun i _ => ?_
  rw [abs_mul, Nat.abs_cast, pow_one, pow_one, pow_zero, pow_zero, mul_one, one_mul, ← add_mul, ← mul_assoc]
  refine mul_le_mul_of_nonneg_right ?_ (by positivity)
  rw [abs_mul]
  nlinarith [sq_abs ((i:Int) - cx), sq_abs ((j:Int) - cy), sq_nonneg (|(i:Int) - cx| - |(j:Int) - cy|)]

theorem moment_even {p q : Nat} (hp : Even p) (hq : Even q) : 0 ≤ moment R C f p q := by
  unfold moment
  exact sum_nonneg fun j _ => sum_nonneg fun i _ => mul_nonneg (mul_nonneg (hp.pow_nonneg _) (hq.pow_nonneg _)) (by positivity)

/-- the first invariant is at least as large as the moments it is made of -/
theorem size2_le (h : Spread R C f) (hm : mass R C f ≤ 67108864) : size2 R C f ≤ huOf (eta R C f) 0 := by
  have hn := spread_mass h
  have hn0 : (0:ℝ) < mass R C f := by exact_mod_cast hn
  have hm' : (mass R C f : ℝ) ≤ 67108864 := by exact_mod_cast hm
  have W2 : (mass R C f : ℝ) * Real.sqrt (mass R C f) ^ 2 = (mass R C f : ℝ) ^ 2 := by rw [Real.sq_sqrt hn0.le]; ring
  have W0 : (0:ℝ) < (mass R C f : ℝ) ^ 2 := by positivity
  have e : ∀ p q, p + q = 2 → eta R C f p q = (moment R C f p q : ℝ) / (mass R C f : ℝ) ^ 2 := by
    intro p q hpq; unfold eta; rw [hpq, W2]
  have a1 : (1:ℝ) ≤ moment R C f 2 0 + moment R C f 0 2 := by exact_mod_cast spread_moment h
  have a2 : (2:ℝ) * |(moment R C f 1 1 : ℝ)| ≤ moment R C f 2 0 + moment R C f 0 2 := by exact_mod_cast moment11_le (R := R) (C := C) (f := f)
  have a3 : (0:ℝ) ≤ moment R C f 2 0 := by exact_mod_cast moment_even (R := R) (C := C) (f := f) (by decide : Even 2) (by decide : Even 0)
  have a4 : (0:ℝ) ≤ moment R C f 0 2 := by exact_mod_cast moment_even (R := R) (C := C) (f := f) (by decide : Even 0) (by decide : Even 2)
  have a5 := abs_nonneg (moment R C f 1 1 : ℝ)
  simp only [huOf, size2]
  rw [e 1 1 rfl, e 2 0 rfl, e 0 2 rfl, ← add_div]
  refine max_le ?_ (max_le ?_ (max_le ?_ ?_))
  · refine le_trans ?_ (div_le_div_of_nonneg_right a1 W0.le)
    rw [div_le_div_iff₀ (by positivity) W0]
    nlinarith
  · rw [abs_div, abs_of_pos W0]
    exact div_le_div_of_nonneg_right (by linarith) W0.le
  · rw [abs_div, abs_of_pos W0, abs_of_nonneg a3]
    exact div_le_div_of_nonneg_right (by linarith) W0.le
  · rw [abs_div, abs_of_pos W0, abs_of_nonneg a4]
    exact div_le_div_of_nonneg_right (by linarith) W0.le

theorem huScale_le {U V : ℝ} (hU : Rng 1 U) (hV : Rng 1 V) (k : Nat) : huScale U V k ≤ 2 ^ 320 := by
  have u0 := hU.pos.le
  have v0 := hV.pos.le
  obtain ⟨-, u⟩ := hU
  obtain ⟨-, v⟩ := hV
  rw [pow_one] at u v
  have v2 : V ^ 2 ≤ (2 ^ 80) ^ 2 := pow_le_pow_left₀ v0 v 2
  have v4 : V ^ 4 ≤ (2 ^ 80) ^ 4 := pow_le_pow_left₀ v0 v 4
  have u2 : U ^ 2 ≤ (2 ^ 80) ^ 2 := pow_le_pow_left₀ u0 u 2
  have l1 : (2:ℝ) ^ 80 ≤ 2 ^ 320 := pow_le_pow_right₀ (by norm_num) (by norm_num)
  have l2 : ((2:ℝ) ^ 80) ^ 2 ≤ 2 ^ 320 := by rw [← pow_mul]; exact pow_le_pow_right₀ (by norm_num) (by norm_num)
  have l4 : ((2:ℝ) ^ 80) ^ 4 ≤ 2 ^ 320 := by rw [← pow_mul]
  have l3 : (2:ℝ) ^ 80 * (2 ^ 80) ^ 2 ≤ 2 ^ 320 := by rw [← pow_mul, ← pow_add]; exact pow_le_pow_right₀ (by norm_num) (by norm_num)
  match k with
  | 0 => exact le_trans u l1
  | 1 => exact le_trans u2 l2
  | 2 => exact le_trans v2 l2
  | 3 => exact le_trans v2 l2
  | 4 => exact le_trans v4 l4
  | 5 => exact le_trans (mul_le_mul u v2 (by positivity) (by positivity)) l3
  | k + 6 => exact le_trans v4 l4

/-! ### The similarity of equal values -/

theorem grep_pow64 (n : Nat) : f64.GRep (2 ^ n) := by
  have := grep_pow (F := f64) (k := (n:ℤ)) (by have : f64.emin = -1074 := by decide
                                               omega)
  rwa [zpow_natCast] at this

theorem sim_one {A B : Nat → FV} (h : ∀ k, k < 7 → ∃ z : ℚ, (A k).Is z ∧ (B k).Is z ∧ |z| ≤ 2 ^ 400 ∧ (k = 0 → (2:ℚ) ^ (-100 : ℤ) ≤ z)) : (simVal A B).Is 1 := by
  have key : ∀ n, n ≤ 7 → (simFold A B n).tmp1.Is 0 ∧ ∃ T : ℚ, (simFold A B n).tmp2.Is T ∧ f64.GRep T ∧ 0 ≤ T ∧ T ≤ 2 ^ (402 + n) ∧ (0 < n → 0 < T) := by
    intro n
    induction n with
    | zero =>
      intro _
      exact ⟨⟨false, rfl⟩, 0, ⟨false, rfl⟩, (rep_zero f64).g, le_refl _, by positivity, fun h => absurd h (lt_irrefl _)⟩
    | succ n ih =>
      intro hn
      obtain ⟨t1, T, t2, t3, t4, t5, t6⟩ := ih (by omega)
      obtain ⟨z, zA, zB, zb, z0⟩ := h n (by omega)
      have mx : ∀ {x : ℚ} {k : Nat}, |x| ≤ 2 ^ k → k ≤ 1000 → |x| < 2 ^ (2 ^ (f64.w - 1)) := by
        intro x k hx hk
        rw [f64_max]
        exact lt_of_le_of_lt hx (pow_lt_pow_right₀ (by norm_num) (by omega))
      have r0 : |f64.rv 0| < 2 ^ (2 ^ (f64.w - 1)) := by
        rw [rv_zero]; exact mx (k := 0) (by norm_num) (by norm_num)
      have d : (f64.sub (A n) (B n)).Is 0 := by
        have := rnd_sub (F := f64) zA zB (by rw [sub_self]; exact r0)
        rwa [sub_self, rv_zero] at this
      have da : (f64.sub (A n) (B n)).abs.Is 0 := by
        obtain ⟨s, e⟩ := d
        rw [e]; exact ⟨false, by simp [FV.abs]⟩
      have t1' : (f64.add (simFold A B n).tmp1 (f64.sub (A n) (B n)).abs).Is 0 := by
        have := rnd_add (F := f64) t1 da (by rw [add_zero]; exact r0)
        rwa [add_zero, rv_zero] at this
      -- the second sum
      have hzz : |z + z| ≤ 2 ^ 401 := by
        refine le_trans (abs_add_le _ _) ?_
        rw [pow_succ]; linarith
      have hzz' := abs_le.1 hzz
      have b1 : f64.rv (z + z) ≤ 2 ^ 401 := rv_le (grep_pow64 401) hzz'.2
      have b2 : -(2:ℚ) ^ 401 ≤ f64.rv (z + z) := by
        have := rv_le (F := f64) (grep_pow64 401) (show -(z + z) ≤ 2 ^ 401 by linarith [hzz'.1])
        rw [rv_neg] at this
        linarith
      have b : |f64.rv (z + z)| ≤ 2 ^ 401 := abs_le.2 ⟨b2, b1⟩
      have s1 := rnd_add (F := f64) zA zB (mx b (by norm_num))
      have sa : (f64.add (A n) (B n)).abs.Is |f64.rv (z + z)| := by
        obtain ⟨s, e⟩ := s1
        rw [e]; exact ⟨false, by simp [FV.abs]⟩
      have hsum : T + |f64.rv (z + z)| ≤ 2 ^ (402 + (n + 1)) := by
        have h1 : (2:ℚ) ^ (402 + (n + 1)) = 2 ^ (402 + n) + 2 ^ (402 + n) := by rw [← add_assoc, pow_succ]; ring
        have h2 : (2:ℚ) ^ 401 ≤ 2 ^ (402 + n) := pow_le_pow_right₀ (by norm_num) (by omega)
        linarith
      have h0 : 0 ≤ T + |f64.rv (z + z)| := add_nonneg t4 (abs_nonneg _)
      have c1 : f64.rv (T + |f64.rv (z + z)|) ≤ 2 ^ (402 + (n + 1)) := rv_le (grep_pow64 _) hsum
      have c0 := rv_nonneg (F := f64) h0
      have s2 := rnd_add (F := f64) t2 sa (by
        rw [abs_of_nonneg c0, f64_max]
        exact lt_of_le_of_lt c1 (pow_lt_pow_right₀ (by norm_num) (by omega)))
      refine ⟨t1', _, s2, rv_grep _ _, c0, c1, fun _ => ?_⟩
      by_cases hn0 : n = 0
      · have hz := z0 hn0
        have h100 : (0:ℚ) < 2 ^ (-100 : ℤ) := by positivity
        have hr : 0 < |f64.rv (z + z)| := by
          have := rv_ge (F := f64) (grep_pow (F := f64) (k := -100) (by decide)) (show (2:ℚ) ^ (-100 : ℤ) ≤ z + z by linarith)
          exact abs_pos.2 (by linarith)
        have := rv_ge (F := f64) (q := T + |f64.rv (z + z)|) (a := |f64.rv (z + z)|) (by
          rcases abs_choice (f64.rv (z + z)) with h | h
          · rw [h]; exact rv_grep _ _
          · rw [h, ← rv_neg]; exact rv_grep _ _) (by linarith)
        linarith
      · exact lt_of_lt_of_le (t6 (by omega)) (rv_ge t3 (by linarith [abs_nonneg (f64.rv (z + z))]))
  obtain ⟨t1, T, t2, -, -, -, t6⟩ := key 7 (le_refl _)
  have hT := t6 (by norm_num)
  have mx0 : |f64.rv 0| < 2 ^ (2 ^ (f64.w - 1)) := by rw [rv_zero, f64_max, abs_zero]; positivity
  have d := rnd_div (F := f64) t1 t2 hT.ne' (by rw [zero_div]; exact mx0)
  rw [zero_div, rv_zero] at d
  unfold simVal
  have g1 : f64.Rep 1 := by
    have := rep64_int (n := 1) (by norm_num)
    exact_mod_cast this
  have := rnd_sub (F := f64) (show (f64.ofInt 1).Is 1 from ⟨false, ofInt_one⟩) d (by
    rw [sub_zero, rv_grep_self g1.g, f64_max, abs_one]
    exact one_lt_pow₀ (by norm_num) (by norm_num))
  rwa [sub_zero, rv_grep_self g1.g] at this

/-! ### Shapes of one pixel -/

theorem sum_only {n x : Nat} (h : x < n) (g : Nat → Int) (hg : ∀ i, i < n → i ≠ x → g i = 0) : ∑ i ∈ range n, g i = g x :=
  sum_eq_single x (fun i hi hne => hg i (mem_range.1 hi) hne) (fun hn => absurd (mem_range.2 h) hn)

theorem sum2_only {y x : Nat} (hy : y < R) (hx : x < C) (h0 : ∀ j i, j < R → i < C → (j ≠ y ∨ i ≠ x) → f j i = 0) (g : Nat → Nat → Int) :
    ∑ j ∈ range R, ∑ i ∈ range C, g j i * f j i = g y x * f y x := by
  rw [sum_only hy (fun j => ∑ i ∈ range C, g j i * f j i)]
  · rw [sum_only hx (fun i => g y i * f y i)]
    intro i hi hne
    rw [h0 y i hy hi (.inr hne)]
    simp
  · intro j hj hne
    refine sum_eq_zero fun i hi => ?_
    rw [h0 j i hj (mem_range.1 hi) (.inl hne)]
    simp

theorem one_pixel {y x : Nat} (hy : y < R) (hx : x < C) (hf : f y x ≠ 0) (h0 : ∀ j i, j < R → i < C → (j ≠ y ∨ i ≠ x) → f j i = 0) :
    0 < mass R C f ∧ ∀ p q, 0 < p + q → moment R C f p q = 0 := by
  have m0 : mass R C f = f y x := by
    have := sum2_only hy hx h0 fun _ _ => 1
    simp only [one_mul] at this
    unfold mass
    exact_mod_cast this
  have mx : massX R C f = x * f y x := by
    have := sum2_only hy hx h0 fun _ i => (i:Int)
    unfold massX
    exact_mod_cast this
  have my : massY R C f = y * f y x := by
    have := sum2_only hy hx h0 fun j _ => (j:Int)
    unfold massY
    exact_mod_cast this
  have hpos : 0 < f y x := Nat.pos_of_ne_zero hf
  have hnear : ∀ d, nearest (d * f y x) (f y x) = d := by
    intro d
    have := nearest_shift (a := 0) (b := f y x) (d := d) hpos
    rw [Nat.zero_add] at this
    rw [this]
    unfold nearest
    rw [Nat.mul_zero, Nat.zero_add, Nat.div_eq_of_lt (by omega), Nat.zero_add]
  refine ⟨by omega, ?_⟩
  intro p q hpq
  unfold moment
  rw [mx, my, m0, hnear, hnear]
  rw [sum2_only hy hx h0 (fun j i => ((i:Int) - x) ^ p * ((j:Int) - y) ^ q)]
  rcases Nat.eq_zero_or_pos p with h | h
  · rw [sub_self, sub_self, zero_pow (n := q) (by omega), mul_zero, zero_mul]
  · rw [sub_self, sub_self, zero_pow (n := p) (by omega), zero_mul, zero_mul]

theorem z_add {a b : FV} (ha : a.Is 0) (hb : b.Is 0) : (f64.add a b).Is 0 := by
  have := is_add (F := f64) ha hb (by rw [add_zero]; exact rep_zero _)
  rwa [add_zero] at this

theorem z_sub {a b : FV} (ha : a.Is 0) (hb : b.Is 0) : (f64.sub a b).Is 0 := by
  have := is_neg hb
  rw [neg_zero] at this
  exact z_add ha this

theorem z_mul {a b : FV} {y : ℚ} (ha : a.Is 0) (hb : b.Is y) : (f64.mul a b).Is 0 := by
  have := is_mul (F := f64) ha hb (by rw [zero_mul]; exact rep_zero _)
  rwa [zero_mul] at this

theorem z_mul' {a b : FV} {y : ℚ} (ha : a.Is y) (hb : b.Is 0) : (f64.mul a b).Is 0 := by
  have := is_mul (F := f64) ha hb (by rw [mul_zero]; exact rep_zero _)
  rwa [mul_zero] at this

theorem z_div {a b : FV} {y : ℚ} (ha : a.Is 0) (hb : b.Is y) (hy : y ≠ 0) : (f64.div a b).Is 0 := by
  have := rnd_div (F := f64) ha hb hy (by rw [zero_div, rv_zero, abs_zero, f64_max]; positivity)
  rwa [zero_div, rv_zero] at this

theorem hu_zero {u : HuMoments} (h11 : u.m11.Is 0) (h20 : u.m20.Is 0) (h02 : u.m02.Is 0) (h03 : u.m03.Is 0) (h30 : u.m30.Is 0) (h12 : u.m12.Is 0) (h21 : u.m21.Is 0) (k : Nat) :
    (huValues u k).Is 0 := by
  have n3 : (FV.fin false 3).Is 3 := ⟨false, rfl⟩
  have n4 : (FV.fin false 4).Is 4 := ⟨false, rfl⟩
  have t1 := z_sub h20 h02
  have t2 := z_sub h30 (z_mul' n3 h12)
  have t3 := z_sub (z_mul' n3 h21) h03
  have t4 := z_add h30 h12
  have t5 := z_add h21 h03
  have d1 := z_sub (z_mul t4 t4) (z_mul (z_mul' n3 t5) t5)
  have d2 := z_sub (z_mul (z_mul' n3 t4) t4) (z_mul t5 t5)
  match k with
  | 0 => exact z_add h20 h02
  | 1 => exact z_add (z_mul t1 t1) (z_mul (z_mul' n4 h11) h11)
  | 2 => exact z_add (z_mul t2 t2) (z_mul t3 t3)
  | 3 => exact z_add (z_mul t4 t4) (z_mul t5 t5)
  | 4 => exact z_add (z_mul (z_mul t2 t4) d1) (z_mul (z_mul t3 t5) d2)
  | 5 => exact z_add (z_mul t1 (z_sub (z_mul t4 t4) (z_mul t5 t5))) (z_mul (z_mul (z_mul' n4 h11) t4) t5)
  | k + 6 => exact z_sub (z_mul (z_mul t3 t4) d1) (z_mul (z_mul t2 t5) d2)

theorem sim_nan {A B : Nat → FV} (hA : ∀ k, (A k).Is 0) (hB : ∀ k, (B k).Is 0) : simVal A B = .nan := by
  have ab : ∀ {v : FV}, v.Is 0 → v.abs.Is 0 := by
    rintro v ⟨s, rfl⟩
    exact ⟨false, by simp [FV.abs]⟩
  have key : ∀ n, (simFold A B n).tmp1.Is 0 ∧ (simFold A B n).tmp2.Is 0 := by
    intro n
    induction n with
    | zero => exact ⟨⟨false, rfl⟩, ⟨false, rfl⟩⟩
    | succ n ih => exact ⟨z_add ih.1 (ab (z_sub (hA n) (hB n))), z_add ih.2 (ab (z_add (hA n) (hB n)))⟩
  obtain ⟨⟨s, e⟩, ⟨s', e'⟩⟩ := key 7
  unfold simVal
  rw [e, e', ofInt_one]
  rfl

/-! ### The runs -/

theorem mass_congr (h : ∀ j i, j < R → i < C → f j i = f' j i) : mass R C f = mass R C f' ∧ massX R C f = massX R C f' ∧ massY R C f = massY R C f' := by
  refine ⟨?_, ?_, ?_⟩ <;> refine sum_congr rfl fun j hj => sum_congr rfl fun i hi => ?_ <;> rw [h j i (mem_range.1 hj) (mem_range.1 hi)]

theorem moment_congr (h : ∀ j i, j < R → i < C → f j i = f' j i) : moment R C f = moment R C f' := by
  funext p q
  obtain ⟨h1, h2, h3⟩ := mass_congr h
  unfold moment
  rw [h1, h2, h3]
  refine sum_congr rfl fun j hj => sum_congr rfl fun i hi => ?_
  rw [h j i (mem_range.1 hj) (mem_range.1 hi)]

theorem shape_img {m : Mem} {p R C ch : Nat} {px : Nat → Nat → Nat → UInt8} (hi : IsImage8 m p R C ch px) : ShapeAt m p R C (imgBytes C ch 1 fun i j c _ => px i j c) := by
  obtain ⟨data, inl, h1, h2⟩ := img8_lit hi
  exact ⟨ch, data, inl, R * C * ch, _, h1, h2, Nat.le_mul_of_pos_right _ hi.posCh, fun _ _ => rfl⟩

theorem grey_img {C : Nat} {px : Nat → Nat → Nat → UInt8} {j i : Nat} (hi : i < C) : grey C (imgBytes C 1 1 fun i j c _ => px i j c) j i = (px j i 0).toNat := by
  unfold grey
  have := imgBytes_at8 (C := C) (ch := 1) (i := j) (j := i) (c := 0) (px := px) hi (by omega)
  rw [Nat.mul_one, Nat.add_zero] at this
  rw [this]


theorem ShapeAt.grow {m : Mem} (hm : m.WF) {p R C n : Nat} {b f : Nat → UInt8} (h : ShapeAt m p R C b) : ShapeAt (m.grow n f) p R C b := by
  obtain ⟨ch, data, inl, N, g, a1, a2, a3, a4⟩ := h.obj
  exact ⟨ch, data, inl, N, g, a1, a2.grow hm, a3, a4⟩

theorem ShapeAt.putN {m : Mem} {p R C h w n : Nat} {b : Nat → UInt8} {a : Nat → Nat} (hs : ShapeAt m p R C b) (hd : ∀ hdr, m.sm p = some hdr → hdr.data ≠ h) :
    ShapeAt (m.putN h w n a) p R C b := by
  obtain ⟨ch, data, inl, N, g, a1, a2, a3, a4⟩ := hs.obj
  exact ⟨ch, data, inl, N, g, a1, a2.put_ne (hd _ a1), a3, a4⟩

theorem ShapeAt.below {m : Mem} (hm : m.WF) {p R C : Nat} {b : Nat → UInt8} (hs : ShapeAt m p R C b) : ∀ hdr, m.sm p = some hdr → hdr.data < m.next := by
  obtain ⟨ch, data, inl, N, g, a1, a2, a3, a4⟩ := hs.obj
  intro hdr h
  rw [a1] at h
  injection h with h
  rw [← h]
  exact a2.lt_next hm

/-- the memory after a comparison -/
def Mem.matched (m : Mem) (A B : Nat → FV) : Mem :=
  ((((m.grow 56 (m.junk m.next)).grow 56 (m.junk (m.next + 1))).putN m.next 8 7 fun k => f64.encode (A k))).putN (m.next + 1) 8 7 fun k => f64.encode (B k)

theorem match_run {pow : FV → FV → FV} {m : Mem} {p q R C R' C' : Nat} {b b' : Nat → UInt8} (hm : m.WF) (hR : R ≤ 512) (hC : C ≤ 512) (hR' : R' ≤ 512) (hC' : C' ≤ 512)
    (h : ShapeAt m p R C b) (h' : ShapeAt m q R' C' b') (hn : 0 < mass R C (grey C b)) (hn' : 0 < mass R' C' (grey C' b')) :
    ∃ s w s' w', HuIs s w (mass R C (grey C b)) (moment R C (grey C b)) ∧ HuIs s' w' (mass R' C' (grey C' b')) (moment R' C' (grey C' b')) ∧
      hypercv_match_shapes pow (some p) (some q) m = .ok (simVal (huValues (huNormalise pow s w)) (huValues (huNormalise pow s' w')),
        m.matched (huValues (huNormalise pow s w)) (huValues (huNormalise pow s' w'))) ∧
      hypercv_match_shapes pow (some q) (some p) m = .ok (simVal (huValues (huNormalise pow s' w')) (huValues (huNormalise pow s w)),
        m.matched (huValues (huNormalise pow s' w')) (huValues (huNormalise pow s w))) := by
  set m1 := m.grow 56 (m.junk m.next) with hm1
  have hw1 : m1.WF := grow_WF hm _ _
  set m2 := m1.grow 56 (m.junk (m.next + 1)) with hm2
  have g1 : ShapeAt m2 p R C b := (h.grow hm).grow hw1
  have g2 : ShapeAt m2 q R' C' b' := (h'.grow hm).grow hw1
  have d1 : ∀ hdr, m2.sm p = some hdr → hdr.data < m.next := h.below hm
  have d2 : ∀ hdr, m2.sm q = some hdr → hdr.data < m.next := h'.below hm
  have b1 : Holds m2 m.next 56 (m.junk m.next) := (grow_holds m 56 _).grow hw1
  have b2 : Holds m2 (m.next + 1) 56 (m.junk (m.next + 1)) := grow_holds m1 56 _
  have gp : ∀ A : Nat → FV, ShapeAt (m2.putN m.next 8 7 fun k => f64.encode (A k)) p R C b := fun A => g1.putN fun hdr e => (d1 hdr e).ne
  have gq : ∀ A : Nat → FV, ShapeAt (m2.putN m.next 8 7 fun k => f64.encode (A k)) q R' C' b' := fun A => g2.putN fun hdr e => (d2 hdr e).ne
  have b3 : ∀ A : Nat → FV, Holds (m2.putN m.next 8 7 fun k => f64.encode (A k)) (m.next + 1) 56 (m.junk (m.next + 1)) := fun A => b2.put_ne (by omega)
  obtain ⟨s, w, i, r⟩ := hu_run (pow := pow) hR hC g1 hn
  obtain ⟨s', w', i', r'⟩ := hu_run (pow := pow) hR' hC' g2 hn'
  refine ⟨s, w, s', w', i, i', ?_, ?_⟩
  · unfold hypercv_match_shapes
    rw [nonNull_some, nonNull_some, bind_ok (malloc_run 56 m)]
    rw [bind_ok (malloc_run 56 m1)]
    show (calc_hu_moment pow (some m.next) (some p) >>= _) m2 = _
    rw [bind_ok (r _ _ g1 _ _ b1), show m1.next = m.next + 1 from rfl, bind_ok (r' _ _ (gq _) _ _ (b3 _))]
    exact similar_run (good_hu _) (good_hu _) ((holdsN_putN _ fun _ _ => f64_encode_lt (good_hu _ _)).putN_ne (by omega)) (holdsN_putN _ fun _ _ => f64_encode_lt (good_hu _ _))
  · unfold hypercv_match_shapes
    rw [nonNull_some, nonNull_some, bind_ok (malloc_run 56 m)]
    rw [bind_ok (malloc_run 56 m1)]
    show (calc_hu_moment pow (some m.next) (some q) >>= _) m2 = _
    rw [bind_ok (r' _ _ g2 _ _ b1), show m1.next = m.next + 1 from rfl, bind_ok (r _ _ (gp _) _ _ (b3 _))]
    exact similar_run (good_hu _) (good_hu _) ((holdsN_putN _ fun _ _ => f64_encode_lt (good_hu _ _)).putN_ne (by omega)) (holdsN_putN _ fun _ _ => f64_encode_lt (good_hu _ _))

end HyperCV
