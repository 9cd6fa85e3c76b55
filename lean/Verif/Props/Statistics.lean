/- C49, C64, C65: image statistics. -/
import Verif.Proof.Statistics
import Verif.Props.Draw
import Verif.Props.Invert
import Verif.Props.HisEqualization

namespace HyperCV
open Spec Finset

namespace Spec
/-- sum of the samples of an image, read as natural numbers -/
def sampleSum (R C : Nat) (a : Nat → Nat → Nat → Nat) : Nat := ∑ i ∈ range R, ∑ j ∈ range C, a i j 0

/-- the neighbours (left, right, above, below) of a pixel that lie inside an image of `R` rows and `C` columns -/
def neighbours (R C i j : Nat) : List (Nat × Nat) :=
  (if 0 < j then [(i, j - 1)] else []) ++ (if j + 1 < C then [(i, j + 1)] else []) ++
  (if 0 < i then [(i - 1, j)] else []) ++ (if i + 1 < R then [(i + 1, j)] else [])

/-- sum of the squared differences between neighbouring pixels, over all ordered pairs -/
def contrastSum (R C : Nat) (g : Nat → Nat → Nat) : ℤ :=
  ∑ i ∈ range R, ∑ j ∈ range C, ((neighbours R C i j).map fun q => ((g i j : ℤ) - g q.1 q.2) ^ 2).sum

/-- number of ordered pairs of neighbouring pixels -/
def pairCount (R C : Nat) : Nat := ∑ i ∈ range R, ∑ j ∈ range C, (neighbours R C i j).length
end Spec

section
variable {m : Mem} {p R C E : Nat} {dt : Int} {a : Nat → Nat → Nat → Nat} {px : Nat → Nat → Nat → UInt8}

theorem div_close {v w : FV} {x y : ℚ} (ha : v.Is x) (hb : w.Is y) (hy : 0 < y) (hx : x = 0 ∨ (2:ℚ) ^ (-126 : ℤ) ≤ x / y) (hu : x / y ≤ 2 ^ 30) :
    ∃ q, (f32.div v w).Is q ∧ |q - x / y| ≤ x / y / 2 ^ 24 := by
  obtain ⟨s, rfl⟩ := ha
  obtain ⟨s', rfl⟩ := hb
  have hd : f32.div (.fin s x) (.fin s' y) = f32.round (s != s') (x / y) := by
    show (if y = 0 then _ else _) = _
    rw [if_neg (ne_of_gt hy)]
  rw [hd]
  rcases hx with rfl | hx
  · refine ⟨0, ⟨_, by rw [zero_div]; exact round_zero⟩, by simp⟩
  · have hpos : 0 < x / y := lt_of_lt_of_le (by positivity) hx
    have hr := rv_rel (q := x / y) (by rwa [abs_of_pos hpos])
    rw [abs_of_pos hpos] at hr
    obtain ⟨t, ht⟩ := round_rv' (F := f32) (z := s != s') (q := x / y) (by
      have h1 := abs_le.1 hr
      have h2 : x / y / 2 ^ 24 ≤ x / y := div_le_self hpos.le (by norm_num)
      have h3 : |f32.rv (x / y)| ≤ 2 ^ 31 := by rw [abs_le]; constructor <;> linarith
      refine lt_of_le_of_lt h3 ?_
      show (2:ℚ) ^ 31 < 2 ^ 128
      norm_num)
    exact ⟨_, ⟨t, ht⟩, hr⟩

theorem is_nat32 {n : Nat} (h : n ≤ 16777216) : (f32.ofInt (n : Int)).Is (n : ℚ) := by
  have := is_ofInt (F := f32) (n := (n:ℤ)) (rep32_int (by rw [abs_le]; constructor <;> omega))
  rwa [Int.cast_natCast] at this

/-- the accumulated sum is exact as long as it does not exceed 2^24 -/
theorem mean_sum (h : IsImageN m p R C dt 1 E a) (hd : dt = 1 ∨ dt = 2 ∨ dt = 3 ∨ dt = 12) (hN : R * C ≤ 2147483647)
    (hS : sampleSum R C a ≤ 16777216) :
    ∃ v, simple_mat_mean (some p) m = .ok (f32.div (f32.div v (f32.ofInt R)) (f32.ofInt C), m) ∧ v.Is (sampleSum R C a : ℚ) := by
  have ht : statType dt = true := by rcases hd with rfl | rfl | rfl | rfl <;> decide
  have h4 : dt ≠ 4 := by rcases hd with rfl | rfl | rfl | rfl <;> decide
  have hC : 0 < C := h.1.posC
  have hflat : sampleSum R C a = ∑ q ∈ range (R * C), a (q / C) (q % C) 0 := by
    rw [sum_flat]
    unfold sampleSum
    refine sum_congr rfl fun i _ => sum_congr rfl fun j hj => ?_
    have := mem_range.1 hj
    rw [show i * C + j = j + C * i by ring, Nat.add_mul_div_left _ _ hC, Nat.div_eq_of_lt this, Nat.add_mul_mod_self_left, Nat.mod_eq_of_lt this,
      Nat.zero_add]
  have hle : ∀ k, k ≤ R * C → ∑ q ∈ range k, a (q / C) (q % C) 0 ≤ 16777216 := by
    intro k hk
    refine le_trans ?_ (hflat ▸ hS)
    refine sum_le_sum_of_subset fun x hx => ?_
    rw [mem_range] at *; omega
  obtain ⟨v, h1, h2⟩ := mean_inv h hN ht (fun k v => v.Is ((∑ q ∈ range k, a (q / C) (q % C) 0 : Nat) : ℚ)) ⟨false, by simp⟩ (by
    intro q v hq hv
    have hb := hle (q+1) hq
    rw [sum_range_succ] at hb ⊢
    unfold statVal
    rw [if_neg h4]
    have := is_add (F := f32) hv (is_nat32 (n := a (q / C) (q % C) 0) (by omega))
      (by
        have := rep32_int (n := ((∑ q ∈ range q, a (q / C) (q % C) 0 + a (q / C) (q % C) 0 : Nat) : ℤ)) (by rw [abs_le]; constructor <;> omega)
        push_cast at this ⊢
        exact this)
    push_cast at this ⊢
    exact this)
  exact ⟨v, h1, by rw [hflat]; exact h2⟩

/-- **C64**: the mean of an image of unsigned integers whose samples sum to at most 2^24 is the true mean up to a relative
error of 2^-22, and nothing is modified.  (For the signed data types 2 and 3 this holds when no sample is negative; see
`C64_refuted_negative`.) -/
theorem C64_mean (h : IsImageN m p R C dt 1 E a) (hd : dt = 1 ∨ dt = 2 ∨ dt = 3 ∨ dt = 12)
    (hR : R ≤ 16777216) (hC : C ≤ 16777216) (hN : R * C ≤ 2147483647) (hS : sampleSum R C a ≤ 16777216) :
    ∃ v q, simple_mat_mean (some p) m = .ok (v, m) ∧ v.Is q ∧
      |q - sampleSum R C a / (R * C)| ≤ sampleSum R C a / (R * C) / 2 ^ 22 := by
  obtain ⟨v, h1, h2⟩ := mean_sum h hd hN hS
  have hR0 : (1:ℚ) ≤ R := by exact_mod_cast h.1.posR
  have hC0 : (1:ℚ) ≤ C := by exact_mod_cast h.1.posC
  have hR1 : (R:ℚ) ≤ 16777216 := by exact_mod_cast hR
  have hC1 : (C:ℚ) ≤ 16777216 := by exact_mod_cast hC
  have hS1 : (sampleSum R C a : ℚ) ≤ 16777216 := by exact_mod_cast hS
  have hRp : (0:ℚ) < R := by linarith
  have hCp : (0:ℚ) < C := by linarith
  rcases Nat.eq_zero_or_pos (sampleSum R C a) with h0 | hpos
  · rw [h0] at h2
    obtain ⟨q1, a1, b1⟩ := div_close h2 (is_nat32 hR) hRp (Or.inl (by simp)) (by simp)
    rw [Nat.cast_zero, zero_div, zero_div, sub_zero, abs_nonpos_iff] at b1
    subst b1
    obtain ⟨q2, a2, b2⟩ := div_close a1 (is_nat32 hC) hCp (Or.inl rfl) (by simp)
    rw [zero_div, zero_div, sub_zero, abs_nonpos_iff] at b2
    subst b2
    exact ⟨_, 0, h1, a2, by rw [h0]; simp⟩
  · have hS0 : (1:ℚ) ≤ (sampleSum R C a : ℚ) := by exact_mod_cast hpos
    generalize (sampleSum R C a : ℚ) = S at *
    have tiny : (2:ℚ) ^ (-126:ℤ) ≤ 1 / 2 ^ 50 := by
      rw [show (1:ℚ) / 2 ^ 50 = 2 ^ (-50 : ℤ) by norm_num]
      exact zpow_le_zpow_right₀ (by norm_num) (by norm_num)
    have l1 : (1:ℚ) / 2 ^ 24 ≤ S / R := by
      rw [div_le_div_iff₀ (by positivity) hRp]; nlinarith
    have u1 : S / R ≤ 2 ^ 24 := by
      rw [div_le_iff₀ hRp]; nlinarith
    obtain ⟨q1, a1, b1⟩ := div_close h2 (is_nat32 hR) hRp (Or.inr (by linarith)) (by linarith)
    have b1' := abs_le.1 b1
    have q1lo : 1 / 2 ^ 25 ≤ q1 := by
      have : S / R / 2 ^ 24 ≤ S / R / 2 := by apply div_le_div_of_nonneg_left <;> linarith
      have : S / R / 2 ≤ q1 := by linarith
      linarith
    have q1hi : q1 ≤ 2 ^ 25 := by
      have : S / R / 2 ^ 24 ≤ S / R := div_le_self (by linarith) (by norm_num)
      linarith
    obtain ⟨q2, a2, b2⟩ := div_close a1 (is_nat32 hC) hCp (Or.inr (by
        refine le_trans tiny ?_
        rw [div_le_div_iff₀ (by positivity) hCp]; nlinarith)) (by
        rw [div_le_iff₀ hCp]; nlinarith)
    refine ⟨_, q2, h1, a2, ?_⟩
    have e : S / (R * C) = S / R / C := by rw [div_div]
    rw [e]
    have k1 : |q1 / C - S / R / C| ≤ S / R / C / 2 ^ 24 := by
      rw [← sub_div, abs_div, abs_of_pos hCp]
      calc |q1 - S / R| / C ≤ (S / R / 2 ^ 24) / C := div_le_div_of_nonneg_right b1 hCp.le
        _ = _ := by ring
    have hT : 0 < S / R / C := by positivity
    generalize S / R / C = T at *
    generalize q1 / C = U at *
    have k1' := abs_le.1 k1
    have b2' := abs_le.1 b2
    have hU : U ≤ 2 * T := by linarith
    rw [abs_le]
    constructor <;> linarith

theorem sampleSum_const {v : Nat} (h : ∀ i j, i < R → j < C → a i j 0 = v) : sampleSum R C a = v * (R * C) := by
  unfold sampleSum
  have : ∀ i ∈ range R, ∑ j ∈ range C, a i j 0 = C * v := by
    intro i hi
    rw [sum_congr rfl (fun j hj => h i j (mem_range.1 hi) (mem_range.1 hj)), sum_const, card_range, smul_eq_mul]
  rw [sum_congr rfl this, sum_const, card_range, smul_eq_mul]; ring

theorem mean_const (h : IsImageN m p R C dt 1 E a) (hd : dt = 1 ∨ dt = 2 ∨ dt = 3 ∨ dt = 12) {v : Nat}
    (hv : ∀ i j, i < R → j < C → a i j 0 = v) (hpos : 0 < v) (hS : v * (R * C) ≤ 16777216) :
    ∃ w, simple_mat_mean (some p) m = .ok (w, m) ∧ w.Is v := by
  have hR := h.1.posR
  have hC := h.1.posC
  have hN : R * C ≤ 16777216 := le_trans (Nat.le_mul_of_pos_left _ hpos) hS
  have hR1 : R ≤ R * C := Nat.le_mul_of_pos_right _ hC
  have hC1 : C ≤ R * C := Nat.le_mul_of_pos_left _ hR
  have hs := sampleSum_const hv
  obtain ⟨w, h1, h2⟩ := mean_sum h hd (by omega) (by omega)
  rw [hs] at h2
  have hR0 : (R:ℚ) ≠ 0 := by exact_mod_cast hR.ne'
  have hC0 : (C:ℚ) ≠ 0 := by exact_mod_cast hC.ne'
  have e1 : ((v * (R * C) : Nat) : ℚ) / R = ((v * C : Nat) : ℤ) := by push_cast; field_simp
  have e2 : (((v * C : Nat) : ℤ) : ℚ) / C = ((v : ℕ) : ℤ) := by push_cast; field_simp
  have n1 : v * C ≤ v * (R * C) := Nat.mul_le_mul_left _ hC1
  have n2 : v ≤ v * C := Nat.le_mul_of_pos_right _ hC
  have d1 := is_div (F := f32) h2 (is_nat32 (n := R) (by omega)) hR0 (by rw [e1]; exact rep32_int (by rw [abs_le]; constructor <;> omega))
  rw [e1] at d1
  have d2 := is_div (F := f32) d1 (is_nat32 (n := C) (by omega)) hC0 (by rw [e2]; exact rep32_int (by rw [abs_le]; constructor <;> omega))
  rw [e2, Int.cast_natCast] at d2
  exact ⟨_, h1, d2⟩

/-- **C64**: the mean of a constant image with positive level `v` and `v * rows * cols ≤ 2^24` is exactly `v`, and its
variance is exactly 0. -/
theorem C64_constant (h : IsImageN m p R C dt 1 E a) (hd : dt = 1 ∨ dt = 2 ∨ dt = 3 ∨ dt = 12) {v : Nat}
    (hv : ∀ i j, i < R → j < C → a i j 0 = v) (hpos : 0 < v) (hS : v * (R * C) ≤ 16777216) :
    (∃ w, simple_mat_mean (some p) m = .ok (w, m) ∧ w.Is v) ∧ (∃ w, simple_mat_variance (some p) m = .ok (w, m) ∧ w.Is 0) := by
  obtain ⟨w, h1, h2⟩ := mean_const h hd hv hpos hS
  refine ⟨⟨w, h1, h2⟩, ?_⟩
  have ht : statType dt = true := by rcases hd with rfl | rfl | rfl | rfl <;> decide
  have h4 : dt ≠ 4 := by rcases hd with rfl | rfl | rfl | rfl <;> decide
  have hR := h.1.posR
  have hC := h.1.posC
  have hN : R * C ≤ 16777216 := le_trans (Nat.le_mul_of_pos_left _ hpos) hS
  have hR1 : R ≤ R * C := Nat.le_mul_of_pos_right _ hC
  have hC1 : C ≤ R * C := Nat.le_mul_of_pos_left _ hR
  have hv1 : v ≤ v * (R * C) := Nat.le_mul_of_pos_right _ (Nat.mul_pos hR hC)
  obtain ⟨z, r1, r2⟩ := variance_inv h (by omega) ht h1 (fun _ z => z.Is 0) ⟨false, rfl⟩ (by
    intro q z hq hz
    obtain ⟨b1, b2, b3⟩ := flat_split hq
    rw [hv _ _ b1 b2]
    unfold statVal
    rw [if_neg h4]
    have s0 := is_sub (F := f32) h2 (is_nat32 (n := v) (by omega)) (by rw [sub_self]; exact rep_zero _)
    rw [sub_self] at s0
    have s1 := is_conv (F := f64) s0 (rep_zero _)
    have := addSquare_is (t := 0) (x := 0) (by simpa using hz) (by simpa using s1) (by norm_num)
    simpa using this)
  have d1 := is_div (F := f32) r2 (is_nat32 (n := R) (by omega)) (by exact_mod_cast hR.ne') (by rw [zero_div]; exact rep_zero _)
  rw [zero_div] at d1
  have d2 := is_div (F := f32) d1 (is_nat32 (n := C) (by omega)) (by exact_mod_cast hC.ne') (by rw [zero_div]; exact rep_zero _)
  rw [zero_div] at d2
  exact ⟨_, r1, d2⟩

/-- **C64 refuted** for large images: the sum stops growing at 2^24, so the mean of an 8192 x 8192 image of ones is 1/4. -/
theorem C64_refuted_saturates (h : IsImageN m p 8192 8192 1 1 1 a) (h1 : ∀ i j, i < 8192 → j < 8192 → a i j 0 = 1) :
    ∃ w, simple_mat_mean (some p) m = .ok (w, m) ∧ w.Is (1 / 4) := by
  obtain ⟨v, r1, r2⟩ := mean_inv h (by decide) (by decide) (fun k v => v.Is ((min k 16777216 : Nat) : ℚ)) ⟨false, by simp⟩ (by
    intro q v hq hv
    obtain ⟨b1, b2, b3⟩ := flat_split hq
    rw [h1 _ _ b1 b2]
    have hone : (statVal 1 1).Is 1 := by
      have := is_nat32 (n := 1) (by decide)
      simpa [statVal] using this
    rcases Nat.lt_or_ge q 16777216 with hlt | hge
    · rw [Nat.min_eq_left (by omega)] at hv
      rw [Nat.min_eq_left (by omega)]
      have := is_add (F := f32) hv hone (by
        have := rep32_int (n := ((q + 1 : Nat) : ℤ)) (by rw [abs_le]; constructor <;> omega)
        push_cast at this; exact this)
      push_cast; exact this
    · rw [Nat.min_eq_right (by omega)] at hv ⊢
      obtain ⟨s, rfl⟩ := hv
      obtain ⟨s', e⟩ := hone
      rw [e]
      have hr : f32.round (s && s') (((16777216:Nat):ℚ) + 1) = .fin false 16777216 := by
        have hl : Int.log 2 (16777217 : ℚ) = 24 := by
          refine le_antisymm ?_ ?_
          · have := (Int.lt_zpow_iff_log_lt (b := 2) (r := (16777217:ℚ)) (by norm_num) (by norm_num) (x := 25)).1 (by norm_num)
            omega
          · exact (Int.zpow_le_iff_le_log (b := 2) (by norm_num) (by norm_num) (x := 24)).1 (by norm_num)
        have hu : f32.ulpExp 16777217 = 1 := by
          unfold Fmt.ulpExp
          rw [abs_of_pos (by norm_num), hl]
          decide
        have hne : rne ((16777217:ℚ) / 2 ^ (1:ℤ)) = 8388608 := by
          unfold rne
          norm_num
        unfold Fmt.round
        norm_num
        rw [hu, hne]
        norm_num
        intro hc
        exact absurd hc (not_le.2 (by show (16777216:ℚ) < 2 ^ 128; norm_num))
      exact ⟨false, hr.trans (by norm_num)⟩)
  rw [Nat.min_eq_right (by decide)] at r2
  have d1 := is_div (F := f32) r2 (is_nat32 (n := 8192) (by decide)) (by norm_num) (by
    have := rep32_int (n := 2048) (by norm_num)
    norm_num at this ⊢; exact this)
  have d2 := is_div (F := f32) d1 (is_nat32 (n := 8192) (by decide)) (by norm_num) (by
    have := rep_dyadic 1 2 (by norm_num) (by norm_num)
    norm_num at this ⊢; exact this)
  refine ⟨_, r1, ?_⟩
  convert d2 using 1
  norm_num

/-- **C64 refuted** for `double` (data type 5): mean and variance are 0 whatever the samples are. -/
theorem C64_refuted_double (h : IsImageN m p R C 5 1 8 a) (hR : R ≤ 16777216) (hC : C ≤ 16777216) :
    (∃ w, simple_mat_mean (some p) m = .ok (w, m) ∧ w.Is 0) ∧ (∃ w, simple_mat_variance (some p) m = .ok (w, m) ∧ w.Is 0) := by
  have d1 := is_div (F := f32) (a := .fin false 0) ⟨false, rfl⟩ (is_nat32 hR) (by exact_mod_cast h.1.posR.ne') (by rw [zero_div]; exact rep_zero _)
  rw [zero_div] at d1
  have d2 := is_div (F := f32) d1 (is_nat32 hC) (by exact_mod_cast h.1.posC.ne') (by rw [zero_div]; exact rep_zero _)
  rw [zero_div] at d2
  exact ⟨⟨_, mean_other h (by decide), d2⟩, ⟨_, variance_other h (by decide), d2⟩⟩

/-- **C64 refuted** for negative samples: the mean of a constant image of signed 16-bit samples `-k` is `65536 - k`. -/
theorem C64_refuted_negative {k : Nat} (hk : 0 < k) (hk' : k ≤ 32768)
    (h : IsImageN m p R C 2 1 2 a) (hv : ∀ i j, i < R → j < C → a i j 0 = (-(k:ℤ) % 65536).toNat) (hN : R * C ≤ 256) :
    ∃ w, simple_mat_mean (some p) m = .ok (w, m) ∧ w.Is (65536 - k) := by
  have e : (-(k:ℤ) % 65536).toNat = 65536 - k := by omega
  rw [e] at hv
  obtain ⟨w, h1, h2⟩ := mean_const h (by decide) hv (by omega) (by
    calc (65536 - k) * (R * C) ≤ 65536 * 256 := Nat.mul_le_mul (by omega) hN
      _ = _ := by norm_num)
  refine ⟨w, h1, ?_⟩
  convert h2 using 1
  push_cast [Nat.cast_sub (show k ≤ 65536 by omega)]
  rfl

/-! ### Contrast -/

theorem contrastSum_eq {g : Nat → Nat → Nat} : contrastSum R C g = ((∑ i ∈ range R, ∑ j ∈ range C, contrastAt R C g i j : Nat) : ℤ) := by
  unfold contrastSum
  rw [Nat.cast_sum]
  refine sum_congr rfl fun i _ => ?_
  rw [Nat.cast_sum]
  refine sum_congr rfl fun j _ => ?_
  unfold neighbours contrastAt
  push_cast
  rw [List.map_append, List.map_append, List.map_append, List.sum_append, List.sum_append, List.sum_append]
  have key : ∀ (c : Prop) [Decidable c] (q : Nat × Nat) (F : Nat × Nat → ℤ), (List.map F (if c then [q] else [])).sum = if c then F q else 0 := by
    intro c _ q F; split <;> simp
  rw [key, key, key, key]
  simp only [sqDiff_eq, sq]

theorem sum_pos_count (n : Nat) : ∑ j ∈ range n, (if 0 < j then 1 else 0) = n - 1 := by
  induction n with
  | zero => rfl
  | succ n ih => rw [sum_range_succ, ih]; split <;> omega

theorem sum_lt_count (n k : Nat) : ∑ j ∈ range n, (if j + 1 < k then 1 else 0) = min n (k - 1) := by
  induction n with
  | zero => simp
  | succ n ih => rw [sum_range_succ, ih]; split <;> omega

theorem pairCount_eq (hR : 0 < R) (hC : 0 < C) : ((pairCount R C : Nat) : Int) = 4 * (R * C : Nat) - 2 * R - 2 * C := by
  have h1 : ∀ i j, (neighbours R C i j).length =
      (if 0 < j then 1 else 0) + (if j + 1 < C then 1 else 0) + (if 0 < i then 1 else 0) + (if i + 1 < R then 1 else 0) := by
    intro i j
    unfold neighbours
    rw [List.length_append, List.length_append, List.length_append]
    congr 1; congr 1; congr 1
    all_goals split <;> rfl
  have h2 : pairCount R C = R * (C - 1) + R * (C - 1) + (R - 1) * C + (R - 1) * C := by
    unfold pairCount
    simp only [h1, sum_add_distrib, sum_pos_count, sum_lt_count, sum_const, card_range, smul_eq_mul]
    rw [Nat.min_eq_right (by omega), ← mul_sum, ← mul_sum, sum_pos_count, sum_lt_count, Nat.min_eq_right (by omega)]
    ring
  rw [h2]
  obtain ⟨r, rfl⟩ := Nat.exists_eq_add_of_lt hR
  obtain ⟨c, rfl⟩ := Nat.exists_eq_add_of_lt hC
  rw [Nat.zero_add, Nat.zero_add, Nat.add_sub_cancel, Nat.add_sub_cancel]
  push_cast; ring

theorem contrastAt_congr {g g' : Nat → Nat → Nat} (h : ∀ i j, i < R → j < C → g i j = g' i j) :
    ∑ i ∈ range R, ∑ j ∈ range C, contrastAt R C g i j = ∑ i ∈ range R, ∑ j ∈ range C, contrastAt R C g' i j := by
  refine sum_congr rfl fun i hi => sum_congr rfl fun j hj => ?_
  have hi := mem_range.1 hi
  have hj := mem_range.1 hj
  unfold contrastAt
  congr 1; congr 1; congr 1
  all_goals split
  all_goals first | rfl | skip
  all_goals rw [h i j hi hj, h _ _ (by omega) (by omega)]

/-- value of the contrast -/
theorem contrast_value {v : FV} {g : Nat → Nat → Nat} (hR : 0 < R) (hC : 0 < C) (h1 : 1 < R * C) (hN : R * C ≤ 4194304)
    (hT : contrastSum R C g ≤ 16777216) (hv : contrastSum R C g ≤ 16777216 → v.Is (contrastSum R C g : ℚ)) :
    ∃ q, (f32.div v (f32.ofInt (4 * (R * C : Nat) - 2 * R - 2 * C))).Is q ∧
      |q - contrastSum R C g / pairCount R C| ≤ contrastSum R C g / pairCount R C / 2 ^ 24 := by
  have hpc := pairCount_eq hR hC
  rw [← hpc]
  have k1 : R ≤ R * C := Nat.le_mul_of_pos_right _ hC
  have k2 : C ≤ R * C := Nat.le_mul_of_pos_left _ hR
  have k3 : R + C ≤ R * C + 1 := by nlinarith
  have hp0 : 0 < pairCount R C := by
    generalize R * C = P at *; omega
  have hp1 : pairCount R C ≤ 16777216 := by
    generalize R * C = P at *; omega
  have hp0' : (1:ℚ) ≤ (pairCount R C : ℚ) := by exact_mod_cast hp0
  have hp1' : (pairCount R C : ℚ) ≤ 16777216 := by exact_mod_cast hp1
  have hT0 : 0 ≤ contrastSum R C g := by rw [contrastSum_eq]; omega
  have hT1 : (contrastSum R C g : ℚ) ≤ 16777216 := by exact_mod_cast hT
  have hpp : (0:ℚ) < pairCount R C := by linarith
  refine div_close (hv hT) (is_nat32 hp1) hpp ?_ ?_
  · rcases eq_or_lt_of_le hT0 with h0 | h0
    · exact Or.inl (by rw [← h0]; simp)
    · right
      have : (1:ℚ) ≤ contrastSum R C g := by exact_mod_cast h0
      refine le_trans (b := (1:ℚ) / 2 ^ 50) ?_ ?_
      · rw [show (1:ℚ) / 2 ^ 50 = 2 ^ (-50 : ℤ) by norm_num]
        exact zpow_le_zpow_right₀ (by norm_num) (by norm_num)
      · rw [div_le_div_iff₀ (by positivity) hpp]; nlinarith
  · rw [div_le_iff₀ hpp]; nlinarith

theorem contrast_grey (h : IsImage8 m p R C 1 px) (hN : 6 * (R * C) ≤ 2147483647) :
    ∃ v, simple_mat_contrast_ratio (some p) m = .ok (f32.div v (f32.ofInt (4 * (R * C : Nat) - 2 * R - 2 * C)), m) ∧
      (contrastSum R C (fun i j => (px i j 0).toNat) ≤ 16777216 → v.Is (contrastSum R C (fun i j => (px i j 0).toNat) : ℚ)) := by
  obtain ⟨d, inl, h1, h2⟩ := img8_lit h
  rw [Nat.mul_one] at h2
  obtain ⟨v, r1, r2⟩ := contrast_loop h2 (by omega)
  have hc : ∑ i ∈ range R, ∑ j ∈ range C, contrastAt R C (fun i j => (imgBytes C 1 1 (fun i j c _ => px i j c) (i * C + j)).toNat) i j =
      ∑ i ∈ range R, ∑ j ∈ range C, contrastAt R C (fun i j => (px i j 0).toNat) i j := by
    refine contrastAt_congr fun i j hi hj => ?_
    have := imgBytes_at8 (C := C) (ch := 1) (i := i) (j := j) (c := 0) (px := px) hj (by decide)
    rw [Nat.mul_one, Nat.add_zero] at this
    rw [this]
  rw [hc] at r2
  refine ⟨v, ?_, ?_⟩
  · unfold simple_mat_contrast_ratio
    have g1 : derefS (some p) m = .ok (_, m) := getS_ok h1
    rw [cassert_bind (by simp), bind_ok g1, cassert_bind (by simp)]
    have g2 : greyOfMat (some p) ((1:Nat):Int) m = .ok (some p, m) := by
      unfold greyOfMat; rw [if_neg (by decide)]; rfl
    rw [bind_ok g2, bind_ok g1, bind_ok r1, bind_ok (ev_ok (contrast_den h.posR h.posC hN) _)]
    rfl
  · intro hb
    rw [contrastSum_eq] at hb ⊢
    exact r2 (by exact_mod_cast hb)

/-- **C65**: the contrast of a grey image of at least two and at most 2^22 pixels whose squared differences sum to at most
2^24 is the mean squared difference over all pairs of neighbouring pixels, up to a relative error of 2^-24; nothing is
modified. -/
theorem C65_contrast (h : IsImage8 m p R C 1 px) (h1 : 1 < R * C) (hN : R * C ≤ 4194304)
    (hT : contrastSum R C (fun i j => (px i j 0).toNat) ≤ 16777216) :
    ∃ v q, simple_mat_contrast_ratio (some p) m = .ok (v, m) ∧ v.Is q ∧
      |q - contrastSum R C (fun i j => (px i j 0).toNat) / pairCount R C| ≤ contrastSum R C (fun i j => (px i j 0).toNat) / pairCount R C / 2 ^ 24 := by
  obtain ⟨v, r1, r2⟩ := contrast_grey h (by omega)
  obtain ⟨q, k1, k2⟩ := contrast_value h.posR h.posC h1 hN hT r2
  exact ⟨_, q, r1, k1, k2⟩

/-- **C65**: a constant image of at least two pixels has contrast exactly 0. -/
theorem C65_constant (h : IsImage8 m p R C 1 px) (h1 : 1 < R * C) (hN : R * C ≤ 4194304) {l : UInt8}
    (hc : ∀ i j, i < R → j < C → px i j 0 = l) : ∃ v, simple_mat_contrast_ratio (some p) m = .ok (v, m) ∧ v.Is 0 := by
  have h0 : contrastSum R C (fun i j => (px i j 0).toNat) = 0 := by
    rw [contrastSum_eq, contrastAt_congr (g' := fun _ _ => l.toNat) (fun i j hi hj => by rw [hc i j hi hj])]
    have : ∀ i j, contrastAt R C (fun _ _ => l.toNat) i j = 0 := by
      intro i j; unfold contrastAt sqDiff; simp
    simp [this]
  obtain ⟨v, q, r1, r2, r3⟩ := C65_contrast h h1 hN (by rw [h0]; decide)
  rw [h0] at r3
  simp at r3
  subst r3
  exact ⟨v, r1, r2⟩

/-- **C65 refuted** for a single pixel: the result is not a number. -/
theorem C65_refuted_single (h : IsImage8 m p 1 1 1 px) : simple_mat_contrast_ratio (some p) m = .ok (.nan, m) := by
  obtain ⟨v, r1, r2⟩ := contrast_grey h (by decide)
  have h0 : contrastSum 1 1 (fun i j => (px i j 0).toNat) = 0 := by simp [contrastSum, neighbours]
  rw [h0] at r2
  obtain ⟨s, rfl⟩ := r2 (by decide)
  rw [r1]
  have : f32.ofInt (4 * ((1 * 1 : Nat) : Int) - 2 * (1:Nat) - 2 * (1:Nat)) = .fin false 0 := round_zero
  rw [this]
  simp [Fmt.div]

/-- the colour image is converted to grey by rounding the mean of the three channels -/
theorem contrast_rgb (hm : m.WF) (h : IsImage8 m p R C 3 px) (hN : 6 * (R * C) ≤ 2147483551) :
    ∃ v, simple_mat_contrast_ratio (some p) m = .ok (f32.div v (f32.ofInt (4 * (R * C : Nat) - 2 * R - 2 * C)),
        m.newImage R C 1 1 1 (imgBytes C 1 1 (fun i j _ _ => uchar ((greyLevel 0 (px i j 0).toNat (px i j 1).toNat (px i j 2).toNat : Nat) : ℤ)))) ∧
      (contrastSum R C (fun i j => greyLevel 0 (px i j 0).toNat (px i j 1).toNat (px i j 2).toNat) ≤ 16777216 →
        v.Is (contrastSum R C (fun i j => greyLevel 0 (px i j 0).toNat (px i j 1).toNat (px i j 2).toNat) : ℚ)) := by
  obtain ⟨d, inl, h1, h2⟩ := img8_lit h
  have hrun := rgb2gray_run (method := 0) hm h (by omega)
  have hg : IsImage8 (m.newImage R C 1 1 1 (imgBytes C 1 1 (fun i j _ _ => uchar ((greyLevel 0 (px i j 0).toNat (px i j 1).toNat (px i j 2).toNat : Nat) : ℤ))))
      (m.next + 1) R C 1 (fun i j _ => uchar ((greyLevel 0 (px i j 0).toNat (px i j 1).toNat (px i j 2).toNat : Nat) : ℤ)) :=
    newImage_isImage rfl h.posR h.posC (by decide)
  obtain ⟨d', inl', k1, k2⟩ := img8_lit hg
  rw [Nat.mul_one] at k2
  obtain ⟨v, r1, r2⟩ := contrast_loop k2 (by omega)
  have hc : ∑ i ∈ range R, ∑ j ∈ range C, contrastAt R C (fun i j => (imgBytes C 1 1
        (fun i j _ _ => uchar ((greyLevel 0 (px i j 0).toNat (px i j 1).toNat (px i j 2).toNat : Nat) : ℤ)) (i * C + j)).toNat) i j =
      ∑ i ∈ range R, ∑ j ∈ range C, contrastAt R C (fun i j => greyLevel 0 (px i j 0).toNat (px i j 1).toNat (px i j 2).toNat) i j := by
    refine contrastAt_congr fun i j hi hj => ?_
    have := imgBytes_at8 (C := C) (ch := 1) (i := i) (j := j) (c := 0)
      (px := fun i j _ => uchar ((greyLevel 0 (px i j 0).toNat (px i j 1).toNat (px i j 2).toNat : Nat) : ℤ)) hj (by decide)
    rw [Nat.mul_one, Nat.add_zero] at this
    rw [this]
    have x0 := (px i j 0).toNat_lt
    have x1 := (px i j 1).toNat_lt
    have x2 := (px i j 2).toNat_lt
    have : greyLevel 0 (px i j 0).toNat (px i j 1).toNat (px i j 2).toNat < 256 := by
      unfold greyLevel; rw [if_neg (by decide), if_neg (by decide)]; omega
    unfold uchar
    rw [UInt8.toNat_ofNat']
    omega
  rw [hc] at r2
  refine ⟨v, ?_, ?_⟩
  · unfold simple_mat_contrast_ratio
    have g1 : derefS (some p) m = .ok (_, m) := getS_ok h1
    have g3 : derefS (some (m.next + 1)) _ = .ok (_, _) := getS_ok k1
    rw [cassert_bind (by simp), bind_ok g1, cassert_bind (by simp)]
    have g2 : greyOfMat (some p) ((3:Nat):Int) m = sm_rgb2gray (some p) 0 m := by
      unfold greyOfMat; rw [if_pos (by decide)]
    rw [bind_ok (g2.trans hrun), bind_ok g3, bind_ok r1, bind_ok (ev_ok (contrast_den h.posR h.posC (by omega)) _)]
    rfl
  · intro hb
    rw [contrastSum_eq] at hb ⊢
    exact r2 (by exact_mod_cast hb)

/-- **C65** for colour images: the contrast is that of the image of the rounded channel means.  The grey image that was
created for it stays allocated and the caller has no pointer to it: every call leaks `rows*cols` pixels. -/
theorem C65_colour (hm : m.WF) (h : IsImage8 m p R C 3 px) (h1 : 1 < R * C) (hN : R * C ≤ 4194304) (g : Nat → Nat → Nat)
    (hg : ∀ i j, i < R → j < C → GreyOf 0 (px i j 0).toNat (px i j 1).toNat (px i j 2).toNat (g i j)) (hT : contrastSum R C g ≤ 16777216) :
    ∃ v q m' p', simple_mat_contrast_ratio (some p) m = .ok (v, m') ∧ v.Is q ∧
      |q - contrastSum R C g / pairCount R C| ≤ contrastSum R C g / pairCount R C / 2 ^ 24 ∧
      IsImage8 m' p R C 3 px ∧ m.sm p' = none ∧ IsImage8 m' p' R C 1 (fun i j _ => uchar (g i j)) := by
  obtain ⟨v, r1, r2⟩ := contrast_rgb hm h (by omega)
  have hgg : ∀ i j, i < R → j < C → greyLevel 0 (px i j 0).toNat (px i j 1).toNat (px i j 2).toNat = g i j := by
    intro i j hi hj
    have a1 := hg i j hi hj
    have a2 := greyLevel_spec 0 (px i j 0).toNat (px i j 1).toNat (px i j 2).toNat
    unfold GreyOf at a1 a2
    rw [if_neg (by decide), if_neg (by decide)] at a1 a2
    omega
  rw [contrastSum_eq, contrastAt_congr hgg, ← contrastSum_eq] at r2
  obtain ⟨q, k1, k2⟩ := contrast_value h.posR h.posC h1 hN hT r2
  refine ⟨_, q, _, m.next + 1, r1, k1, k2, img_frame hm h (newImage_frame _), (hm _ (by omega)).2.2, ?_⟩
  refine img_congr (newImage_isImage rfl h.posR h.posC (by decide)) ?_
  intro i j c t hi hj _ _
  show uchar _ = uchar _
  rw [hgg i j hi hj]

/-! ### C49 -/

/-- **C49, part**: the mean, the variance and the contrast return normally for every well-formed image of the accepted
number of channels.  Missing: the histogram and the entropy, which never return (`C49_refuted`).  The median and mean
blurs are covered by C62. -/
theorem C49_returns_partial :
    (IsImageN m p R C dt 1 E a → R * C ≤ 2147483647 →
      (∃ v, simple_mat_mean (some p) m = .ok (v, m)) ∧ (∃ v, simple_mat_variance (some p) m = .ok (v, m))) ∧
    (IsImage8 m p R C 1 px → 6 * (R * C) ≤ 2147483647 → ∃ v, simple_mat_contrast_ratio (some p) m = .ok (v, m)) ∧
    (m.WF → IsImage8 m p R C 3 px → 6 * (R * C) ≤ 2147483551 → ∃ v m', simple_mat_contrast_ratio (some p) m = .ok (v, m')) := by
  refine ⟨fun h hN => ?_, fun h hN => ?_, fun hm h hN => ?_⟩
  · by_cases ht : statType dt = true
    · obtain ⟨v, r1, -⟩ := mean_inv h hN ht (fun _ _ => True) trivial (fun _ _ _ _ => trivial)
      obtain ⟨w, r2, -⟩ := variance_inv h hN ht r1 (fun _ _ => True) trivial (fun _ _ _ _ => trivial)
      exact ⟨⟨_, r1⟩, ⟨_, r2⟩⟩
    · rw [Bool.not_eq_true] at ht
      exact ⟨⟨_, mean_other h ht⟩, ⟨_, variance_other h ht⟩⟩
  · obtain ⟨v, r1, -⟩ := contrast_grey h hN
    exact ⟨_, r1⟩
  · obtain ⟨v, r1, -⟩ := contrast_rgb hm h hN
    exact ⟨_, _, r1⟩

/-- **C49 refuted**: the grey-level statistics and the entropy never return; both exit with an error for every grey and
every colour image. -/
theorem C49_refuted {ch : Nat} (hm : m.WF) (h : IsImage8 m p R C ch px) (hch : ch = 1 ∨ ch = 3) (hN : R * C * 3 ≤ 2147483551)
    (gray : Nat) (rest : Nat → M FV) :
    simple_mat_grayscale_statistics (some p) gray m = .error .exit ∧ simple_mat_entropy (some p) rest m = .error .exit := by
  have key : ∀ {m : Mem}, IsImage8 m p R C ch px → ∀ g, simple_mat_grayscale_statistics (some p) g m = .error .exit := by
    intro m h g
    obtain ⟨d, inl, h1, h2⟩ := img8_lit h
    unfold simple_mat_grayscale_statistics
    have g1 : derefS (some p) m = .ok (_, m) := getS_ok h1
    rw [cassert_bind (by simp), bind_ok g1, cassert_bind (by simp)]
    exact bind_err rfl
  refine ⟨key h gray, ?_⟩
  obtain ⟨d, inl, h1, h2⟩ := img8_lit h
  have g1 : derefS (some p) m = .ok (_, m) := getS_ok h1
  unfold simple_mat_entropy
  rw [cassert_bind (by simp), bind_ok g1, cassert_bind (by simp)]
  have fin : ∀ {m : Mem}, m.WF → IsImage8 m p R C ch px → (do
      let gray ← malloc 1024
      memset gray 0 0 1024
      simple_mat_grayscale_statistics (some p) gray
      rest gray : M FV) m = .error .exit := by
    intro m hm h
    have hh := grow_holds m 1024 (m.junk m.next)
    rw [bind_ok (malloc_run 1024 m), bind_ok (show memset m.next 0 0 1024 _ = _ from memset_ok (off := 0) (k := 1024) hh (by decide))]
    refine bind_err (key ?_ _)
    refine img_frame hm h ?_
    intro x hx
    refine ⟨?_, rfl, rfl⟩
    show (if x = m.next then _ else _) = _
    rw [if_neg (by omega)]
    show (if x = m.next then _ else _) = _
    rw [if_neg (by omega)]
  rcases hch with rfl | rfl
  · have g2 : greyOfMat (some p) ((1:Nat):Int) m = .ok (some p, m) := by
      unfold greyOfMat; rw [if_neg (by decide)]; rfl
    rw [bind_ok g2, bind_ok g1]
    exact fin hm h
  · have hrun := rgb2gray_run (method := 0) hm h hN
    have g2 : greyOfMat (some p) ((3:Nat):Int) m = sm_rgb2gray (some p) 0 m := by
      unfold greyOfMat; rw [if_pos (by decide)]
    rw [bind_ok (g2.trans hrun), bind_ok (show derefS (some (m.next+1)) _ = _ from getS_ok (newImage_sm m R C 1 1 1 _))]
    exact fin (newImage_WF hm) (img_frame hm h (newImage_frame _))

/-! ### Concrete cases -/

/-- a memory holding one image -/
theorem demoImageN {dt : Int} {E R C : Nat} (hE : elemBytes dt = some E) (hR : 0 < R) (hC : 0 < C) {a : Nat → Nat → Nat → Nat}
    (ha : ∀ i j c, i < R → j < C → c < 1 → a i j c < 256 ^ E) :
    IsImageN (Mem.empty.newImage R C dt 1 E (imgBytes C 1 E fun i j c t => leByte (a i j c) t)) 1 R C dt 1 E a :=
  ⟨newImage_isImage (m := Mem.empty) hE hR hC (by decide), ha⟩

example : ∃ m a, IsImageN m 1 2 3 1 1 1 a ∧ sampleSum 2 3 a = 42 := by
  refine ⟨_, fun i j _ => 2 * i + j + 10 * (i * j), demoImageN (by rfl) (by decide) (by decide) ?_, ?_⟩
  · intro i j c hi hj _
    have : i * j ≤ 1 * 2 := Nat.mul_le_mul (by omega) (by omega)
    show _ < 256
    omega
  · decide +kernel

example : ∃ m a, IsImageN m 1 8192 8192 1 1 1 a ∧ ∀ i j, i < 8192 → j < 8192 → a i j 0 = 1 :=
  ⟨_, fun _ _ _ => 1, demoImageN rfl (by decide) (by decide) (by intros; decide), fun _ _ _ _ => rfl⟩

example : ∃ m a, IsImageN m 1 4 4 5 1 8 a ∧ a 0 0 0 = 4607182418800017408 :=
  ⟨_, fun _ _ _ => 4607182418800017408, demoImageN rfl (by decide) (by decide) (by intros; decide), rfl⟩

example : ∃ m a, IsImageN m 1 4 4 2 1 2 a ∧ ∀ i j, i < 4 → j < 4 → a i j 0 = (-((1:Nat):ℤ) % 65536).toNat :=
  ⟨_, fun _ _ _ => 65535, demoImageN rfl (by decide) (by decide) (by intros; decide), fun _ _ _ _ => rfl⟩

/-- a 2 x 3 grey image, and its contrast sum -/
example : IsImage8 (demoPair 2 3 demoPx) 1 2 3 1 (fun i j c => demoPx i j c 0) ∧
    contrastSum 2 3 (fun i j => (demoPx i j 0 0).toNat) = 32600 ∧ pairCount 2 3 = 14 :=
  ⟨(demoPair_args (by decide) (by decide) (by decide) demoPx).src, by decide +kernel, by decide +kernel⟩

/-- a 2 x 3 colour image -/
example : ∃ m px, Mem.WF m ∧ IsImage8 m 1 2 3 3 px ∧ ∃ g, (∀ i j, i < 2 → j < 3 → GreyOf 0 (px i j 0).toNat (px i j 1).toNat (px i j 2).toNat (g i j)) ∧
    contrastSum 2 3 g ≤ 16777216 ∧ g 0 0 ≠ g 1 1 := by
  refine ⟨Mem.empty.newImage 2 3 1 3 1 (imgBytes 3 3 1 fun i j c _ => demoPx i j c 0), fun i j c => demoPx i j c 0, newImage_WF empty_WF,
    newImage_isImage (m := Mem.empty) rfl (by decide) (by decide) (by decide),
    fun i j => greyLevel 0 (demoPx i j 0 0).toNat (demoPx i j 1 0).toNat (demoPx i j 2 0).toNat, fun i j _ _ => greyLevel_spec _ _ _ _, ?_, ?_⟩
  · decide +kernel
  · decide +kernel

end
end HyperCV
