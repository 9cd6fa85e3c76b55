/- C48: histogram equalisation. -/
import Verif.Proof.HisEqualization
import Verif.Props.Image
import Mathlib.Algebra.BigOperators.Ring.Finset
import Mathlib.Algebra.Group.Action.Defs
import Mathlib.Tactic.IntervalCases

namespace HyperCV
open Spec Finset

namespace Spec
/-- two separate one-channel byte images of the same size -/
structure GreyPair (m : Mem) (sp dp R C : Nat) (px old : Nat → Nat → Nat → UInt8) : Prop where
  src : IsImage8 m sp R C 1 px
  dst : IsImage8 m dp R C 1 old
  sep : SepPixels m sp dp
  size : R * C ≤ 2147483647

/-- number of pixels of level `v` -/
def levelCount (R C : Nat) (px : Nat → Nat → Nat → UInt8) (v : Nat) : Nat :=
  ∑ i ∈ range R, ∑ j ∈ range C, if (px i j 0).toNat = v then 1 else 0

/-- the level that equalisation should assign to level `v`: floor(255 * CDF(v) / N) -/
def equalised (R C : Nat) (px : Nat → Nat → Nat → UInt8) (v : Nat) : Nat :=
  255 * (∑ u ∈ range (v + 1), levelCount R C px u) / (R * C)

/-- the table that is computed: the running sum is scaled at every level, and level 0 is not scaled -/
def computedLevel (R C : Nat) (px : Nat → Nat → Nat → UInt8) : Nat → Nat := histLevel (levelCount R C px) (R * C)
end Spec

section
variable {m : Mem} {sp dp R C : Nat} {px old : Nat → Nat → Nat → UInt8}

theorem countTo_sum (f : Nat → UInt8) (v k : Nat) : countTo f v k = ∑ p ∈ range k, if (f p).toNat = v then 1 else 0 := by
  induction k with
  | zero => rfl
  | succ k ih => rw [countTo, ih, sum_range_succ]

theorem countTo_image (hC : 0 < C) (v : Nat) : countTo (imgBytes C 1 1 fun i j c _ => px i j c) v (R * C) = levelCount R C px v := by
  rw [countTo_sum]
  unfold levelCount
  induction R with
  | zero => simp
  | succ R ih =>
    rw [sum_range_succ, ← ih, Nat.succ_mul, sum_range_add]
    congr 1
    refine sum_congr rfl fun j hj => ?_
    have := imgBytes_at8 (C := C) (ch := 1) (i := R) (j := j) (c := 0) (px := px) (mem_range.1 hj) (by decide)
    rw [Nat.mul_one, Nat.add_zero] at this
    rw [this]

theorem levelCount_total (s : Finset Nat) : ∑ v ∈ s, levelCount R C px v ≤ R * C := by
  unfold levelCount
  rw [sum_comm]
  have : ∀ i ∈ range R, ∑ v ∈ s, ∑ j ∈ range C, (if (px i j 0).toNat = v then 1 else 0) ≤ C := by
    intro i _
    rw [sum_comm]
    calc _ ≤ ∑ _j ∈ range C, 1 := by
          refine sum_le_sum fun j _ => ?_
          rw [sum_ite_eq]
          split <;> omega
      _ = C := by simp
  calc _ ≤ ∑ _i ∈ range R, C := sum_le_sum this
    _ = R * C := by simp

theorem levelCount_le (v : Nat) : levelCount R C px v ≤ R * C := by
  have := levelCount_total (R := R) (C := C) (px := px) {v}
  simpa using this

theorem levelCount_two {u v : Nat} (h : u ≠ v) : levelCount R C px u + levelCount R C px v ≤ R * C := by
  have := levelCount_total (R := R) (C := C) (px := px) {u, v}
  rwa [sum_pair h] at this

theorem levelCount_all : ∑ v ∈ range 256, levelCount R C px v = R * C := by
  unfold levelCount
  rw [sum_comm]
  have : ∀ i ∈ range R, ∑ v ∈ range 256, ∑ j ∈ range C, (if (px i j 0).toNat = v then 1 else 0) = C := by
    intro i _
    rw [sum_comm]
    calc _ = ∑ _j ∈ range C, 1 := by
          refine sum_congr rfl fun j _ => ?_
          rw [sum_ite_eq, if_pos (mem_range.2 (UInt8.toNat_lt _))]
      _ = C := by simp
  rw [sum_congr rfl this]; simp

theorem levelCount_zero {v : Nat} (h : ∀ i j, i < R → j < C → (px i j 0).toNat ≠ v) : levelCount R C px v = 0 :=
  sum_eq_zero fun i hi => sum_eq_zero fun j hj => if_neg (h i j (mem_range.1 hi) (mem_range.1 hj))

/-- the exact result: every pixel is mapped by the computed table, modulo 256; nothing else is modified -/
theorem C48_table (a : GreyPair m sp dp R C px old)
    (hov : ∀ v, v < 255 → (levelCount R C px (v+1) + computedLevel R C px v) * 255 ≤ 2147483647) :
    ∃ m' out, HisEqualization (some sp) (some dp) m = .ok ((), m') ∧ IsImage8 m' dp R C 1 out ∧ OnlyPixels m m' dp ∧
      ∀ i j, i < R → j < C → (out i j 0).toNat = computedLevel R C px (px i j 0).toNat % 256 := by
  obtain ⟨sd, si, s1, s2⟩ := img8_lit a.src
  obtain ⟨dd, di, d1, d2⟩ := img8_lit a.dst
  have hpos : 0 < R * C := Nat.mul_pos a.src.posR a.src.posC
  rw [Nat.mul_one] at s2
  have hcnt : (fun v => countTo (imgBytes C 1 1 fun i j c _ => px i j c) v (R * C)) = levelCount R C px :=
    funext fun v => countTo_image a.src.posC v
  let T := histAt (levelCount R C px) (R * C) 255
  have hrun : histCumulate ((R * C : Nat) : Int) (histAt (levelCount R C px) (R * C) 0) m = .ok (T, m) :=
    histCumulate_run hpos a.size (fun v => levelCount_le v) hov
  have fl := his_fills (m := m) (T := T) s2 (sep_ne a.sep s1 d1)
  obtain ⟨o1, o2⟩ := img8_put (px' := fun i j _ => uchar (T (ival (px i j 0)))) (new := fun p => uchar (T (ival (imgBytes C 1 1 (fun i j c _ => px i j c) p)))) a.dst d1 (by
    intro i j c hi hj hc
    obtain rfl : c = 0 := by omega
    beta_reduce
    rw [imgBytes_at8 hj (by decide)])
  refine ⟨_, _, ?_, o1, o2, ?_⟩
  · rw [his_front s1 d1 s2 a.size, hcnt, bind_ok hrun]
    have d3 : Holds m dd (R * C) (imgBytes C 1 1 fun i j c _ => old i j c) := by rw [Nat.mul_one] at d2; exact d2
    rw [Nat.mul_one]
    exact fl.total (fun p hp => hp) d3
  · intro i j _ _
    have hl : (px i j 0).toNat < 256 := UInt8.toNat_lt _
    have hT : T (ival (px i j 0)) = (computedLevel R C px (px i j 0).toNat : Int) := by
      show histAt _ _ _ _ = _
      unfold histAt
      have e : (ival (px i j 0)).toNat = (px i j 0).toNat := rfl
      rw [if_pos (by unfold ival; omega), e, if_pos (by omega)]
      rfl
    have := uchar_toNat (T (ival (px i j 0)))
    rw [hT] at this ⊢
    omega

/-- the result when a scaled sum does not fit in `int` -/
theorem C48_overflow (a : GreyPair m sp dp R C px old)
    (hov : ∃ v, v < 255 ∧ 2147483647 < (levelCount R C px (v+1) + computedLevel R C px v) * 255) :
    HisEqualization (some sp) (some dp) m = .error (.ub .overflow) := by
  obtain ⟨sd, si, s1, s2⟩ := img8_lit a.src
  obtain ⟨dd, di, d1, d2⟩ := img8_lit a.dst
  have hpos : 0 < R * C := Nat.mul_pos a.src.posR a.src.posC
  rw [Nat.mul_one] at s2
  have hcnt : (fun v => countTo (imgBytes C 1 1 fun i j c _ => px i j c) v (R * C)) = levelCount R C px :=
    funext fun v => countTo_image a.src.posC v
  rw [his_front s1 d1 s2 a.size, hcnt]
  exact bind_err (histCumulate_fail hpos a.size (fun v => levelCount_le v) hov)

theorem computed_zero : computedLevel R C px 0 = levelCount R C px 0 := rfl

theorem computed_succ (v : Nat) : computedLevel R C px (v+1) = (levelCount R C px (v+1) + computedLevel R C px v) * 255 / (R * C) := rfl

theorem computed_le (hN : 510 ≤ R * C) (v : Nat) : computedLevel R C px (v+1) ≤ 510 := by
  induction v with
  | zero =>
    rw [computed_succ, computed_zero]
    have := levelCount_two (R := R) (C := C) (px := px) (u := 1) (v := 0) (by decide)
    refine Nat.div_le_of_le_mul ?_
    nlinarith
  | succ v ih =>
    rw [computed_succ]
    have := levelCount_le (R := R) (C := C) (px := px) (v+1+1)
    refine Nat.div_le_of_le_mul ?_
    nlinarith

/-- no overflow for images of 510 to 8420994 pixels -/
theorem no_overflow (hN : 510 ≤ R * C) (hM : R * C ≤ 8420994) (v : Nat) :
    (levelCount R C px (v+1) + computedLevel R C px v) * 255 ≤ 2147483647 := by
  cases v with
  | zero =>
    rw [computed_zero, Nat.zero_add]
    have := levelCount_two (R := R) (C := C) (px := px) (u := 1) (v := 0) (by decide)
    omega
  | succ v =>
    have h1 := computed_le (px := px) hN v
    have h2 := levelCount_le (R := R) (C := C) (px := px) (v+1+1)
    omega

theorem equalised_le (v : Nat) (hpos : 0 < R * C) : equalised R C px v ≤ 255 := by
  unfold equalised
  refine Nat.div_le_of_le_mul ?_
  have := levelCount_total (R := R) (C := C) (px := px) (range (v+1))
  nlinarith

theorem computed_dark {v : Nat} (hdark : ∀ u, u < v → levelCount R C px u = 0) : ∀ u, u < v → computedLevel R C px u = 0 := by
  intro u
  induction u with
  | zero => intro h; rw [computed_zero, hdark 0 h]
  | succ u ih =>
    intro h
    rw [computed_succ, hdark _ h, ih (by omega)]
    exact Nat.zero_div _

/-- **C48**, the part that holds, for images of 510 to 8420994 pixels: the call is defined, the new level of a pixel depends
only on its old level, and level 1 as well as the darkest level (unless it is 0) are mapped to floor(255 * CDF / N).
Missing: all other levels, for which the property is false (see the refutations below). -/
theorem C48_darkest_partial (a : GreyPair m sp dp R C px old) (hN : 510 ≤ R * C) (hM : R * C ≤ 8420994) :
    ∃ m' out, HisEqualization (some sp) (some dp) m = .ok ((), m') ∧ IsImage8 m' dp R C 1 out ∧ OnlyPixels m m' dp ∧
      (∀ i j i' j', i < R → j < C → i' < R → j' < C → px i j 0 = px i' j' 0 → out i j 0 = out i' j' 0) ∧
      (∀ i j, i < R → j < C → px i j 0 = 1 → (out i j 0).toNat = equalised R C px 1) ∧
      (∀ i j, i < R → j < C → px i j 0 ≠ 0 → (∀ i' j', i' < R → j' < C → px i j 0 ≤ px i' j' 0) →
        (out i j 0).toNat = equalised R C px (px i j 0).toNat) := by
  obtain ⟨m', out, h1, h2, h3, h4⟩ := C48_table a (fun v _ => no_overflow hN hM v)
  have hpos : 0 < R * C := by omega
  refine ⟨m', out, h1, h2, h3, ?_, ?_, ?_⟩
  · intro i j i' j' hi hj hi' hj' he
    rw [← UInt8.toNat_inj, h4 i j hi hj, h4 i' j' hi' hj', he]
  · intro i j hi hj he
    have e1 : computedLevel R C px 1 = equalised R C px 1 := by
      rw [computed_succ, computed_zero]
      unfold equalised
      rw [sum_range_succ, sum_range_one, Nat.mul_comm, Nat.add_comm]
    have := equalised_le (px := px) 1 hpos
    rw [h4 i j hi hj, he, show (1 : UInt8).toNat = 1 from rfl, e1]
    omega
  · intro i j hi hj hne hmin
    have hdark : ∀ u, u < (px i j 0).toNat → levelCount R C px u = 0 := by
      intro u hu
      refine levelCount_zero fun i' j' hi' hj' => ?_
      have := UInt8.le_iff_toNat_le.1 (hmin i' j' hi' hj')
      omega
    have hnz : (px i j 0).toNat ≠ 0 := fun h => hne (UInt8.toNat_inj.1 h)
    have e1 : computedLevel R C px (px i j 0).toNat = equalised R C px (px i j 0).toNat := by
      obtain ⟨v, hv⟩ : ∃ v, (px i j 0).toNat = v + 1 := ⟨(px i j 0).toNat - 1, by omega⟩
      rw [hv] at hdark ⊢
      unfold equalised
      rw [computed_succ, computed_dark hdark v (by omega), sum_range_succ, sum_eq_zero (fun u hu => hdark u (mem_range.1 hu)),
        Nat.zero_add, Nat.add_zero, Nat.mul_comm]
    have := equalised_le (px := px) (px i j 0).toNat hpos
    rw [h4 i j hi hj, e1]
    omega

theorem equalised_top {b : Nat} (hb : ∀ i j, i < R → j < C → (px i j 0).toNat ≤ b) (hb2 : b < 256) (hpos : 0 < R * C) :
    equalised R C px b = 255 := by
  unfold equalised
  have : ∑ u ∈ range (b + 1), levelCount R C px u = R * C := by
    rw [← levelCount_all (R := R) (C := C) (px := px)]
    refine sum_subset (fun x hx => mem_range.2 (by have := mem_range.1 hx; omega)) ?_
    intro u _ hu
    rw [mem_range] at hu
    refine levelCount_zero fun i j hi hj => ?_
    have := hb i j hi hj
    omega
  rw [this, Nat.mul_div_cancel _ hpos]

/-- C48 is false for black images: level 0 is not scaled, so it becomes the number of pixels modulo 256 instead of 255. -/
theorem C48_refuted_black (a : GreyPair m sp dp R C px old) (hN : 510 ≤ R * C) (hM : R * C ≤ 8420994)
    (hblack : ∀ i j, i < R → j < C → px i j 0 = 0) :
    equalised R C px 0 = 255 ∧
    ∃ m' out, HisEqualization (some sp) (some dp) m = .ok ((), m') ∧ IsImage8 m' dp R C 1 out ∧
      ∀ i j, i < R → j < C → (out i j 0).toNat = R * C % 256 := by
  have hb : ∀ i j, i < R → j < C → (px i j 0).toNat ≤ 0 := by
    intro i j hi hj; rw [hblack i j hi hj]; decide
  refine ⟨equalised_top hb (by decide) (by omega), ?_⟩
  obtain ⟨m', out, h1, h2, h3, h4⟩ := C48_table a (fun v _ => no_overflow hN hM v)
  refine ⟨m', out, h1, h2, ?_⟩
  intro i j hi hj
  have : levelCount R C px 0 = R * C := by
    rw [← levelCount_all (R := R) (C := C) (px := px), show (256 : Nat) = 255 + 1 from rfl, sum_range_succ', sum_eq_zero, Nat.zero_add]
    intro u _
    refine levelCount_zero fun i j hi hj => ?_
    have := hb i j hi hj
    omega
  rw [h4 i j hi hj, hblack i j hi hj, ← this]
  rfl

/-- the running sum has been scaled away before level `b` -/
theorem computed_gap (hN : 130051 ≤ R * C) {b : Nat} (hgap : levelCount R C px (b + 2) = 0) :
    computedLevel R C px (b + 3) = 255 * levelCount R C px (b + 3) / (R * C) := by
  have h1 := computed_le (px := px) (by omega : 510 ≤ R * C) b
  have h2 : computedLevel R C px (b + 2) = 0 := by
    rw [computed_succ, hgap]
    exact Nat.div_eq_of_lt (by omega)
  rw [computed_succ, h2, Nat.add_zero, Nat.mul_comm]

/-- C48 is false in general: if the level just below the brightest level `b` is absent, `b` is mapped to 255 times its own share
of the pixels instead of 255. -/
theorem C48_refuted_brightest (a : GreyPair m sp dp R C px old) (hN : 130051 ≤ R * C) (hM : R * C ≤ 8420994) {b : Nat} (hb3 : 3 ≤ b)
    (hb : b < 256) (htop : ∀ i j, i < R → j < C → (px i j 0).toNat ≤ b) (hgap : ∀ i j, i < R → j < C → (px i j 0).toNat ≠ b - 1) :
    equalised R C px b = 255 ∧
    ∃ m' out, HisEqualization (some sp) (some dp) m = .ok ((), m') ∧ IsImage8 m' dp R C 1 out ∧
      ∀ i j, i < R → j < C → (px i j 0).toNat = b → (out i j 0).toNat = 255 * levelCount R C px b / (R * C) := by
  refine ⟨equalised_top htop hb (by omega), ?_⟩
  obtain ⟨m', out, h1, h2, h3, h4⟩ := C48_table a (fun v _ => no_overflow (by omega) hM v)
  refine ⟨m', out, h1, h2, ?_⟩
  intro i j hi hj he
  obtain ⟨c, rfl⟩ : ∃ c, b = c + 3 := ⟨b - 3, by omega⟩
  have := computed_gap (px := px) hN (b := c) (levelCount_zero hgap)
  rw [h4 i j hi hj, he, this]
  refine Nat.mod_eq_of_lt (Nat.lt_of_le_of_lt (Nat.div_le_of_le_mul (k := R * C) (n := 255) ?_) (by decide))
  have := levelCount_le (R := R) (C := C) (px := px) (c + 3)
  nlinarith

/-- C48 is false: the mapping is not monotone.  If a brighter level `b` follows a gap and has a smaller share of the pixels
than the darkest level, it is mapped to a darker level. -/
theorem C48_refuted_order (a : GreyPair m sp dp R C px old) (hN : 130051 ≤ R * C) (hM : R * C ≤ 8420994) {d b : Nat} (hd : 1 ≤ d)
    (hdb : d < b) (hb3 : 3 ≤ b) (hmin : ∀ i j, i < R → j < C → d ≤ (px i j 0).toNat)
    (hgap : ∀ i j, i < R → j < C → (px i j 0).toNat ≠ b - 1)
    (hshare : 255 * levelCount R C px b / (R * C) < 255 * levelCount R C px d / (R * C)) :
    ∃ m' out, HisEqualization (some sp) (some dp) m = .ok ((), m') ∧ IsImage8 m' dp R C 1 out ∧
      ∀ i j i' j', i < R → j < C → i' < R → j' < C → (px i j 0).toNat = d → (px i' j' 0).toNat = b → out i' j' 0 < out i j 0 := by
  obtain ⟨m', out, h1, h2, h3, h4⟩ := C48_table a (fun v _ => no_overflow (by omega) hM v)
  refine ⟨m', out, h1, h2, ?_⟩
  intro i j i' j' hi hj hi' hj' he he'
  obtain ⟨c, rfl⟩ : ∃ c, b = c + 3 := ⟨b - 3, by omega⟩
  have e1 := computed_gap (px := px) hN (b := c) (levelCount_zero hgap)
  have hdark : ∀ u, u < d → levelCount R C px u = 0 := by
    intro u hu
    refine levelCount_zero fun i j hi hj => ?_
    have := hmin i j hi hj
    omega
  have e2 : computedLevel R C px d = 255 * levelCount R C px d / (R * C) := by
    obtain ⟨v, rfl⟩ : ∃ v, d = v + 1 := ⟨d - 1, by omega⟩
    rw [computed_succ, computed_dark hdark v (by omega), Nat.add_zero, Nat.mul_comm]
  have bd : ∀ v, 255 * levelCount R C px v / (R * C) < 256 := by
    intro v
    refine Nat.lt_of_le_of_lt (Nat.div_le_of_le_mul (k := R * C) (n := 255) ?_) (by decide)
    have := levelCount_le (R := R) (C := C) (px := px) v
    nlinarith
  rw [UInt8.lt_iff_toNat_lt, h4 i j hi hj, h4 i' j' hi' hj', he, he', e1, e2, Nat.mod_eq_of_lt (bd _), Nat.mod_eq_of_lt (bd _)]
  exact hshare

/-- C48 is false: images with more than 8421504 pixels of levels 0 and 1 overflow `int`. -/
theorem C48_refuted_large (a : GreyPair m sp dp R C px old) (h : 8421504 < levelCount R C px 0 + levelCount R C px 1) :
    HisEqualization (some sp) (some dp) m = .error (.ub .overflow) :=
  C48_overflow a ⟨0, by decide, by rw [computed_zero, Nat.zero_add]; omega⟩

/-- C48 is false: images of a single pixel overflow, unless its level is 253 or more. -/
theorem C48_refuted_single (a : GreyPair m sp dp 1 1 px old) (h : (px 0 0 0).toNat ≤ 252) :
    HisEqualization (some sp) (some dp) m = .error (.ub .overflow) := by
  have hc : ∀ v, levelCount 1 1 px v = if (px 0 0 0).toNat = v then 1 else 0 := by
    intro v; unfold levelCount; rw [sum_range_one, sum_range_one]
  have hs : ∀ v, computedLevel 1 1 px (v+1) = (levelCount 1 1 px (v+1) + computedLevel 1 1 px v) * 255 := by
    intro v; rw [computed_succ]; simp
  have hc0 : ∀ k, levelCount 1 1 px ((px 0 0 0).toNat + k + 1) = 0 := by
    intro k; rw [hc, if_neg (by omega)]
  have hv : 1 ≤ computedLevel 1 1 px (px 0 0 0).toNat := by
    generalize hn : (px 0 0 0).toNat = n at *
    cases n with
    | zero => rw [computed_zero, hc, if_pos rfl]
    | succ n => rw [hs, hc, if_pos rfl]; omega
  by_cases h0 : (px 0 0 0).toNat = 0
  · refine C48_overflow a ⟨3, by decide, ?_⟩
    have e1 := hs 0
    have e2 := hs 1
    have e3 := hs 2
    have c1 := hc0 0
    have c2 := hc0 1
    have c3 := hc0 2
    rw [h0] at c1 c2 c3 hv
    norm_num at e1 e2 e3 c1 c2 c3
    omega
  · have hv2 : 255 ≤ computedLevel 1 1 px (px 0 0 0).toNat := by
      obtain ⟨n, hn⟩ : ∃ n, (px 0 0 0).toNat = n + 1 := ⟨(px 0 0 0).toNat - 1, by omega⟩
      rw [hn, hs, hc, if_pos hn]; omega
    refine C48_overflow a ⟨(px 0 0 0).toNat + 2, by omega, ?_⟩
    have e1 := hs (px 0 0 0).toNat
    have e2 : computedLevel 1 1 px ((px 0 0 0).toNat + 2) = _ := hs ((px 0 0 0).toNat + 1)
    have c1 := hc0 0
    have c2 : levelCount 1 1 px ((px 0 0 0).toNat + 2) = 0 := hc0 1
    rw [Nat.add_zero] at c1
    have e3 : ∀ x, (px 0 0 0).toNat + 1 + 1 = x → levelCount 1 1 px x = levelCount 1 1 px ((px 0 0 0).toNat + 2) := by rintro x rfl; rfl
    rw [e3 _ rfl] at e2
    omega

/-! ### Non-vacuity -/

/-- two images of `R` times `C` pixels -/
def demoPair (R C : Nat) (px : Nat → Nat → Nat → Nat → UInt8) : Mem :=
  (Mem.empty.newImage R C 1 1 1 (imgBytes C 1 1 px)).newImage R C 1 1 1 (imgBytes C 1 1 px)

theorem demoPair_args {R C : Nat} (hR : 0 < R) (hC : 0 < C) (hN : R * C ≤ 2147483647) (px : Nat → Nat → Nat → Nat → UInt8) :
    GreyPair (demoPair R C px) 1 3 R C (fun i j c => px i j c 0) (fun i j c => px i j c 0) := by
  have w1 : (Mem.empty.newImage R C 1 1 1 (imgBytes C 1 1 px)).WF := newImage_WF empty_WF
  refine ⟨?_, ?_, ?_, hN⟩
  · refine img_congr (img_frame w1 (newImage_isImage (m := Mem.empty) (px := px) rfl hR hC (by decide)) (newImage_frame _)) ?_
    intro i j c t _ _ _ ht
    obtain rfl : t = 0 := by omega
    rfl
  · refine img_congr (newImage_isImage (m := Mem.empty.newImage R C 1 1 1 (imgBytes C 1 1 px)) (px := px) rfl hR hC (by decide)) ?_
    intro i j c t _ _ _ ht
    obtain rfl : t = 0 := by omega
    rfl
  · rintro h ⟨⟨a, h1, rfl⟩, ⟨b, h2, h3⟩⟩
    have h1' : some (newSHdr Mem.empty R C 1 1 1) = some a := h1
    have h2' : some (newSHdr (Mem.empty.newImage R C 1 1 1 (imgBytes C 1 1 px)) R C 1 1 1) = some b := h2
    cases h1'; cases h2'
    cases h3

/-- 300 rows of level 1 above 100 rows of level 3: the bright rows become darker than the dark ones -/
example : ∃ m' out, HisEqualization (some 1) (some 3) (demoPair 400 400 fun i _ _ _ => if i < 300 then 1 else 3) = .ok ((), m') ∧
    IsImage8 m' 3 400 400 1 out ∧ out 399 0 0 < out 0 0 0 := by
  have hc : ∀ v, levelCount 400 400 (fun i _ _ => if i < 300 then 1 else 3) v =
      ∑ i ∈ range 400, 400 * (if ((if i < 300 then 1 else 3 : UInt8)).toNat = v then 1 else 0) := by
    intro v
    unfold levelCount
    refine sum_congr rfl fun i _ => ?_
    rw [sum_const, card_range, smul_eq_mul]
  obtain ⟨m', out, h1, h2, h3⟩ := C48_refuted_order (d := 1) (b := 3)
    (demoPair_args (R := 400) (C := 400) (by decide) (by decide) (by decide) fun i _ _ _ => if i < 300 then 1 else 3)
    (by decide) (by decide) (by decide) (by decide) (by decide)
    (by intro i j _ _; beta_reduce; split <;> decide) (by intro i j _ _; beta_reduce; split <;> decide)
    (by rw [hc, hc]; decide +kernel)
  exact ⟨m', out, h1, h2, h3 0 0 399 0 (by decide) (by decide) (by decide) (by decide) rfl rfl⟩

/-- the hypotheses of the other theorems: a black image of 30 x 20 pixels, and one of a single pixel -/
example : GreyPair (demoPair 30 20 fun _ _ _ _ => 0) 1 3 30 20 (fun _ _ _ => 0) (fun _ _ _ => 0) ∧ 510 ≤ 30 * 20 ∧ 30 * 20 ≤ 8420994 ∧
    30 * 20 % 256 ≠ 255 ∧ GreyPair (demoPair 1 1 fun _ _ _ _ => 200) 1 3 1 1 (fun _ _ _ => 200) (fun _ _ _ => 200) ∧ (200 : UInt8).toNat ≤ 252 :=
  ⟨demoPair_args (by decide) (by decide) (by decide) _, by decide, by decide, by decide, demoPair_args (by decide) (by decide) (by decide) _, by decide⟩

/-- a black image of 3000 x 3000 pixels -/
example : HisEqualization (some 1) (some 3) (demoPair 3000 3000 fun _ _ _ _ => 0) = .error (.ub .overflow) := by
  refine C48_refuted_large (demoPair_args (by decide) (by decide) (by decide) _) ?_
  have h0 : ∀ v, levelCount 3000 3000 (fun _ _ _ => 0) v = 3000 * (3000 * (if (0 : UInt8).toNat = v then 1 else 0)) := by
    intro v
    unfold levelCount
    rw [sum_const, card_range, smul_eq_mul, sum_const, card_range, smul_eq_mul]
  rw [h0, h0]
  decide

end
end HyperCV
