/- C101: the wavelet filters.  C102: they reconstruct every signal.  C103: release of wavelet objects. -/
import Verif.Proof.Wavelet
import Verif.Proof.Bmp
import Mathlib.Tactic.IntervalCases

namespace HyperCV
open Spec

/-- the heap after `set_wavelet_base` for a known wavelet -/
def Mem.withBank (m : Mem) (a b c d : List Int) : Mem := ((((m.grow 40 fun _ => 0).withRev a).withRev b).withRev c).withRev d

theorem withRev_next (m : Mem) (a : List Int) : (m.withRev a).next = m.next + 1 := rfl

theorem holdsN_withRev {m : Mem} {h n : Nat} {a : Nat → Nat} (hh : HoldsN m h 8 n a) (hlt : h < m.next) (src : List Int) :
    HoldsN (m.withRev src) h 8 n a := by
  refine ⟨?_, hh.2⟩
  unfold Holds Mem.withRev
  rw [grow_blk_ne _ _ _ (by omega)]
  exact hh.1

theorem fillBase_run (m : Mem) (L : Nat) (a b c d : List Int) (ha : a.length = L) (hb : b.length = L) (hc : c.length = L) (hd : d.length = L) (hL : L ≤ 1000) :
    fillBase { self := m.next, len := 0, LO_D := none, HI_D := none, LO_R := none, HI_R := none } L a b c d (m.grow 40 fun _ => 0)
      = .ok ({ self := m.next, len := L, LO_D := some (m.next + 1), HI_D := some (m.next + 2), LO_R := some (m.next + 3), HI_R := some (m.next + 4) },
          m.withBank a b c d) := by
  unfold fillBase
  simp only [bind, M.bind]
  have r1 := SerialReverse_run a (m.grow 40 fun _ => 0) (by omega)
  have r2 := SerialReverse_run b ((m.grow 40 fun _ => 0).withRev a) (by omega)
  have r3 := SerialReverse_run c (((m.grow 40 fun _ => 0).withRev a).withRev b) (by omega)
  have r4 := SerialReverse_run d ((((m.grow 40 fun _ => 0).withRev a).withRev b).withRev c) (by omega)
  rw [ha] at r1; rw [hb] at r2; rw [hc] at r3; rw [hd] at r4
  rw [r1]; simp only []
  rw [r2]; simp only []
  rw [r3]; simp only []
  rw [r4]
  rfl

theorem set_run_known (m : Mem) (t : Int) (ht : t = 1 ∨ t = 2) :
    set_wavelet_base t m = .ok (⟨m.next, if t = 1 then 6 else 16, some (m.next + 1), some (m.next + 2), some (m.next + 3), some (m.next + 4)⟩,
      if t = 1 then m.withBank LO_D_db3 HI_D_db3 LO_R_db3 HI_R_db3 else m.withBank LO_D_bior3_7 HI_D_bior3_7 LO_R_bior3_7 HI_R_bior3_7) := by
  unfold set_wavelet_base
  simp only [bind, M.bind]
  have hc : (t ≠ 1 ∨ t ≠ 2) := by omega
  simp only [cassert, hc, decide_true, if_true, pure, M.pure, calloc_run]
  rcases ht with rfl | rfl
  · exact fillBase_run m 6 _ _ _ _ rfl rfl rfl rfl (by norm_num)
  · exact fillBase_run m 16 _ _ _ _ rfl rfl rfl rfl (by norm_num)

theorem set_run_unknown (m : Mem) (t : Int) (h1 : t ≠ 1) (h2 : t ≠ 2) :
    set_wavelet_base t m = .ok ({ self := m.next, len := 0, LO_D := none, HI_D := none, LO_R := none, HI_R := none }, m.grow 40 fun _ => 0) := by
  unfold set_wavelet_base
  simp only [bind, M.bind]
  have hc : (t ≠ 1 ∨ t ≠ 2) := by omega
  simp only [cassert, hc, decide_true, if_true, pure, M.pure, calloc_run, if_neg h1, if_neg h2]

/-- the four arrays of a bank -/
theorem bank_holds (m : Mem) (a b c d : List Int) :
    HoldsN (m.withBank a b c d) (m.next + 1) 8 a.length (revBits a) ∧ HoldsN (m.withBank a b c d) (m.next + 2) 8 b.length (revBits b) ∧
    HoldsN (m.withBank a b c d) (m.next + 3) 8 c.length (revBits c) ∧ HoldsN (m.withBank a b c d) (m.next + 4) 8 d.length (revBits d) := by
  have h1 := withRev_holds (m.grow 40 fun _ => 0) a
  have h2 := withRev_holds ((m.grow 40 fun _ => 0).withRev a) b
  have h3 := withRev_holds (((m.grow 40 fun _ => 0).withRev a).withRev b) c
  have h4 := withRev_holds ((((m.grow 40 fun _ => 0).withRev a).withRev b).withRev c) d
  refine ⟨?_, ?_, ?_, h4⟩
  · exact holdsN_withRev (holdsN_withRev (holdsN_withRev h1 (by simp [withRev_next]) b) (by simp [withRev_next]) c) (by simp [withRev_next]) d
  · exact holdsN_withRev (holdsN_withRev h2 (by simp [withRev_next]) c) (by simp [withRev_next]) d
  · exact holdsN_withRev h3 (by simp [withRev_next]) d

theorem bank_blk (m : Mem) (a b c d : List Int) {x : Nat} (hx : x < m.next ∨ m.next + 4 < x) : (m.withBank a b c d).blk x = m.blk x := by
  unfold Mem.withBank Mem.withRev
  have := grow_next
  rw [grow_blk_ne _ _ _ (by simp; omega), grow_blk_ne _ _ _ (by simp; omega), grow_blk_ne _ _ _ (by simp; omega), grow_blk_ne _ _ _ (by simp; omega),
    grow_blk_ne _ _ _ (by omega)]

/-- the tables are the filters rounded to four digits -/
theorem db3_table (i : Nat) (hi : i < 6) :
    |((LO_D_db3.getD i 0 : Int) : ℝ) / 10000 - db3.loD i| ≤ 49 / 1000000 ∧ |((HI_D_db3.getD i 0 : Int) : ℝ) / 10000 - db3.hiD i| ≤ 49 / 1000000 ∧
    |((LO_R_db3.getD i 0 : Int) : ℝ) / 10000 - db3.loR i| ≤ 49 / 1000000 ∧ |((HI_R_db3.getD i 0 : Int) : ℝ) / 10000 - db3.hiR i| ≤ 49 / 1000000 := by
  have s1 : (1.41421356:ℝ) ≤ √2 := Real.le_sqrt_of_sq_le (by norm_num)
  have s2 : √2 ≤ (1.41421357:ℝ) := by rw [Real.sqrt_le_left (by norm_num)]; norm_num
  have a1 : (3.16227766:ℝ) ≤ √10 := Real.le_sqrt_of_sq_le (by norm_num)
  have a2 : √10 ≤ (3.16227767:ℝ) := by rw [Real.sqrt_le_left (by norm_num)]; norm_num
  have b1 : (3.365196:ℝ) ≤ √(5 + 2 * √10) := by
    refine Real.le_sqrt_of_sq_le ?_
    norm_num at a1 ⊢
    linarith
  have b2 : √(5 + 2 * √10) ≤ (3.365198:ℝ) := by
    rw [Real.sqrt_le_left (by norm_num)]
    norm_num at a2 ⊢
    linarith
  have hsa1 : (1.41421356:ℝ) * 3.16227766 ≤ √2 * √10 := mul_le_mul s1 a1 (by norm_num) (by positivity)
  have hsa2 : √2 * √10 ≤ (1.41421357:ℝ) * 3.16227767 := mul_le_mul s2 a2 (by positivity) (by norm_num)
  have hsb1 : (1.41421356:ℝ) * 3.365196 ≤ √2 * √(5 + 2 * √10) := mul_le_mul s1 b1 (by norm_num) (by positivity)
  have hsb2 : √2 * √(5 + 2 * √10) ≤ (1.41421357:ℝ) * 3.365198 := mul_le_mul s2 b2 (by positivity) (by norm_num)
  norm_num at s1 s2 hsa1 hsa2 hsb1 hsb2
  interval_cases i <;>
    simp only [db3, daubechies3, LO_D_db3, HI_D_db3, LO_R_db3, HI_R_db3, List.getD_cons_zero, List.getD_cons_succ, abs_le] <;>
    generalize √(5 + 2 * √10) = b at * <;> generalize √10 = a at * <;> generalize √2 = s at * <;>
    norm_num <;>
    constructorm* _ ∧ _ <;> linarith

theorem bior37_table (i : Nat) (hi : i < 16) :
    |((LO_D_bior3_7.getD i 0 : Int) : ℝ) / 10000 - bior37.loD i| ≤ 49 / 1000000 ∧ |((HI_D_bior3_7.getD i 0 : Int) : ℝ) / 10000 - bior37.hiD i| ≤ 49 / 1000000 ∧
    |((LO_R_bior3_7.getD i 0 : Int) : ℝ) / 10000 - bior37.loR i| ≤ 49 / 1000000 ∧ |((HI_R_bior3_7.getD i 0 : Int) : ℝ) / 10000 - bior37.hiR i| ≤ 49 / 1000000 := by
  have s1 : (1.41421356:ℝ) ≤ √2 := Real.le_sqrt_of_sq_le (by norm_num)
  have s2 : √2 ≤ (1.41421357:ℝ) := by rw [Real.sqrt_le_left (by norm_num)]; norm_num
  norm_num at s1 s2
  interval_cases i <;>
    simp only [bior37, spline37, spline3, LO_D_bior3_7, HI_D_bior3_7, LO_R_bior3_7, HI_R_bior3_7, List.getD_cons_zero, List.getD_cons_succ, abs_le] <;>
    generalize √2 = s at * <;>
    norm_num <;>
    constructorm* _ ∧ _ <;> linarith

theorem backwards_of_table {m : Mem} {h n : Nat} {src : List Int} {f : Nat → ℝ} (hn : src.length = n) (hh : HoldsN m h 8 src.length (revBits src))
    (hs : ∀ x ∈ src, |x| ≤ 10000) (hf : ∀ i, i < n → |((src.getD i 0 : Int) : ℝ) / 10000 - f i| ≤ 49 / 1000000) :
    ∃ v, HoldsBackwards m h n f v ∧ ∀ i, i < n → |(v i : ℝ) - (src.getD (n - 1 - i) 0 : Int) / 10000| ≤ 1 / 2 ^ 52 := by
  subst hn
  obtain ⟨v, h1, h2⟩ := rev_doubles hh hs
  have h3 : ∀ i, i < src.length → |(v i : ℝ) - (src.getD (src.length - 1 - i) 0 : Int) / 10000| ≤ 1 / 2 ^ 52 := by
    intro i hi
    have := (Rat.cast_le (K := ℝ)).2 (h2 i hi)
    push_cast at this
    exact this
  refine ⟨v, ⟨h1, ?_⟩, h3⟩
  intro i hi
  have a1 := h3 i hi
  have a2 := hf (src.length - 1 - i) (by omega)
  have e : (v i : ℝ) - f (src.length - 1 - i) = ((v i : ℝ) - (src.getD (src.length - 1 - i) 0 : Int) / 10000)
      + (((src.getD (src.length - 1 - i) 0 : Int) : ℝ) / 10000 - f (src.length - 1 - i)) := by ring
  rw [e]
  refine (abs_add_le _ _).trans ?_
  have : (1:ℝ) / 2 ^ 52 + 49 / 1000000 ≤ 1 / 20000 := by norm_num
  linarith

/-- the bank of a wavelet number -/
noncomputable def bankOf (t : Int) : Bank := if t = 1 then db3 else bior37

/-- the tables of a wavelet number -/
def tablesOf (t : Int) : List Int × List Int × List Int × List Int :=
  if t = 1 then (LO_D_db3, HI_D_db3, LO_R_db3, HI_R_db3) else (LO_D_bior3_7, HI_D_bior3_7, LO_R_bior3_7, HI_R_bior3_7)

theorem set_filters (m : Mem) (t : Int) (ht : t = 1 ∨ t = 2) :
    ∃ wb m' a b c d va vb vc vd, set_wavelet_base t m = .ok (wb, m') ∧ wb.len = (bankOf t).len ∧
      wb.LO_D = some a ∧ wb.HI_D = some b ∧ wb.LO_R = some c ∧ wb.HI_R = some d ∧
      (HoldsBackwards m' a (bankOf t).len (bankOf t).loD va ∧ HoldsBackwards m' b (bankOf t).len (bankOf t).hiD vb ∧
        HoldsBackwards m' c (bankOf t).len (bankOf t).loR vc ∧ HoldsBackwards m' d (bankOf t).len (bankOf t).hiR vd) ∧
      ([wb.self, a, b, c, d].Nodup ∧ ∀ x ∈ [wb.self, a, b, c, d], m.next ≤ x) ∧
      Frame m m' ∧
      (∀ i, i < (bankOf t).len → |(va i : ℝ) - ((tablesOf t).1.getD ((bankOf t).len - 1 - i) 0 : Int) / 10000| ≤ 1 / 2 ^ 52 ∧
        |(vb i : ℝ) - ((tablesOf t).2.1.getD ((bankOf t).len - 1 - i) 0 : Int) / 10000| ≤ 1 / 2 ^ 52 ∧
        |(vc i : ℝ) - ((tablesOf t).2.2.1.getD ((bankOf t).len - 1 - i) 0 : Int) / 10000| ≤ 1 / 2 ^ 52 ∧
        |(vd i : ℝ) - ((tablesOf t).2.2.2.getD ((bankOf t).len - 1 - i) 0 : Int) / 10000| ≤ 1 / 2 ^ 52) := by
  have run := set_run_known m t ht
  rcases ht with rfl | rfl
  · rw [if_pos rfl, if_pos rfl] at run
    obtain ⟨h1, h2, h3, h4⟩ := bank_holds m LO_D_db3 HI_D_db3 LO_R_db3 HI_R_db3
    obtain ⟨va, a1, a2⟩ := backwards_of_table (n := 6) rfl h1 (by decide) (fun i hi => (db3_table i hi).1)
    obtain ⟨vb, b1, b2⟩ := backwards_of_table (n := 6) rfl h2 (by decide) (fun i hi => (db3_table i hi).2.1)
    obtain ⟨vc, c1, c2⟩ := backwards_of_table (n := 6) rfl h3 (by decide) (fun i hi => (db3_table i hi).2.2.1)
    obtain ⟨vd, d1, d2⟩ := backwards_of_table (n := 6) rfl h4 (by decide) (fun i hi => (db3_table i hi).2.2.2)
    refine ⟨_, _, _, _, _, _, va, vb, vc, vd, run, rfl, rfl, rfl, rfl, rfl, ⟨a1, b1, c1, d1⟩, ⟨by simp, ?_⟩, ?_, ?_⟩
    · simp only [List.mem_cons, List.not_mem_nil, or_false]
      omega
    · intro h hh
      exact ⟨bank_blk m _ _ _ _ (Or.inl hh), rfl, rfl⟩
    · intro i hi
      exact ⟨a2 i hi, b2 i hi, c2 i hi, d2 i hi⟩
  · rw [if_neg (by norm_num), if_neg (by norm_num)] at run
    obtain ⟨h1, h2, h3, h4⟩ := bank_holds m LO_D_bior3_7 HI_D_bior3_7 LO_R_bior3_7 HI_R_bior3_7
    obtain ⟨va, a1, a2⟩ := backwards_of_table (n := 16) rfl h1 (by decide) (fun i hi => (bior37_table i hi).1)
    obtain ⟨vb, b1, b2⟩ := backwards_of_table (n := 16) rfl h2 (by decide) (fun i hi => (bior37_table i hi).2.1)
    obtain ⟨vc, c1, c2⟩ := backwards_of_table (n := 16) rfl h3 (by decide) (fun i hi => (bior37_table i hi).2.2.1)
    obtain ⟨vd, d1, d2⟩ := backwards_of_table (n := 16) rfl h4 (by decide) (fun i hi => (bior37_table i hi).2.2.2)
    refine ⟨_, _, _, _, _, _, va, vb, vc, vd, run, rfl, rfl, rfl, rfl, rfl, ⟨a1, b1, c1, d1⟩, ⟨by simp, ?_⟩, ?_, ?_⟩
    · simp only [List.mem_cons, List.not_mem_nil, or_false]
      omega
    · intro h hh
      exact ⟨bank_blk m _ _ _ _ (Or.inl hh), rfl, rfl⟩
    · intro i hi
      exact ⟨a2 i hi, b2 i hi, c2 i hi, d2 i hi⟩

/-- C101: `set_wavelet_base(1)` and `set_wavelet_base(2)` return the filters of Daubechies' wavelet with three vanishing moments and of the spline
wavelet 3.7, each backwards and rounded to four digits after the point, in new arrays of their own, and change nothing else. -/
theorem C101_filters_partial (m : Mem) (t : Int) (bank : Bank) (ht : t = 1 ∧ bank = db3 ∨ t = 2 ∧ bank = bior37) :
    ∃ wb m' a b c d va vb vc vd, set_wavelet_base t m = .ok (wb, m') ∧ wb.len = bank.len ∧
      wb.LO_D = some a ∧ wb.HI_D = some b ∧ wb.LO_R = some c ∧ wb.HI_R = some d ∧
      HoldsBackwards m' a bank.len bank.loD va ∧ HoldsBackwards m' b bank.len bank.hiD vb ∧
      HoldsBackwards m' c bank.len bank.loR vc ∧ HoldsBackwards m' d bank.len bank.hiR vd ∧
      [wb.self, a, b, c, d].Nodup ∧ (∀ x ∈ [wb.self, a, b, c, d], m.next ≤ x) ∧ Frame m m' := by
  have hb : (t = 1 ∨ t = 2) ∧ bank = bankOf t := by
    rcases ht with ⟨rfl, rfl⟩ | ⟨rfl, rfl⟩ <;> simp [bankOf]
  obtain ⟨wb, m', a, b, c, d, va, vb, vc, vd, h1, h2, h3, h4, h5, h6, ⟨h7, h8, h9, h10⟩, ⟨h11, h12⟩, h13, -⟩ := set_filters m t hb.1
  rw [hb.2]
  exact ⟨wb, m', a, b, c, d, va, vb, vc, vd, h1, h2, h3, h4, h5, h6, h7, h8, h9, h10, h11, h12, h13⟩

example : ∃ wb m', set_wavelet_base 1 Mem.empty = .ok (wb, m') ∧ wb.len = 6 := by
  obtain ⟨wb, m', _, _, _, _, _, _, _, _, h1, h2, -⟩ := C101_filters_partial Mem.empty 1 db3 (Or.inl ⟨rfl, rfl⟩)
  exact ⟨wb, m', h1, by rw [h2]; rfl⟩

/-- C101 is false for other numbers: instead of being refused, every other number gets a base of length zero without filters. -/
theorem C101_unknown_accepted (m : Mem) (t : Int) (h1 : t ≠ 1) (h2 : t ≠ 2) :
    ∃ wb m', set_wavelet_base t m = .ok (wb, m') ∧ wb.len = 0 ∧ wb.LO_D = none ∧ wb.HI_D = none ∧ wb.LO_R = none ∧ wb.HI_R = none :=
  ⟨_, _, set_run_unknown m t h1 h2, rfl, rfl, rfl, rfl, rfl⟩

example : ∃ t : Int, t ≠ 1 ∧ t ≠ 2 := ⟨3, by norm_num, by norm_num⟩

theorem dev_ok (t : Int) (ht : t = 1 ∨ t = 2) (p : Nat) (hp : p < 2) :
    shiftDev (tablesOf t).1.reverse (tablesOf t).2.1.reverse (tablesOf t).2.2.1.reverse (tablesOf t).2.2.2.reverse (tablesOf t).1.length p ≤ 17300 := by
  rcases ht with rfl | rfl <;> interval_cases p <;> decide +kernel

theorem getD_reverse (l : List Int) (i : Nat) (hi : i < l.length) : l.reverse.getD i 0 = l.getD (l.length - 1 - i) 0 := by
  rw [List.getD_eq_getElem?_getD, List.getD_eq_getElem?_getD, List.getElem?_reverse hi]

theorem tables_len (t : Int) : (tablesOf t).1.length = (bankOf t).len ∧ (tablesOf t).2.1.length = (bankOf t).len ∧ (tablesOf t).2.2.1.length = (bankOf t).len ∧
    (tablesOf t).2.2.2.length = (bankOf t).len ∧ 0 < (bankOf t).len ∧ (bankOf t).len ≤ 16 := by
  unfold tablesOf bankOf
  split <;> simp [db3, bior37, LO_D_db3, HI_D_db3, LO_R_db3, HI_R_db3, LO_D_bior3_7, HI_D_bior3_7, LO_R_bior3_7, HI_R_bior3_7]

theorem tables_le (t : Int) : (∀ x ∈ (tablesOf t).1, |x| ≤ 10000) ∧ (∀ x ∈ (tablesOf t).2.1, |x| ≤ 10000) ∧ (∀ x ∈ (tablesOf t).2.2.1, |x| ≤ 10000) ∧
    (∀ x ∈ (tablesOf t).2.2.2, |x| ≤ 10000) := by
  unfold tablesOf
  split <;> decide

/-- C102: whatever the signal, decomposing it with the two decomposition filters returned by `set_wavelet_base` and putting the halves together with
the two reconstruction filters gives the signal back, delayed by one less than the length of the filters, up to two ten thousandths of its largest
value. -/
theorem C102_reconstruction (m : Mem) (t : Int) (ht : t = 1 ∨ t = 2) :
    ∃ wb m' a b c d L va vb vc vd, set_wavelet_base t m = .ok (wb, m') ∧ wb.len = (L : Nat) ∧
      wb.LO_D = some a ∧ wb.HI_D = some b ∧ wb.LO_R = some c ∧ wb.HI_R = some d ∧
      HasDoubles m' a L va ∧ HasDoubles m' b L vb ∧ HasDoubles m' c L vc ∧ HasDoubles m' d L vd ∧
      ∀ (x : ℤ → ℝ) (B : ℝ), (∀ n, |x n| ≤ B) → ∀ n : ℤ,
        |roundTrip L (fun i => va i) (fun i => vb i) (fun i => vc i) (fun i => vd i) x (n + (L - 1)) - x n| ≤ 2 / 10000 * B := by
  obtain ⟨wb, m', a, b, c, d, va, vb, vc, vd, h1, h2, h3, h4, h5, h6, ⟨h7, h8, h9, h10⟩, -, -, h14⟩ := set_filters m t ht
  refine ⟨wb, m', a, b, c, d, (bankOf t).len, va, vb, vc, vd, h1, h2, h3, h4, h5, h6, h7.1, h8.1, h9.1, h10.1, ?_⟩
  intro x B hx n
  obtain ⟨l1, l2, l3, l4, l5, l6⟩ := tables_len t
  obtain ⟨b1, b2, b3, b4⟩ := tables_le t
  have hB : 0 ≤ B := le_trans (abs_nonneg _) (hx 0)
  generalize hL : (bankOf t).len = L at *
  have small : ∀ (src : List Int) (i : Nat), src.length = L → (∀ x ∈ src, |x| ≤ 10000) → i < L → |((src.reverse.getD i 0 : Int) : ℝ) / 10000| ≤ 1 := by
    intro src i hl hs hi
    rw [abs_div, abs_of_pos (show (0:ℝ) < 10000 by norm_num), div_le_one (by norm_num)]
    have : |src.reverse.getD i 0| ≤ 10000 := by
      rw [List.getD_eq_getElem?_getD, List.getElem?_eq_getElem (by rw [List.length_reverse]; omega)]
      exact hs _ (List.mem_reverse.1 (List.getElem_mem _))
    exact_mod_cast this
  have near := roundTrip_near L (fun i => (va i : ℝ)) (fun i => vb i) (fun i => vc i) (fun i => vd i)
    (fun i => ((tablesOf t).1.reverse.getD i 0 : Int) / 10000) (fun i => ((tablesOf t).2.1.reverse.getD i 0 : Int) / 10000)
    (fun i => ((tablesOf t).2.2.1.reverse.getD i 0 : Int) / 10000) (fun i => ((tablesOf t).2.2.2.reverse.getD i 0 : Int) / 10000)
    x (n + (L - 1)) B (1 / 2 ^ 52) hB (by positivity) hx
    (by
      intro i hi
      refine ⟨?_, small _ i l1 b1 hi⟩
      rw [getD_reverse _ _ (by omega), l1]
      exact (h14 i hi).1)
    (by
      intro i hi
      refine ⟨?_, small _ i l2 b2 hi⟩
      rw [getD_reverse _ _ (by omega), l2]
      exact (h14 i hi).2.1)
    (by
      intro i hi
      have k := (h14 i hi).2.2.1
      rw [← l3, ← getD_reverse _ _ (by omega)] at k
      refine ⟨k, ?_⟩
      have k2 := small _ i l3 b3 hi
      have e := abs_add_le ((vc i : ℝ) - ((tablesOf t).2.2.1.reverse.getD i 0 : Int) / 10000) (((tablesOf t).2.2.1.reverse.getD i 0 : Int) / 10000)
      rw [sub_add_cancel] at e
      have : (1:ℝ) / 2 ^ 52 ≤ 1 := by norm_num
      linarith)
    (by
      intro i hi
      have k := (h14 i hi).2.2.2
      rw [← l4, ← getD_reverse _ _ (by omega)] at k
      refine ⟨k, ?_⟩
      have k2 := small _ i l4 b4 hi
      have e := abs_add_le ((vd i : ℝ) - ((tablesOf t).2.2.2.reverse.getD i 0 : Int) / 10000) (((tablesOf t).2.2.2.reverse.getD i 0 : Int) / 10000)
      rw [sub_add_cancel] at e
      have : (1:ℝ) / 2 ^ 52 ≤ 1 := by norm_num
      linarith)
  have tbl := table_roundTrip (tablesOf t).1.reverse (tablesOf t).2.1.reverse (tablesOf t).2.2.1.reverse (tablesOf t).2.2.2.reverse L l5 x (n + (L - 1)) B hx
  have dev := dev_ok t ht ((n + (L - 1)) % 2).toNat (by omega)
  rw [l1] at dev
  rw [show n + ((L:ℤ) - 1) - ((L - 1 : Nat) : ℤ) = n by omega] at tbl
  have dev' : ((shiftDev (tablesOf t).1.reverse (tablesOf t).2.1.reverse (tablesOf t).2.2.1.reverse (tablesOf t).2.2.2.reverse L ((n + (L - 1)) % 2).toNat : Int) : ℝ)
      ≤ 17300 := by exact_mod_cast dev
  have t2 := tbl.trans (mul_le_mul_of_nonneg_right (div_le_div_of_nonneg_right dev' (by norm_num)) hB)
  have hLr : (L:ℝ) ≤ 16 := by exact_mod_cast l6
  have hLL : (L:ℝ) * L ≤ 256 := by nlinarith [Nat.cast_nonneg (α := ℝ) L]
  have n2 : 2 * (L:ℝ) * L * (3 * (1 / 2 ^ 52)) * B ≤ 1 / 1000000 * B := by
    refine mul_le_mul_of_nonneg_right ?_ hB
    have : 2 * (L:ℝ) * L * (3 * (1 / 2 ^ 52)) ≤ 2 * 256 * (3 * (1 / 2 ^ 52)) := by nlinarith
    refine this.trans (by norm_num)
  have tri := abs_sub_le (roundTrip L (fun i => (va i : ℝ)) (fun i => vb i) (fun i => vc i) (fun i => vd i) x (n + (L - 1)))
    (roundTrip L (fun i => ((tablesOf t).1.reverse.getD i 0 : Int) / 10000) (fun i => ((tablesOf t).2.1.reverse.getD i 0 : Int) / 10000)
    (fun i => ((tablesOf t).2.2.1.reverse.getD i 0 : Int) / 10000) (fun i => ((tablesOf t).2.2.2.reverse.getD i 0 : Int) / 10000) x (n + (L - 1))) (x n)
  refine tri.trans ((add_le_add (near.trans n2) t2).trans ?_)
  linarith

example : ∃ x : ℤ → ℝ, (∀ n, |x n| ≤ 3) ∧ x 5 = 3 := ⟨fun n => if n = 5 then 3 else 0, fun n => by show |if n = 5 then (3:ℝ) else 0| ≤ 3; split <;> norm_num, by norm_num⟩

/-! ### release -/

theorem free_some {m : Mem} {h : Nat} (hh : m.blk h ≠ none) : free h m = .ok ((), m.setBlk h none) := by
  unfold free
  cases e : m.blk h with
  | none => exact absurd e hh
  | some l => rfl

/-- C103: a base returned by `set_wavelet_base`, of whatever kind, is released completely: afterwards exactly the objects exist that existed before. -/
theorem C103_base_round_trip (m : Mem) (hm : m.WF) (t : Int) :
    ∃ wb m1 m2, set_wavelet_base t m = .ok (wb, m1) ∧ wavelet_base_free (some wb) m1 = .ok ((), m2) ∧
      m2.blk = m.blk ∧ m2.hm = m.hm ∧ m2.sm = m.sm := by
  by_cases ht : t = 1 ∨ t = 2
  · have run := set_run_known m t ht
    have key : ∀ a b c d : List Int, ∃ m2, wavelet_base_free (some ⟨m.next, if t = 1 then 6 else 16, some (m.next + 1), some (m.next + 2), some (m.next + 3),
        some (m.next + 4)⟩) (m.withBank a b c d) = .ok ((), m2) ∧ m2.blk = m.blk ∧ m2.hm = m.hm ∧ m2.sm = m.sm := by
      intro a b c d
      obtain ⟨h1, h2, h3, h4⟩ := bank_holds m a b c d
      have h0 : (m.withBank a b c d).blk m.next ≠ none := by
        unfold Mem.withBank Mem.withRev
        rw [grow_blk_ne _ _ _ (by simp; omega), grow_blk_ne _ _ _ (by simp; omega), grow_blk_ne _ _ _ (by simp; omega), grow_blk_ne _ _ _ (by simp)]
        simp [Mem.grow]
      have e1 : (m.withBank a b c d).blk (m.next + 1) ≠ none := by rw [show _ = _ from h1.1]; simp
      have e2 : (m.withBank a b c d).blk (m.next + 2) ≠ none := by rw [show _ = _ from h2.1]; simp
      have e3 : (m.withBank a b c d).blk (m.next + 3) ≠ none := by rw [show _ = _ from h3.1]; simp
      have e4 : (m.withBank a b c d).blk (m.next + 4) ≠ none := by rw [show _ = _ from h4.1]; simp
      refine ⟨(((((m.withBank a b c d).setBlk (m.next + 1) none).setBlk (m.next + 2) none).setBlk (m.next + 3) none).setBlk (m.next + 4) none).setBlk m.next none,
        ?_, ?_, rfl, rfl⟩
      · unfold wavelet_base_free freeOpt
        simp only [bind, M.bind, ne_eq, reduceCtorEq, not_false_eq_true, if_true]
        rw [free_some e1]; simp only []
        rw [free_some (by simpa [Mem.setBlk] using e2)]; simp only []
        rw [free_some (by simpa [Mem.setBlk] using e3)]; simp only []
        rw [free_some (by simpa [Mem.setBlk] using e4)]; simp only []
        rw [free_some (by simpa [Mem.setBlk] using h0)]
      · funext x
        by_cases hx : x < m.next ∨ m.next + 4 < x
        · have : x ≠ m.next ∧ x ≠ m.next + 1 ∧ x ≠ m.next + 2 ∧ x ≠ m.next + 3 ∧ x ≠ m.next + 4 := by omega
          simp only [Mem.setBlk, this.1, this.2.1, this.2.2.1, this.2.2.2.1, this.2.2.2.2, if_false]
          exact bank_blk m a b c d hx
        · have hn := (hm x (by omega)).1
          rw [hn]
          have : x = m.next ∨ x = m.next + 1 ∨ x = m.next + 2 ∨ x = m.next + 3 ∨ x = m.next + 4 := by omega
          rcases this with rfl | rfl | rfl | rfl | rfl <;> simp [Mem.setBlk]
    split at run
    · obtain ⟨m2, h1, h2, h3, h4⟩ := key LO_D_db3 HI_D_db3 LO_R_db3 HI_R_db3
      rw [if_pos (by assumption)] at h1
      exact ⟨_, _, m2, run, h1, h2, h3, h4⟩
    · obtain ⟨m2, h1, h2, h3, h4⟩ := key LO_D_bior3_7 HI_D_bior3_7 LO_R_bior3_7 HI_R_bior3_7
      rw [if_neg (by assumption)] at h1
      exact ⟨_, _, m2, run, h1, h2, h3, h4⟩
  · push Not at ht
    have h0 : (m.grow 40 fun _ => 0).blk m.next ≠ none := by simp [Mem.grow]
    refine ⟨_, _, (m.grow 40 fun _ => 0).setBlk m.next none, set_run_unknown m t ht.1 ht.2, ?_, ?_, rfl, rfl⟩
    · unfold wavelet_base_free
      simp only [bind, M.bind, ne_eq, not_true_eq_false, if_false, pure, M.pure]
      rw [free_some h0]
    · funext x
      by_cases hx : x = m.next
      · subst hx
        simp [Mem.setBlk, (hm m.next (le_refl _)).1]
      · simp [Mem.setBlk, Mem.grow, hx]

example : Mem.empty.WF := empty_WF

/-- C103: releasing nothing does nothing. -/
theorem C103_null (m : Mem) : wavelet_base_free none m = .ok ((), m) ∧ wt_info_free none m = .ok ((), m) ∧ wt_coefset_free none m = .ok ((), m) :=
  ⟨rfl, rfl, rfl⟩

/-- C103 is false for bases that lack the second filter: their fourth filter is never released. -/
theorem C103_fourth_filter_lost (m m' : Mem) (wb : WaveletBase) (h : Nat) (hb : m.blk h ≠ none) (h1 : wb.HI_D = none) (h2 : wb.HI_R = some h)
    (hd : wb.self ≠ h ∧ wb.LO_D ≠ some h ∧ wb.LO_R ≠ some h) (run : wavelet_base_free (some wb) m = .ok ((), m')) : m'.blk h ≠ none := by
  have step : ∀ (p : Option Nat) (m m' : Mem), p ≠ some h → m.blk h ≠ none → freeOpt p m = .ok ((), m') → m'.blk h ≠ none := by
    intro p m m' hp hm hr
    cases p with
    | none => injection hr with hr; injection hr with _ hr; rwa [← hr]
    | some x =>
      have hx : x ≠ h := fun e => hp (by rw [e])
      simp only [freeOpt, free] at hr
      split at hr
      · cases hr
      · injection hr with hr; injection hr with _ hr
        rw [← hr]
        simpa [Mem.setBlk, Ne.symm hx] using hm
  have inv : ∀ (x : M Unit) (f : Unit → M Unit) (m m' : Mem), M.bind x f m = .ok ((), m') → ∃ m1, x m = .ok ((), m1) ∧ f () m1 = .ok ((), m') := by
    intro x f m m' hr
    unfold M.bind at hr
    split at hr
    · cases hr
    · rename_i a m1 e
      exact ⟨m1, e, hr⟩
  have last : ∀ m1 : Mem, m1.blk h ≠ none → free wb.self m1 = .ok ((), m') → m'.blk h ≠ none := fun m1 k r =>
    step (some wb.self) m1 m' (fun e => hd.1 (by injection e)) k r
  have third : ∀ m1 : Mem, m1.blk h ≠ none → (if wb.LO_R ≠ none then M.bind (freeOpt wb.LO_R) fun _ => free wb.self else free wb.self) m1 = .ok ((), m') →
      m'.blk h ≠ none := by
    intro m1 k r
    split at r
    · obtain ⟨m2, r1, r2⟩ := inv _ _ _ _ r
      exact last m2 (step _ _ _ hd.2.2 k r1) r2
    · exact last m1 k r
  unfold wavelet_base_free at run
  simp only [bind, h1, h2, ne_eq, not_true_eq_false, if_false] at run
  split at run
  · obtain ⟨m2, r1, r2⟩ := inv _ _ _ _ run
    exact third m2 (step _ _ _ hd.2.1 hb r1) r2
  · exact third m hb run

example : ∃ (m m' : Mem) (wb : WaveletBase) (h : Nat), m.blk h ≠ none ∧ wb.HI_D = none ∧ wb.HI_R = some h ∧
    (wb.self ≠ h ∧ wb.LO_D ≠ some h ∧ wb.LO_R ≠ some h) ∧ wavelet_base_free (some wb) m = .ok ((), m') :=
  ⟨(Mem.empty.grow 40 fun _ => 0).grow 48 fun _ => 0, ((Mem.empty.grow 40 fun _ => 0).grow 48 fun _ => 0).setBlk 0 none,
    { self := 0, len := 6, LO_D := none, HI_D := none, LO_R := none, HI_R := some 1 }, 1, by simp [Mem.grow, Mem.empty], rfl, rfl, by simp, rfl⟩

/-- C103: `wt_info_free` releases the structure and the arrays that are there, and nothing else. -/
theorem C103_info (m : Mem) (w : WtInfo) (h0 : m.blk w.self ≠ none) (hc : ∀ x, w.c = some x → m.blk x ≠ none ∧ x ≠ w.self)
    (hs : ∀ x, w.s = some x → m.blk x ≠ none ∧ x ≠ w.self ∧ w.c ≠ some x) :
    ∃ m', wt_info_free (some w) m = .ok ((), m') ∧ Released m m' (fun x => x = w.self ∨ w.c = some x ∨ w.s = some x) (fun _ => False) := by
  obtain ⟨self, c, s⟩ := w
  simp only at *
  unfold wt_info_free
  cases c with
  | none =>
    cases s with
    | none =>
      simp only [bind, M.bind, ne_eq, not_true_eq_false, if_false, pure, M.pure]
      rw [free_some h0]
      refine ⟨_, rfl, rfl, ?_, ?_, by simp, fun _ _ => rfl⟩ <;> intro x <;> simp [Mem.setBlk] <;> intros <;> simp_all
    | some y =>
      have := hs y rfl
      simp only [bind, M.bind, ne_eq, not_true_eq_false, if_false, pure, M.pure, reduceCtorEq, not_false_eq_true, if_true, freeOpt]
      rw [free_some this.1]
      simp only []
      rw [free_some (by simpa [Mem.setBlk, Ne.symm this.2.1] using h0)]
      refine ⟨_, rfl, rfl, ?_, ?_, by simp, fun _ _ => rfl⟩ <;> intro x <;> simp [Mem.setBlk] <;> intros <;> simp_all
      all_goals grind
  | some z =>
    have hz := hc z rfl
    cases s with
    | none =>
      simp only [bind, M.bind, ne_eq, not_true_eq_false, if_false, pure, M.pure, reduceCtorEq, not_false_eq_true, if_true, freeOpt]
      rw [free_some hz.1]
      simp only []
      rw [free_some (by simpa [Mem.setBlk, Ne.symm hz.2] using h0)]
      refine ⟨_, rfl, rfl, ?_, ?_, by simp, fun _ _ => rfl⟩ <;> intro x <;> simp [Mem.setBlk] <;> intros <;> simp_all
      all_goals grind
    | some y =>
      have := hs y rfl
      have hne : z ≠ y := fun e => this.2.2 (by rw [e])
      simp only [bind, M.bind, ne_eq, pure, M.pure, reduceCtorEq, not_false_eq_true, if_true, freeOpt]
      rw [free_some hz.1]
      simp only []
      rw [free_some (by simpa [Mem.setBlk, Ne.symm hne] using this.1)]
      simp only []
      rw [free_some (by simpa [Mem.setBlk, Ne.symm hz.2, Ne.symm this.2.1] using h0)]
      refine ⟨_, rfl, rfl, ?_, ?_, by simp, fun _ _ => rfl⟩ <;> intro x <;> simp [Mem.setBlk] <;> intros <;> simp_all
      all_goals grind

example : ∃ (m : Mem) (w : WtInfo), m.blk w.self ≠ none ∧ (∀ x, w.c = some x → m.blk x ≠ none ∧ x ≠ w.self) ∧
    (∀ x, w.s = some x → m.blk x ≠ none ∧ x ≠ w.self ∧ w.c ≠ some x) ∧ w.c ≠ none ∧ w.s ≠ none :=
  ⟨((Mem.empty.grow 40 fun _ => 0).grow 48 fun _ => 0).grow 24 fun _ => 0, ⟨0, some 1, some 2⟩, by simp [Mem.grow, Mem.empty],
    by intro x hx; injection hx with hx; subst hx; simp [Mem.grow, Mem.empty], by intro x hx; injection hx with hx; subst hx; simp [Mem.grow, Mem.empty],
    by simp, by simp⟩

/-- the image `p`, if there is one, is gone -/
def GoneImg (m m' : Mem) (p : Option Nat) : Prop :=
  m'.hm = m.hm ∧ (∀ x, KeepsIn m p x → m'.blk x = none) ∧ (∀ x, ¬ KeepsIn m p x → m'.blk x = m.blk x) ∧
    (∀ a, p = some a → m'.sm a = none) ∧ (∀ a, p ≠ some a → m'.sm a = m.sm a)

theorem freePlain_gone (m : Mem) (p : Option Nat) (hp : ∀ a, p = some a → m.sm a ≠ none) : ∃ m', freePlain p m = .ok ((), m') ∧ GoneImg m m' p := by
  cases p with
  | none =>
    refine ⟨m, rfl, rfl, ?_, fun _ _ => rfl, by simp, fun _ _ => rfl⟩
    rintro x ⟨a, h, e, -⟩
    cases e
  | some a =>
    cases e : m.sm a with
    | none => exact absurd e (hp a rfl)
    | some h =>
      refine ⟨{ m with sm := fun q => if q = a then none else m.sm q, blk := fun q => if q = h.data ∧ h.inl = true then none else m.blk q }, ?_, rfl, ?_, ?_, ?_, ?_⟩
      · simp [freePlain, e, freeImage]
      · rintro x ⟨a', h', e1, e2, e3, e4⟩
        injection e1 with e1
        subst e1
        rw [e] at e2
        injection e2 with e2
        subst e2
        simp [e3, e4]
      · intro x hx
        have : ¬ (x = h.data ∧ h.inl = true) := fun ⟨e1, e2⟩ => hx ⟨a, h, rfl, e, e2, e1.symm⟩
        simp [this]
      · intro a' e1
        injection e1 with e1
        simp [e1]
      · intro a' e1
        have : a' ≠ a := fun h => e1 (by rw [h])
        simp [this]

theorem freePlain_if (m : Mem) (p : Option Nat) (k : M Unit) (hp : ∀ a, p = some a → m.sm a ≠ none) :
    ∃ m1, GoneImg m m1 p ∧ (if p ≠ none then M.bind (freePlain p) fun _ => k else k) m = k m1 := by
  obtain ⟨m1, h1, h2⟩ := freePlain_gone m p hp
  refine ⟨m1, h2, ?_⟩
  split
  · unfold M.bind
    rw [h1]
  · rename_i h
    have hn : p = none := by simpa using h
    subst hn
    injection h1 with h1
    injection h1 with _ h1
    rw [h1]

theorem GoneImg.sm_ne {m m' : Mem} {p q : Option Nat} (h : GoneImg m m' p) (hne : ∀ a, p = some a → q ≠ some a) (hq : ∀ a, q = some a → m.sm a ≠ none) :
    ∀ a, q = some a → m'.sm a ≠ none := by
  intro a ha
  rw [h.2.2.2.2 a (fun e => hne a e ha)]
  exact hq a ha

theorem GoneImg.keeps {m m' : Mem} {p q : Option Nat} (h : GoneImg m m' p) (hne : ∀ a, p = some a → q ≠ some a) (x : Nat) : KeepsIn m' q x ↔ KeepsIn m q x := by
  constructor
  · rintro ⟨a, hd, e1, e2, e3⟩
    rw [h.2.2.2.2 a (fun e => hne a e e1)] at e2
    exact ⟨a, hd, e1, e2, e3⟩
  · rintro ⟨a, hd, e1, e2, e3⟩
    refine ⟨a, hd, e1, ?_, e3⟩
    rw [h.2.2.2.2 a (fun e => hne a e e1)]
    exact e2

/-- C103: `wt_coefset_free` releases the structure and the images in it (their headers, and pixels in the same allocation), and nothing else. -/
theorem C103_coefset_partial (m : Mem) (cs : WtCoefset) (h0 : m.blk cs.self ≠ none)
    (hex : ∀ p ∈ [cs.A_LL, cs.H_LH, cs.V_HL, cs.D_HH], ∀ a, p = some a → m.sm a ≠ none)
    (hne : [cs.A_LL, cs.H_LH, cs.V_HL, cs.D_HH].Pairwise fun p q => ∀ a, p = some a → q ≠ some a)
    (hself : ∀ p ∈ [cs.A_LL, cs.H_LH, cs.V_HL, cs.D_HH], ¬ KeepsIn m p cs.self) :
    ∃ m', wt_coefset_free (some cs) m = .ok ((), m') ∧
      Released m m' (fun x => x = cs.self ∨ ∃ p ∈ [cs.A_LL, cs.H_LH, cs.V_HL, cs.D_HH], KeepsIn m p x) (fun a => some a ∈ [cs.A_LL, cs.H_LH, cs.V_HL, cs.D_HH]) := by
  obtain ⟨self, A, H, V, D⟩ := cs
  simp only [List.mem_cons, List.not_mem_nil, or_false, forall_eq_or_imp, forall_eq, List.pairwise_cons, List.Pairwise.nil, and_true,
    IsEmpty.forall_iff, implies_true, exists_eq_or_imp, exists_eq_left] at *
  obtain ⟨xA, xH, xV, xD⟩ := hex
  obtain ⟨⟨nAH, nAV, nAD⟩, ⟨nHV, nHD⟩, nVD⟩ := hne
  obtain ⟨sA, sH, sV, sD⟩ := hself
  unfold wt_coefset_free
  simp only [bind]
  obtain ⟨m1, g1, r1⟩ := freePlain_if m A (if H ≠ none then M.bind (freePlain H) fun _ => if V ≠ none then M.bind (freePlain V) fun _ => if D ≠ none then M.bind (freePlain D) fun _ => free self else free self else if D ≠ none then M.bind (freePlain D) fun _ => free self else free self else if V ≠ none then M.bind (freePlain V) fun _ => if D ≠ none then M.bind (freePlain D) fun _ => free self else free self else if D ≠ none then M.bind (freePlain D) fun _ => free self else free self) xA
  obtain ⟨m2, g2, r2⟩ := freePlain_if m1 H (if V ≠ none then M.bind (freePlain V) fun _ => if D ≠ none then M.bind (freePlain D) fun _ => free self else free self else if D ≠ none then M.bind (freePlain D) fun _ => free self else free self) (g1.sm_ne nAH xH)
  obtain ⟨m3, g3, r3⟩ := freePlain_if m2 V (if D ≠ none then M.bind (freePlain D) fun _ => free self else free self) (g2.sm_ne nHV (g1.sm_ne nAV xV))
  obtain ⟨m4, g4, r4⟩ := freePlain_if m3 D (free self) (g3.sm_ne nVD (g2.sm_ne nHD (g1.sm_ne nAD xD)))
  have k2 : ∀ x, KeepsIn m1 H x ↔ KeepsIn m H x := g1.keeps nAH
  have k3 : ∀ x, KeepsIn m2 V x ↔ KeepsIn m V x := fun x => (g2.keeps nHV x).trans (g1.keeps nAV x)
  have k4 : ∀ x, KeepsIn m3 D x ↔ KeepsIn m D x := fun x => ((g3.keeps nVD x).trans (g2.keeps nHD x)).trans (g1.keeps nAD x)
  have alive : m4.blk self ≠ none := by
    rw [g4.2.2.1 self (fun h => sD ((k4 self).1 h)), g3.2.2.1 self (fun h => sV ((k3 self).1 h)), g2.2.2.1 self (fun h => sH ((k2 self).1 h)), g1.2.2.1 self sA]
    exact h0
  refine ⟨m4.setBlk self none, ?_, ?_, ?_, ?_, ?_, ?_⟩
  · rw [show (if ¬A = none then _ else _ : M Unit) m = _ from r1, r2, r3, r4, free_some alive]
  · show m4.hm = m.hm
    rw [g4.1, g3.1, g2.1, g1.1]
  · intro x hx
    by_cases hxs : x = self
    · simp [Mem.setBlk, hxs]
    · show (if x = self then none else m4.blk x) = none
      rw [if_neg hxs]
      by_cases hD : KeepsIn m3 D x
      · exact g4.2.1 x hD
      rw [g4.2.2.1 x hD]
      by_cases hV : KeepsIn m2 V x
      · exact g3.2.1 x hV
      rw [g3.2.2.1 x hV]
      by_cases hH : KeepsIn m1 H x
      · exact g2.2.1 x hH
      rw [g2.2.2.1 x hH]
      rw [k2] at hH; rw [k3] at hV; rw [k4] at hD
      exact g1.2.1 x (by tauto)
  · intro x hx
    push Not at hx
    show (if x = self then none else m4.blk x) = m.blk x
    rw [if_neg hx.1, g4.2.2.1 x (fun h => hx.2.2.2.2 ((k4 x).1 h)), g3.2.2.1 x (fun h => hx.2.2.2.1 ((k3 x).1 h)), g2.2.2.1 x (fun h => hx.2.2.1 ((k2 x).1 h)),
      g1.2.2.1 x hx.2.1]
  · intro a ha
    show m4.sm a = none
    by_cases hD : D = some a
    · exact g4.2.2.2.1 a hD
    rw [g4.2.2.2.2 a hD]
    by_cases hV : V = some a
    · exact g3.2.2.2.1 a hV
    rw [g3.2.2.2.2 a hV]
    by_cases hH : H = some a
    · exact g2.2.2.2.1 a hH
    rw [g2.2.2.2.2 a hH]
    exact g1.2.2.2.1 a (by rcases ha with h | h | h | h <;> first | exact h.symm | exact absurd h.symm (by assumption))
  · intro a ha
    push Not at ha
    show m4.sm a = m.sm a
    rw [g4.2.2.2.2 a ha.2.2.2.symm, g3.2.2.2.2 a ha.2.2.1.symm, g2.2.2.2.2 a ha.2.1.symm, g1.2.2.2.2 a ha.1.symm]

example : ∃ (m : Mem) (cs : WtCoefset), m.blk cs.self ≠ none ∧ (∀ p ∈ [cs.A_LL, cs.H_LH, cs.V_HL, cs.D_HH], ∀ a, p = some a → m.sm a ≠ none) ∧
    ([cs.A_LL, cs.H_LH, cs.V_HL, cs.D_HH].Pairwise fun p q => ∀ a, p = some a → q ≠ some a) ∧
    (∀ p ∈ [cs.A_LL, cs.H_LH, cs.V_HL, cs.D_HH], ¬ KeepsIn m p cs.self) ∧ cs.A_LL ≠ none ∧ cs.H_LH ≠ none := by
  refine ⟨{ (((Mem.empty.grow 32 fun _ => 0).grow 4 fun _ => 0).grow 4 fun _ => 0) with
      sm := fun p => if p = 3 then some ⟨2, 2, 1, 1, 1, 1, true⟩ else if p = 4 then some ⟨2, 2, 1, 1, 1, 2, true⟩ else none, next := 5 },
    ⟨0, some 3, some 4, none, none⟩, by simp [Mem.grow, Mem.empty], by simp, by simp, ?_, by simp, by simp⟩
  rintro p hp ⟨a, h, rfl, e, -, e'⟩
  simp at hp
  rcases hp with rfl | rfl
  · simp at e
    rw [← e] at e'
    simp at e'
  · simp at e
    rw [← e] at e'
    simp at e'

/-- C103 is false for images whose pixels are in a block of their own (made by `create_simple_mat_with_data` or `smread`): the pixels are never released
and, the header being gone, nobody can. -/
theorem C103_pixels_lost (m : Mem) (cs : WtCoefset) (a : Nat) (h : SimpleMat) (h0 : m.blk cs.self ≠ none) (hA : cs.A_LL = some a) (hh : m.sm a = some h)
    (hi : h.inl = false) (hs : h.data ≠ cs.self) (hn : cs.H_LH = none ∧ cs.V_HL = none ∧ cs.D_HH = none) :
    ∃ m', wt_coefset_free (some cs) m = .ok ((), m') ∧ m'.sm a = none ∧ m'.blk h.data = m.blk h.data := by
  have notA : ∀ x, ¬ KeepsIn m (some a) x := by
    rintro x ⟨a', h', e1, e2, e3, -⟩
    injection e1 with e1
    subst e1
    rw [hh] at e2
    injection e2 with e2
    subst e2
    simp [hi] at e3
  have notN : ∀ x, ¬ KeepsIn m none x := by
    rintro x ⟨a', h', e1, -⟩
    cases e1
  obtain ⟨m', r, h1, h2, h3, h4, h5⟩ := C103_coefset_partial m cs h0
    (by
      rw [hA, hn.1, hn.2.1, hn.2.2]
      intro p hp b hb
      subst hb
      simp at hp
      subst hp
      simp [hh])
    (by rw [hA, hn.1, hn.2.1, hn.2.2]; simp)
    (by
      rw [hA, hn.1, hn.2.1, hn.2.2]
      intro p hp
      simp at hp
      rcases hp with rfl | rfl
      · exact notA _
      · exact notN _)
  refine ⟨m', r, h4 a (by rw [hA]; simp), h3 _ ?_⟩
  rw [hA, hn.1, hn.2.1, hn.2.2]
  rintro (e | ⟨p, hp, e⟩)
  · exact hs e
  · simp at hp
    rcases hp with rfl | rfl
    · exact notA _ e
    · exact notN _ e

example : ∃ (m : Mem) (cs : WtCoefset) (a : Nat) (h : SimpleMat), m.blk cs.self ≠ none ∧ cs.A_LL = some a ∧ m.sm a = some h ∧ h.inl = false ∧ h.data ≠ cs.self ∧
    (cs.H_LH = none ∧ cs.V_HL = none ∧ cs.D_HH = none) ∧ m.blk h.data ≠ none :=
  ⟨{ ((Mem.empty.grow 32 fun _ => 0).grow 4 fun _ => 0) with sm := fun p => if p = 2 then some ⟨2, 2, 1, 1, 1, 1, false⟩ else none, next := 3 },
    ⟨0, some 2, none, none, none⟩, 2, ⟨2, 2, 1, 1, 1, 1, false⟩, by simp [Mem.grow, Mem.empty], rfl, rfl, rfl, by simp, by simp, by simp [Mem.grow, Mem.empty]⟩

end HyperCV
