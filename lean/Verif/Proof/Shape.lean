import Verif.Proof.Otsu
import Verif.Proof.Approx
import Verif.Model.Shape
import Verif.Spec.Shape

namespace HyperCV
open Spec Finset

/-! ### Sums over an image, pixel by pixel -/

/-- the sum over the pixels before `(j, i)` -/
def part (C : Nat) (g : Nat → Nat → Int) (j i : Nat) : Int := ∑ j' ∈ range j, ∑ i' ∈ range C, g j' i' + ∑ i' ∈ range i, g j i'

theorem part_zero (C : Nat) (g : Nat → Nat → Int) : part C g 0 0 = 0 := by simp [part]

theorem part_succ (C : Nat) (g : Nat → Nat → Int) (j i : Nat) : part C g j (i + 1) = part C g j i + g j i := by
  unfold part
  rw [sum_range_succ, add_assoc]

theorem part_row (C : Nat) (g : Nat → Nat → Int) (j : Nat) : part C g j C = part C g (j + 1) 0 := by
  unfold part
  rw [sum_range_succ, sum_range_zero, add_zero]

theorem part_end (C : Nat) (g : Nat → Nat → Int) (R : Nat) : part C g R 0 = ∑ j ∈ range R, ∑ i ∈ range C, g j i := by
  unfold part
  rw [sum_range_zero, add_zero]

theorem part_le {R C : Nat} {g : Nat → Nat → Int} {B : Nat} (hg : ∀ j i, j < R → i < C → |g j i| ≤ B) {j i : Nat} (hj : j < R) (hi : i ≤ C) :
    |part C g j i| ≤ (j * C + i : Nat) * (B:Int) := by
  unfold part
  refine le_trans (abs_add_le _ _) ?_
  have h1 : |∑ j' ∈ range j, ∑ i' ∈ range C, g j' i'| ≤ (j * C : Nat) * (B:Int) := by
    refine le_trans (abs_sum_le_sum_abs _ _) ?_
    calc ∑ j' ∈ range j, |∑ i' ∈ range C, g j' i'| ≤ ∑ j' ∈ range j, (C * B : Int) := by
          refine sum_le_sum fun j' hj' => le_trans (abs_sum_le_sum_abs _ _) ?_
          calc ∑ i' ∈ range C, |g j' i'| ≤ ∑ i' ∈ range C, (B:Int) :=
                sum_le_sum fun i' hi' => hg j' i' (by have := mem_range.1 hj'; omega) (mem_range.1 hi')
            _ = C * B := by simp
      _ = (j * C : Nat) * (B:Int) := by simp; ring
  have h2 : |∑ i' ∈ range i, g j i'| ≤ i * (B:Int) := by
    refine le_trans (abs_sum_le_sum_abs _ _) ?_
    calc ∑ i' ∈ range i, |g j i'| ≤ ∑ i' ∈ range i, (B:Int) :=
          sum_le_sum fun i' hi' => hg j i' hj (by have := mem_range.1 hi'; omega)
      _ = i * B := by simp
  calc |∑ j' ∈ range j, ∑ i' ∈ range C, g j' i'| + |∑ i' ∈ range i, g j i'| ≤ (j * C : Nat) * (B:Int) + i * (B:Int) := add_le_add h1 h2
    _ = (j * C + i : Nat) * (B:Int) := by push_cast; ring

/-- adding one pixel is exact -/
theorem part_add {R C B : Nat} {g : Nat → Nat → Int} (hg : ∀ j i, j < R → i < C → |g j i| ≤ B) (hB : R * C * B ≤ 9007199254740992) {j i : Nat}
    (hj : j < R) (hi : i < C) {s v : FV} (hs : s.Is ((part C g j i : Int) : ℚ)) (hv : v.Is ((g j i : Int) : ℚ)) :
    (f64.add s v).Is ((part C g j (i + 1) : Int) : ℚ) := by
  have hb := part_le hg hj (show i + 1 ≤ C by omega)
  have hle : (j * C + (i + 1)) * B ≤ R * C * B := by
    refine Nat.mul_le_mul_right _ ?_
    have := Nat.mul_le_mul_right C (show j + 1 ≤ R by omega)
    rw [Nat.succ_mul] at this
    omega
  have r := rep64_int (n := part C g j (i + 1)) (by
    refine le_trans hb ?_
    have : ((j * C + (i + 1) : Nat) : Int) * (B:Int) = (((j * C + (i + 1)) * B : Nat) : Int) := by push_cast; ring
    rw [this]
    omega)
  rw [part_succ] at r ⊢
  push_cast at r ⊢
  exact is_add hs hv r

theorem is_int64' {n : Int} (h : |n| ≤ 9007199254740992) : (f64.ofInt n).Is (n:ℚ) := is_ofInt (rep64_int h)

/-- two loops that take the same steps -/
theorem forA_inv2 {σ : Type} {n : Nat} {body body' : Int → σ → M σ} {m m' : Mem} {s0 : σ} (P : Nat → σ → Prop) (h0 : P 0 s0)
    (hs : ∀ x s, x < n → P x s → ∃ s', body (x:Int) s m = .ok (s', m) ∧ body' (x:Int) s m' = .ok (s', m') ∧ P (x+1) s') :
    ∃ s', forA 0 (n:Int) s0 body m = .ok (s', m) ∧ forA 0 (n:Int) s0 body' m' = .ok (s', m') ∧ P n s' := by
  have gen : ∀ k x s, x + k = n → P x s → ∃ s', forLoop body k (x:Int) s m = .ok (s', m) ∧ forLoop body' k (x:Int) s m' = .ok (s', m') ∧ P n s' := by
    intro k
    induction k with
    | zero =>
      intro x s hx hP
      obtain rfl : x = n := by omega
      exact ⟨s, rfl, rfl, hP⟩
    | succ k ih =>
      intro x s hx hP
      obtain ⟨s', e, e', hP'⟩ := hs x s (by omega) hP
      obtain ⟨s'', r, r', hP''⟩ := ih (x + 1) s' (by omega) hP'
      refine ⟨s'', ?_, ?_, hP''⟩
      · unfold forLoop
        rw [bind_ok e]
        exact_mod_cast r
      · unfold forLoop
        rw [bind_ok e']
        exact_mod_cast r'
  unfold forA
  rw [show ((n:Int) - 0).toNat = n by omega]
  exact gen n 0 s0 (by omega) h0

/-- the grey value of a pixel -/
def grey (C : Nat) (by' : Nat → UInt8) (j i : Nat) : Nat := (by' (j * C + i)).toNat

theorem greyC_le (C : Nat) (b : Nat → UInt8) (j i : Nat) : grey C b j i ≤ 255 := by
  have := UInt8.toNat_lt (b (j * C + i))
  unfold grey
  omega

theorem shape_index {R C j i : Nat} (hR : R ≤ 512) (hC : C ≤ 512) (hj : j < R) (hi : i < C) :
    (CI.lit (j:Int) * CI.lit (C:Int) + CI.lit (i:Int) : CI) = CI.lit ((j * C + i : Nat) : Int) ∧ j * C + i < R * C := by
  have h1 := mix_lt hj hi
  have h2 : R * C ≤ 512 * 512 := Nat.mul_le_mul hR hC
  refine ⟨?_, h1⟩
  have h : j * C + i < 2147483648 := by omega
  have hC0 : 0 < C := by omega
  ci_down

theorem huFirst_run {m m' : Mem} {sd sd' R C : Nat} {b : Nat → UInt8} (hR : R ≤ 512) (hC : C ≤ 512) (hb : ∀ x : Nat, x < R * C → load sd (x:Int) m = .ok (b x, m))
    (hb' : ∀ x : Nat, x < R * C → load sd' (x:Int) m' = .ok (b x, m')) :
    ∃ s, huFirst sd R C C m = .ok (s, m) ∧ huFirst sd' R C C m' = .ok (s, m') ∧ s.s10.Is (massX R C (grey C b) : ℚ) ∧ s.s01.Is (massY R C (grey C b) : ℚ) ∧ s.s00.Is (mass R C (grey C b) : ℚ) := by
  have hRC : R * C ≤ 512 * 512 := Nat.mul_le_mul hR hC
  set g1 : Nat → Nat → Int := fun j i => ((i * grey C b j i : Nat) : Int) with hg1
  set g2 : Nat → Nat → Int := fun j i => ((j * grey C b j i : Nat) : Int) with hg2
  set g3 : Nat → Nat → Int := fun j i => ((grey C b j i : Nat) : Int) with hg3
  have b1 : ∀ j i, j < R → i < C → |g1 j i| ≤ (130560 : Nat) := by
    intro j i hj hi
    have := Nat.mul_le_mul (show i ≤ 512 by omega) (greyC_le C b j i)
    rw [hg1]; dsimp only; rw [abs_of_nonneg (by omega)]; omega
  have b2 : ∀ j i, j < R → i < C → |g2 j i| ≤ (130560 : Nat) := by
    intro j i hj hi
    have := Nat.mul_le_mul (show j ≤ 512 by omega) (greyC_le C b j i)
    rw [hg2]; dsimp only; rw [abs_of_nonneg (by omega)]; omega
  have b3 : ∀ j i, j < R → i < C → |g3 j i| ≤ (130560 : Nat) := by
    intro j i hj hi
    have := greyC_le C b j i
    rw [hg3]; dsimp only; rw [abs_of_nonneg (by omega)]; omega
  have hB : R * C * 130560 ≤ 9007199254740992 := by omega
  let P : Nat → Nat → HuFirst → Prop := fun j i s => s.s10.Is ((part C g1 j i : Int) : ℚ) ∧ s.s01.Is ((part C g2 j i : Int) : ℚ) ∧ s.s00.Is ((part C g3 j i : Int) : ℚ)
  have key : ∃ s, huFirst sd R C C m = .ok (s, m) ∧ huFirst sd' R C C m' = .ok (s, m') ∧ P R 0 s := by
    unfold huFirst
    refine forA_inv2 (n := R) (m := m) (m' := m') (fun j s => P j 0 s) ?_ ?_
    · refine ⟨?_, ?_, ?_⟩ <;> rw [part_zero] <;> exact ⟨false, by simp⟩
    · intro j s hj hs
      have := forA_inv2 (n := C) (m := m) (m' := m') (s0 := s) (fun i s => P j i s) hs (body := fun i s => (do
        let a ← ev (CI.lit (j:Int) * CI.lit (C:Int) + CI.lit i)
        let b ← load sd a
        let x ← ev (CI.lit i * CI.lit (ival b))
        let y ← ev (CI.lit (j:Int) * CI.lit (ival b))
        pure ⟨f64.add s.s10 (f64.ofInt x), f64.add s.s01 (f64.ofInt y), f64.add s.s00 (f64.ofInt (ival b))⟩ : M HuFirst))
        (body' := fun i s => (do
        let a ← ev (CI.lit (j:Int) * CI.lit (C:Int) + CI.lit i)
        let b ← load sd' a
        let x ← ev (CI.lit i * CI.lit (ival b))
        let y ← ev (CI.lit (j:Int) * CI.lit (ival b))
        pure ⟨f64.add s.s10 (f64.ofInt x), f64.add s.s01 (f64.ofInt y), f64.add s.s00 (f64.ofInt (ival b))⟩ : M HuFirst)) (by
        intro i s hi hs
        obtain ⟨e, hlt⟩ := shape_index hR hC hj hi
        obtain ⟨p1, p2, p3⟩ := hs
        have q1 := b1 j i hj hi
        have q2 := b2 j i hj hi
        have q3 := b3 j i hj hi
        have i1 := is_int64' (n := g1 j i) (by omega)
        have i2 := is_int64' (n := g2 j i) (by omega)
        have i3 := is_int64' (n := g3 j i) (by omega)
        have e1 : (CI.lit (i:Int) * CI.lit (ival (b (j * C + i))) : CI) = CI.lit (g1 j i) := by
          have : (i:Int) * ival (b (j * C + i)) = g1 j i := by rw [hg1]; push_cast; rfl
          rw [CI.mul_ok (by rw [this]; rw [abs_le] at q1; constructor <;> omega), this]
        have e2 : (CI.lit (j:Int) * CI.lit (ival (b (j * C + i))) : CI) = CI.lit (g2 j i) := by
          have : (j:Int) * ival (b (j * C + i)) = g2 j i := by rw [hg2]; push_cast; rfl
          rw [CI.mul_ok (by rw [this]; rw [abs_le] at q2; constructor <;> omega), this]
        refine ⟨⟨f64.add s.s10 (f64.ofInt (g1 j i)), f64.add s.s01 (f64.ofInt (g2 j i)), f64.add s.s00 (f64.ofInt (g3 j i))⟩, ?_, ?_, ?_⟩
        · rw [ev_bind e, bind_ok (hb _ hlt), ev_bind e1, ev_bind e2]
          rfl
        · rw [ev_bind e, bind_ok (hb' _ hlt), ev_bind e1, ev_bind e2]
          rfl
        · exact ⟨part_add b1 hB hj hi p1 i1, part_add b2 hB hj hi p2 i2, part_add b3 hB hj hi p3 i3⟩)
      obtain ⟨s', r1, r1', r2⟩ := this
      refine ⟨s', r1, r1', ?_⟩
      obtain ⟨t1, t2, t3⟩ := r2
      rw [part_row] at t1 t2 t3
      exact ⟨t1, t2, t3⟩
  obtain ⟨s, k1, k1', k2, k3, k4⟩ := key
  rw [part_end] at k2 k3 k4
  refine ⟨s, k1, k1', ?_, ?_, ?_⟩
  · convert k2 using 1; rw [hg1]; unfold massX; push_cast; rfl
  · convert k3 using 1; rw [hg2]; unfold massY; push_cast; rfl
  · convert k4 using 1; rw [hg3]; unfold mass; push_cast; rfl

/-! ### The moments about the centre -/

/-- one term of a moment -/
def momTerm (C : Nat) (b : Nat → UInt8) (cx cy p q j i : Nat) : Int := ((i:Int) - cx) ^ p * ((j:Int) - cy) ^ q * grey C b j i

theorem abs_pow_le {x : Int} (h : |x| ≤ 511) (p : Nat) : |x ^ p| ≤ 511 ^ p := by
  rw [abs_pow]
  exact pow_le_pow_left₀ (abs_nonneg _) h p

theorem momTerm_le {R C : Nat} {b : Nat → UInt8} {cx cy p q : Nat} (hR : R ≤ 512) (hC : C ≤ 512) (hx : cx ≤ 511) (hy : cy ≤ 511) (hpq : p + q ≤ 3) :
    ∀ j i, j < R → i < C → |momTerm C b cx cy p q j i| ≤ (34025461905 : Nat) := by
  intro j i hj hi
  unfold momTerm
  have h1 : |(i:Int) - cx| ≤ 511 := by rw [abs_le]; constructor <;> omega
  have h2 : |(j:Int) - cy| ≤ 511 := by rw [abs_le]; constructor <;> omega
  have h3 : |((grey C b j i : Nat) : Int)| ≤ 255 := by
    have := greyC_le C b j i
    rw [abs_of_nonneg (by omega)]; omega
  rw [abs_mul, abs_mul]
  have h4 : |((i:Int) - cx) ^ p| * |((j:Int) - cy) ^ q| ≤ 511 ^ 3 := by
    calc |((i:Int) - cx) ^ p| * |((j:Int) - cy) ^ q| ≤ 511 ^ p * 511 ^ q := mul_le_mul (abs_pow_le h1 p) (abs_pow_le h2 q) (abs_nonneg _) (by positivity)
      _ = 511 ^ (p + q) := by rw [pow_add]
      _ ≤ 511 ^ 3 := pow_le_pow_right₀ (by norm_num) hpq
  calc |((i:Int) - cx) ^ p| * |((j:Int) - cy) ^ q| * |((grey C b j i : Nat) : Int)| ≤ 511 ^ 3 * 255 := mul_le_mul h4 h3 (abs_nonneg _) (by norm_num)
    _ ≤ (34025461905 : Nat) := by norm_num

theorem is_mul_int {a b : FV} {x y : Int} (ha : a.Is (x:ℚ)) (hb : b.Is (y:ℚ)) (h : |x * y| ≤ 9007199254740992) : (f64.mul a b).Is ((x * y : Int) : ℚ) := by
  have r := rep64_int h
  push_cast at r ⊢
  exact is_mul ha hb r

theorem huMoments_run {m m' : Mem} {sd sd' R C cx cy : Nat} {b : Nat → UInt8} (hR : R ≤ 512) (hC : C ≤ 512) (hx : cx ≤ 511) (hy : cy ≤ 511) 
    (hb : ∀ x : Nat, x < R * C → load sd (x:Int) m = .ok (b x, m)) (hb' : ∀ x : Nat, x < R * C → load sd' (x:Int) m' = .ok (b x, m')) : ∃ s, huMoments sd R C C cx cy m = .ok (s, m) ∧ huMoments sd' R C C cx cy m' = .ok (s, m') ∧
      let M := fun p q => ((∑ j ∈ range R, ∑ i ∈ range C, momTerm C b cx cy p q j i : Int) : ℚ)
      s.m11.Is (M 1 1) ∧ s.m20.Is (M 2 0) ∧ s.m02.Is (M 0 2) ∧ s.m03.Is (M 0 3) ∧ s.m30.Is (M 3 0) ∧ s.m12.Is (M 1 2) ∧ s.m21.Is (M 2 1) := by
  have hRC : R * C ≤ 512 * 512 := Nat.mul_le_mul hR hC
  have hB : R * C * 34025461905 ≤ 9007199254740992 := by omega
  let P : Nat → Nat → HuMoments → Prop := fun j i s =>
    s.m11.Is ((part C (momTerm C b cx cy 1 1) j i : Int) : ℚ) ∧ s.m20.Is ((part C (momTerm C b cx cy 2 0) j i : Int) : ℚ) ∧
    s.m02.Is ((part C (momTerm C b cx cy 0 2) j i : Int) : ℚ) ∧ s.m03.Is ((part C (momTerm C b cx cy 0 3) j i : Int) : ℚ) ∧
    s.m30.Is ((part C (momTerm C b cx cy 3 0) j i : Int) : ℚ) ∧ s.m12.Is ((part C (momTerm C b cx cy 1 2) j i : Int) : ℚ) ∧
    s.m21.Is ((part C (momTerm C b cx cy 2 1) j i : Int) : ℚ)
  have key : ∃ s, huMoments sd R C C cx cy m = .ok (s, m) ∧ huMoments sd' R C C cx cy m' = .ok (s, m') ∧ P R 0 s := by
    unfold huMoments
    refine forA_inv2 (n := R) (m := m) (m' := m') (fun j s => P j 0 s) ?_ ?_
    · refine ⟨?_, ?_, ?_, ?_, ?_, ?_, ?_⟩ <;> rw [part_zero] <;> exact ⟨false, by simp⟩
    · intro j s hj hs
      have := forA_inv2 (n := C) (m := m) (m' := m') (s0 := s) (fun i s => P j i s) hs (body := fun i s => (do
        let x ← ev (CI.lit i - CI.lit (cx:Int))
        let y ← ev (CI.lit (j:Int) - CI.lit (cy:Int))
        let a ← ev (CI.lit (j:Int) * CI.lit (C:Int) + CI.lit i)
        let b ← load sd a
        let x0 := f64.ofInt x
        let y0 := f64.ofInt y
        let v := f64.ofInt (ival b)
        pure ⟨f64.add s.m11 (f64.mul (f64.mul x0 y0) v), f64.add s.m20 (f64.mul (f64.mul x0 x0) v), f64.add s.m02 (f64.mul (f64.mul y0 y0) v),
          f64.add s.m03 (f64.mul (f64.mul (f64.mul y0 y0) y0) v), f64.add s.m30 (f64.mul (f64.mul (f64.mul x0 x0) x0) v),
          f64.add s.m12 (f64.mul (f64.mul (f64.mul x0 y0) y0) v), f64.add s.m21 (f64.mul (f64.mul (f64.mul x0 x0) y0) v)⟩ : M HuMoments))
        (body' := fun i s => (do
        let x ← ev (CI.lit i - CI.lit (cx:Int))
        let y ← ev (CI.lit (j:Int) - CI.lit (cy:Int))
        let a ← ev (CI.lit (j:Int) * CI.lit (C:Int) + CI.lit i)
        let b ← load sd' a
        let x0 := f64.ofInt x
        let y0 := f64.ofInt y
        let v := f64.ofInt (ival b)
        pure ⟨f64.add s.m11 (f64.mul (f64.mul x0 y0) v), f64.add s.m20 (f64.mul (f64.mul x0 x0) v), f64.add s.m02 (f64.mul (f64.mul y0 y0) v),
          f64.add s.m03 (f64.mul (f64.mul (f64.mul y0 y0) y0) v), f64.add s.m30 (f64.mul (f64.mul (f64.mul x0 x0) x0) v),
          f64.add s.m12 (f64.mul (f64.mul (f64.mul x0 y0) y0) v), f64.add s.m21 (f64.mul (f64.mul (f64.mul x0 x0) y0) v)⟩ : M HuMoments)) (by
        intro i s hi hs
        obtain ⟨e, hlt⟩ := shape_index hR hC hj hi
        obtain ⟨p1, p2, p3, p4, p5, p6, p7⟩ := hs
        have e1 : (CI.lit (i:Int) - CI.lit (cx:Int) : CI) = CI.lit ((i:Int) - cx) := CI.sub_ok (by constructor <;> omega)
        have e2 : (CI.lit (j:Int) - CI.lit (cy:Int) : CI) = CI.lit ((j:Int) - cy) := CI.sub_ok (by constructor <;> omega)
        have h1 : |(i:Int) - cx| ≤ 511 := by rw [abs_le]; constructor <;> omega
        have h2 : |(j:Int) - cy| ≤ 511 := by rw [abs_le]; constructor <;> omega
        have h3 : |((grey C b j i : Nat) : Int)| ≤ 255 := by
          have := greyC_le C b j i
          rw [abs_of_nonneg (by omega)]; omega
        have ix := is_int64' (n := (i:Int) - cx) (by omega)
        have iy := is_int64' (n := (j:Int) - cy) (by omega)
        have iv := is_int64' (n := ((grey C b j i : Nat) : Int)) (by omega)
        have bd : ∀ p q, p + q ≤ 3 → ∀ j i, j < R → i < C → |momTerm C b cx cy p q j i| ≤ (34025461905 : Nat) := fun p q h => momTerm_le hR hC hx hy h
        have l2 : ∀ {x y : Int}, |x| ≤ 511 → |y| ≤ 511 → |x * y| ≤ 261121 := by
          intro x y hx hy
          rw [abs_mul]
          calc |x| * |y| ≤ 511 * 511 := mul_le_mul hx hy (abs_nonneg _) (by norm_num)
            _ = 261121 := by norm_num
        have l3 : ∀ {x y : Int}, |x| ≤ 261121 → |y| ≤ 511 → |x * y| ≤ 133432831 := by
          intro x y hx hy
          rw [abs_mul]
          calc |x| * |y| ≤ 261121 * 511 := mul_le_mul hx hy (abs_nonneg _) (by norm_num)
            _ = 133432831 := by norm_num
        have l4 : ∀ {x y : Int}, |x| ≤ 133432831 → |y| ≤ 255 → |x * y| ≤ 9007199254740992 := by
          intro x y hx hy
          rw [abs_mul]
          calc |x| * |y| ≤ 133432831 * 255 := mul_le_mul hx hy (abs_nonneg _) (by norm_num)
            _ ≤ 9007199254740992 := by norm_num
        have big : (261121:Int) ≤ 9007199254740992 := by norm_num
        have big2 : (133432831:Int) ≤ 9007199254740992 := by norm_num
        have m2 : (261121:Int) ≤ 133432831 := by norm_num
        have xy := is_mul_int ix iy (le_trans (l2 h1 h2) big)
        have xx := is_mul_int ix ix (le_trans (l2 h1 h1) big)
        have yy := is_mul_int iy iy (le_trans (l2 h2 h2) big)
        have v11 := is_mul_int xy iv (l4 (le_trans (l2 h1 h2) m2) h3)
        have v20 := is_mul_int xx iv (l4 (le_trans (l2 h1 h1) m2) h3)
        have v02 := is_mul_int yy iv (l4 (le_trans (l2 h2 h2) m2) h3)
        have v03 := is_mul_int (is_mul_int yy iy (le_trans (l3 (l2 h2 h2) h2) big2)) iv (l4 (l3 (l2 h2 h2) h2) h3)
        have v30 := is_mul_int (is_mul_int xx ix (le_trans (l3 (l2 h1 h1) h1) big2)) iv (l4 (l3 (l2 h1 h1) h1) h3)
        have v12 := is_mul_int (is_mul_int xy iy (le_trans (l3 (l2 h1 h2) h2) big2)) iv (l4 (l3 (l2 h1 h2) h2) h3)
        have v21 := is_mul_int (is_mul_int xx iy (le_trans (l3 (l2 h1 h1) h2) big2)) iv (l4 (l3 (l2 h1 h1) h2) h3)
        have t : ∀ {p q : Nat} {z : Int}, z = ((i:Int) - cx) ^ p * ((j:Int) - cy) ^ q * grey C b j i → ((z : Int) : ℚ) = ((momTerm C b cx cy p q j i : Int) : ℚ) := by
          intro p q z hz; rw [hz]; rfl
        rw [t (p := 1) (q := 1) (by ring)] at v11
        rw [t (p := 2) (q := 0) (by ring)] at v20
        rw [t (p := 0) (q := 2) (by ring)] at v02
        rw [t (p := 0) (q := 3) (by ring)] at v03
        rw [t (p := 3) (q := 0) (by ring)] at v30
        rw [t (p := 1) (q := 2) (by ring)] at v12
        rw [t (p := 2) (q := 1) (by ring)] at v21
        refine ⟨⟨_, _, _, _, _, _, _⟩, ?_, ?_, part_add (bd 1 1 (by decide)) hB hj hi p1 v11, part_add (bd 2 0 (by decide)) hB hj hi p2 v20, part_add (bd 0 2 (by decide)) hB hj hi p3 v02,
          part_add (bd 0 3 (by decide)) hB hj hi p4 v03, part_add (bd 3 0 (by decide)) hB hj hi p5 v30, part_add (bd 1 2 (by decide)) hB hj hi p6 v12,
          part_add (bd 2 1 (by decide)) hB hj hi p7 v21⟩
        · rw [ev_bind e1, ev_bind e2, ev_bind e, bind_ok (hb _ hlt)]
          rfl
        · rw [ev_bind e1, ev_bind e2, ev_bind e, bind_ok (hb' _ hlt)]
          rfl)
      obtain ⟨s', r1, r1', r2⟩ := this
      refine ⟨s', r1, r1', ?_⟩
      obtain ⟨t1, t2, t3, t4, t5, t6, t7⟩ := r2
      rw [part_row] at t1 t2 t3 t4 t5 t6 t7
      exact ⟨t1, t2, t3, t4, t5, t6, t7⟩
  obtain ⟨s, k1, k1', k2, k3, k4, k5, k6, k7, k8⟩ := key
  rw [part_end] at k2 k3 k4 k5 k6 k7 k8
  exact ⟨s, k1, k1', k2, k3, k4, k5, k6, k7, k8⟩

/-! ### The centre -/

theorem half_rep {n : Nat} (h : n ≤ 1000000) : f64.Rep ((n:ℚ) - 1 / 2) := by
  refine ⟨2 * n - 1, -1, ?_, ?_, by decide, ?_⟩
  · push_cast
    rw [zpow_neg_one]
    ring
  · rw [abs_le]
    have : (2:Int) ^ (f64.t + 1) = 9007199254740992 := by decide
    rw [this]
    constructor <;> omega
  · rw [f64_max]
    have h' : (n:ℚ) ≤ 1000000 := by exact_mod_cast h
    have h0 : (0:ℚ) ≤ n := by positivity
    refine lt_of_lt_of_le (b := 2 ^ 20) ?_ (pow_le_pow_right₀ (by norm_num) (by decide))
    rw [abs_lt]
    constructor
    · have : (0:ℚ) < 2 ^ 20 - 1 := by norm_num
      linarith
    · norm_num
      linarith

theorem centre_spec {s s00 : FV} {a b : Nat} (hs : s.Is (a:ℚ)) (h0 : s00.Is (b:ℚ)) (hb : 0 < b) (hbb : b ≤ 67108864) (hab : a ≤ 511 * b) :
    huCentre s s00 = pure ((nearest a b : Nat) : Int) ∧ nearest a b ≤ 511 := by
  have hbq : (0:ℚ) < b := by exact_mod_cast hb
  have hbb' : (b:ℚ) ≤ 67108864 := by exact_mod_cast hbb
  have hq0 : (0:ℚ) ≤ (a:ℚ) / b := by positivity
  have hq1 : (a:ℚ) / b ≤ 511 := by
    rw [div_le_iff₀ hbq]; exact_mod_cast hab
  have hn : nearest a b ≤ 511 := by
    unfold nearest
    have : 2 * a + b < 512 * (2 * b) := by omega
    exact Nat.lt_succ_iff.1 (Nat.div_lt_of_lt_mul (by rw [Nat.mul_comm (2 * b)]; exact this))
  refine ⟨?_, hn⟩
  have hdm := Nat.div_add_mod (2 * a + b) (2 * b)
  have hml := Nat.mod_lt (2 * a + b) (show 0 < 2 * b by omega)
  change 2 * b * nearest a b + (2 * a + b) % (2 * b) = 2 * a + b at hdm
  generalize hN : nearest a b = n at *
  generalize hM : (2 * a + b) % (2 * b) = r at *
  have hdq : 2 * (b:ℚ) * n + r = 2 * a + b := by exact_mod_cast hdm
  have hex : (a:ℚ) / b + 1 / 2 = n + (r:ℚ) / (2 * b) := by
    field_simp
    linarith
  -- the value before truncation
  have key : ∃ z : ℚ, (f64.add (f64.div s s00) (.fin false (1 / 2))).Is z ∧ (n:ℚ) ≤ z ∧ z < n + 1 := by
    obtain ⟨q1, q2⟩ := round64_err (q := (a:ℚ) / b) (B := 512) (by rw [abs_of_nonneg hq0]; linarith) (by norm_num) (by norm_num)
    have d1 := rnd_div hs h0 hbq.ne' q2
    have hqa : |f64.rv ((a:ℚ) / b) + 1 / 2| ≤ 513 := by
      have := abs_le.1 q1
      rw [abs_le]
      norm_num at this ⊢
      constructor <;> linarith [this.1, this.2]
    obtain ⟨p1, p2⟩ := round64_err (q := f64.rv ((a:ℚ) / b) + 1 / 2) (B := 513) hqa (by norm_num) (by norm_num)
    have d2 := rnd_add (F := f64) d1 (show (FV.fin false (1 / 2)).Is (1 / 2) from ⟨false, rfl⟩) p2
    refine ⟨_, d2, ?_⟩
    have q1' := abs_le.1 q1
    have p1' := abs_le.1 p1
    rcases Nat.eq_zero_or_pos r with hr | hr
    · -- a half, exactly
      rw [hr, Nat.cast_zero, zero_div, add_zero] at hex
      have e1 : (a:ℚ) / b = n - 1 / 2 := by linarith
      have e2 : f64.rv ((a:ℚ) / b) = n - 1 / 2 := by
        rw [e1]; exact rv_grep_self (half_rep (by omega)).g
      rw [e2, sub_add_cancel]
      have e3 : f64.rv (n:ℚ) = n := by
        have := rep64_int (n := (n:Int)) (by rw [abs_of_nonneg (by omega)]; omega)
        exact rv_grep_self (by exact_mod_cast this.g)
      rw [e3]
      constructor <;> linarith
    · have hrq : (1:ℚ) ≤ r := by exact_mod_cast hr
      have hrb : (r:ℚ) + 1 ≤ 2 * b := by exact_mod_cast hml
      have f1 : (1:ℚ) / 134217728 ≤ (r:ℚ) / (2 * b) := by
        rw [div_le_div_iff₀ (by norm_num) (by linarith)]
        linarith
      have f2 : (r:ℚ) / (2 * b) ≤ 1 - 1 / 134217728 := by
        rw [div_le_iff₀ (by linarith)]
        linarith
      norm_num at q1' p1' f1 f2 hex ⊢
      constructor <;> linarith [q1'.1, q1'.2, p1'.1, p1'.2]
  obtain ⟨z, ⟨sg, hz⟩, z1, z2⟩ := key
  unfold huCentre
  rw [hz]
  have hz0 : 0 ≤ z := le_trans (by positivity) z1
  have hfl : ⌊z⌋ = (n:Int) := by
    rw [Int.floor_eq_iff]
    exact ⟨by exact_mod_cast z1, by exact_mod_cast z2⟩
  have ht : (FV.fin sg z).trunc = some (n:Int) := by
    unfold FV.trunc
    simp only [if_pos hz0, hfl]
    rw [if_pos (by constructor <;> omega)]
  rw [ht]

theorem massX_le {R C : Nat} {f : Nat → Nat → Nat} (hC : C ≤ 512) : massX R C f ≤ 511 * mass R C f := by
  unfold massX mass
  rw [mul_sum]
  refine sum_le_sum fun j _ => ?_
  rw [mul_sum]
  exact sum_le_sum fun i hi => Nat.mul_le_mul_right _ (by have := mem_range.1 hi; omega)

theorem massY_le {R C : Nat} {f : Nat → Nat → Nat} (hR : R ≤ 512) : massY R C f ≤ 511 * mass R C f := by
  unfold massY mass
  rw [mul_sum]
  refine sum_le_sum fun j hj => ?_
  rw [mul_sum]
  exact sum_le_sum fun i _ => Nat.mul_le_mul_right _ (by have := mem_range.1 hj; omega)

theorem mass_le {R C : Nat} {f : Nat → Nat → Nat} (hR : R ≤ 512) (hC : C ≤ 512) (hf : ∀ j i, f j i ≤ 255) : mass R C f ≤ 67108864 := by
  unfold mass
  calc ∑ j ∈ range R, ∑ i ∈ range C, f j i ≤ ∑ j ∈ range R, ∑ i ∈ range C, 255 := sum_le_sum fun j _ => sum_le_sum fun i _ => hf j i
    _ = R * (C * 255) := by simp
    _ ≤ 512 * (512 * 255) := Nat.mul_le_mul hR (Nat.mul_le_mul_right _ hC)
    _ ≤ 67108864 := by norm_num

/-! ### The seven values -/

/-- assumption about the library function `pow`: for the two exponents and the masses that occur its value depends on the number only, with a relative error
of at most `2^-50` -/
structure GoodPow (pow : FV → FV → FV) : Prop where
  two : ∀ n : Nat, 0 < n → n ≤ 67108864 → ∃ p : ℚ, (∀ v : FV, v.Is (n:ℚ) → (pow v (.fin false 2)).Is p) ∧ |(p:ℝ) - (n:ℝ) ^ 2| ≤ (n:ℝ) ^ 2 / 2 ^ 50
  half : ∀ n : Nat, 0 < n → n ≤ 67108864 → ∃ p : ℚ, (∀ v : FV, v.Is (n:ℚ) → (pow v (.fin false (5 / 2))).Is p) ∧
    |(p:ℝ) - (n:ℝ) ^ 2 * Real.sqrt n| ≤ (n:ℝ) ^ 2 * Real.sqrt n / 2 ^ 50

/-- `X` is the exact value of `v` up to `S / 2^38` -/
theorem ap_final {v v' : FV} {X X' B S : ℝ} {k : Nat} (h : Ap v v' X B k) (hk : 1 ≤ k) (hk' : k ≤ 100) (hS : B * k ≤ S * 16384) (hX : X' = X) :
    ∃ z : ℚ, v.Is z ∧ v'.Is z ∧ |(z:ℝ) - X'| ≤ S / 2 ^ 38 ∧ |(z:ℝ)| ≤ S * 2 ^ 15 := by
  rw [hX]
  obtain ⟨hB, z, z1, z1', z2⟩ := h
  have k1 : (1:ℝ) ≤ k := by exact_mod_cast hk
  have k2 : (k:ℝ) ≤ 100 := by exact_mod_cast hk'
  have hB0 : 0 ≤ B := le_trans (abs_nonneg _) hB
  refine ⟨z, z1, z1', le_trans z2 ?_, ?_⟩
  · rw [div_le_div_iff₀ (by positivity) (by positivity)]
    have : (2:ℝ) ^ 52 = 16384 * 2 ^ 38 := by norm_num
    rw [this, ← mul_assoc]
    exact mul_le_mul_of_nonneg_right hS (by positivity)
  · have h1 := abs_add_le ((z:ℝ) - X) X
    rw [sub_add_cancel] at h1
    have h2 : B ≤ B * k := le_mul_of_one_le_right hB0 k1
    have h3 : B * k / 2 ^ 52 ≤ B := by
      rw [div_le_iff₀ (by positivity)]
      exact mul_le_mul_of_nonneg_left (le_trans k2 (by norm_num)) hB0
    norm_num
    linarith

/-- `T` is between `2^-80n` and `2^80n` -/
def Rng (n : Nat) (T : ℝ) : Prop := 1 / (2 ^ 80) ^ n ≤ T ∧ T ≤ (2 ^ 80) ^ n

theorem Rng.pos {n : Nat} {T : ℝ} (h : Rng n T) : 0 < T := lt_of_lt_of_le (by positivity) h.1

theorem Rng.mul {n n' : Nat} {T T' : ℝ} (h : Rng n T) (h' : Rng n' T') : Rng (n + n') (T * T') := by
  constructor
  · have : (1:ℝ) / (2 ^ 80) ^ (n + n') = 1 / (2 ^ 80) ^ n * (1 / (2 ^ 80) ^ n') := by rw [div_mul_div_comm, one_mul, ← pow_add]
    rw [this]
    exact mul_le_mul h.1 h'.1 (by positivity) h.pos.le
  · rw [pow_add]
    exact mul_le_mul h.2 h'.2 h'.pos.le (by positivity)

theorem Rng.scaled {n : Nat} {T c : ℝ} (h : Rng n T) (hn : n ≤ 4) (hc : 1 ≤ c) (hc' : c ≤ 1000) : 1 / 2 ^ 400 ≤ c * T ∧ c * T ≤ 2 ^ 400 := by
  have p : (1:ℝ) ≤ 2 ^ 80 := one_le_pow₀ (by norm_num)
  have p4 : ((2:ℝ) ^ 80) ^ n ≤ (2 ^ 80) ^ 4 := pow_le_pow_right₀ p hn
  constructor
  · have h1 : (1:ℝ) / 2 ^ 400 ≤ 1 / (2 ^ 80) ^ n := by
      refine one_div_le_one_div_of_le (by positivity) (le_trans p4 ?_)
      rw [← pow_mul]
      exact pow_le_pow_right₀ (by norm_num) (by norm_num)
    have := h.pos
    have h2 := h.1
    nlinarith
  · calc c * T ≤ 2 ^ 80 * (2 ^ 80) ^ 4 := mul_le_mul (le_trans hc' (by norm_num)) (le_trans h.2 p4) h.pos.le (by positivity)
      _ = 2 ^ 400 := by rw [← pow_mul, ← pow_add]

theorem Ap.mulS {a a' b b' : FV} {X Y T T' c d : ℝ} {k l n n' : Nat} (ha : Ap a a' X (c * T) k) (hb : Ap b b' Y (d * T') l) (hT : Rng n T) (hT' : Rng n' T') (hn : n + n' ≤ 4)
    (hc : 1 ≤ c * d) (hc' : c * d ≤ 1000) (hk : k ≤ 100) (hl : l ≤ 100) : Ap (f64.mul a b) (f64.mul a' b') (X * Y) (c * d * (T * T')) (k + l + 2) := by
  obtain ⟨h1, h2⟩ := (hT.mul hT').scaled hn hc hc'
  have e : c * T * (d * T') = c * d * (T * T') := by ring
  rw [← e] at h1 h2 ⊢
  exact Ap.mul ha hb hk hl h1 h2

theorem Ap.addS {a a' b b' : FV} {X Y T c d : ℝ} {k l n : Nat} (ha : Ap a a' X (c * T) k) (hb : Ap b b' Y (d * T) l) (hT : Rng n T) (hn : n ≤ 4)
    (hc : 1 ≤ c + d) (hc' : c + d ≤ 1000) (hk : k ≤ 100) (hl : l ≤ 100) : Ap (f64.add a b) (f64.add a' b') (X + Y) ((c + d) * T) (max k l + 1) := by
  obtain ⟨h1, h2⟩ := hT.scaled hn hc hc'
  rw [add_mul] at h1 h2 ⊢
  exact Ap.add ha hb hk hl h1 h2

theorem Ap.subS {a a' b b' : FV} {X Y T c d : ℝ} {k l n : Nat} (ha : Ap a a' X (c * T) k) (hb : Ap b b' Y (d * T) l) (hT : Rng n T) (hn : n ≤ 4)
    (hc : 1 ≤ c + d) (hc' : c + d ≤ 1000) (hk : k ≤ 100) (hl : l ≤ 100) : Ap (f64.sub a b) (f64.sub a' b') (X - Y) ((c + d) * T) (max k l + 1) := by
  obtain ⟨h1, h2⟩ := hT.scaled hn hc hc'
  rw [add_mul] at h1 h2 ⊢
  exact Ap.sub ha hb hk hl h1 h2

/-- a whole constant times a value -/
theorem Ap.constS {b b' : FV} {Y T d : ℝ} {l n : Nat} (c : ℕ) (hb : Ap b b' Y (d * T) l) (hT : Rng n T) (hn : n ≤ 4) (hc : 1 ≤ c * d) (hc' : c * d ≤ 1000) (hl : l ≤ 100) :
    Ap (f64.mul (.fin false c) b) (f64.mul (.fin false c) b') (c * Y) (c * d * T) (l + 2) := by
  obtain ⟨h1, h2⟩ := hT.scaled hn hc hc'
  have ha : Ap (.fin false c) (.fin false c) ((c:ℚ):ℝ) c 0 := ap_const false (by simp)
  rw [mul_assoc] at h1 h2 ⊢
  have := Ap.mul ha hb (by norm_num) hl h1 h2
  rw [Nat.zero_add] at this
  exact_mod_cast this

theorem huValues_err {u u' : HuMoments} {e : Nat → Nat → ℝ} {U V : ℝ} (rU : Rng 1 U) (rV : Rng 1 V)
    (a11 : Ap u.m11 u'.m11 (e 1 1) U 6) (a20 : Ap u.m20 u'.m20 (e 2 0) U 6) (a02 : Ap u.m02 u'.m02 (e 0 2) U 6) (a03 : Ap u.m03 u'.m03 (e 0 3) V 6) (a30 : Ap u.m30 u'.m30 (e 3 0) V 6)
    (a12 : Ap u.m12 u'.m12 (e 1 2) V 6) (a21 : Ap u.m21 u'.m21 (e 2 1) V 6) (k : Nat) :
    ∃ z : ℚ, (huValues u k).Is z ∧ (huValues u' k).Is z ∧ |(z:ℝ) - huOf e k| ≤ huScale U V k / 2 ^ 38 ∧ |(z:ℝ)| ≤ huScale U V k * 2 ^ 15 := by
  have U0 := rU.pos
  have V0 := rV.pos
  have rVV := rV.mul rV
  rw [← one_mul U] at a11 a20 a02
  rw [← one_mul V] at a03 a30 a12 a21
  have h0 := Ap.addS a20 a02 rU (by norm_num) (by norm_num) (by norm_num) (by norm_num) (by norm_num)
  have t1 := Ap.subS a20 a02 rU (by norm_num) (by norm_num) (by norm_num) (by norm_num) (by norm_num)
  have q12 := Ap.constS 3 a12 rV (by norm_num) (by norm_num) (by norm_num) (by norm_num)
  have q21 := Ap.constS 3 a21 rV (by norm_num) (by norm_num) (by norm_num) (by norm_num)
  have q11 := Ap.constS 4 a11 rU (by norm_num) (by norm_num) (by norm_num) (by norm_num)
  have t2 := Ap.subS a30 q12 rV (by norm_num) (by norm_num) (by norm_num) (by norm_num) (by norm_num)
  have t3 := Ap.subS q21 a03 rV (by norm_num) (by norm_num) (by norm_num) (by norm_num) (by norm_num)
  have t4 := Ap.addS a30 a12 rV (by norm_num) (by norm_num) (by norm_num) (by norm_num) (by norm_num)
  have t5 := Ap.addS a21 a03 rV (by norm_num) (by norm_num) (by norm_num) (by norm_num) (by norm_num)
  have t44 := Ap.mulS t4 t4 rV rV (by norm_num) (by norm_num) (by norm_num) (by norm_num) (by norm_num)
  have t55 := Ap.mulS t5 t5 rV rV (by norm_num) (by norm_num) (by norm_num) (by norm_num) (by norm_num)
  have s44 := Ap.mulS (Ap.constS 3 t4 rV (by norm_num) (by norm_num) (by norm_num) (by norm_num)) t4 rV rV (by norm_num) (by norm_num) (by norm_num) (by norm_num) (by norm_num)
  have s55 := Ap.mulS (Ap.constS 3 t5 rV (by norm_num) (by norm_num) (by norm_num) (by norm_num)) t5 rV rV (by norm_num) (by norm_num) (by norm_num) (by norm_num) (by norm_num)
  have d1 := Ap.subS t44 s55 rVV (by norm_num) (by norm_num) (by norm_num) (by norm_num) (by norm_num)
  have d2 := Ap.subS s44 t55 rVV (by norm_num) (by norm_num) (by norm_num) (by norm_num) (by norm_num)
  have d3 := Ap.subS t44 t55 rVV (by norm_num) (by norm_num) (by norm_num) (by norm_num) (by norm_num)
  match k with
  | 0 =>
    obtain ⟨z, z1, z1', z2⟩ := ap_final (X' := huOf e 0) (S := U) h0 (by norm_num) (by norm_num) (by norm_num; linarith) rfl
    exact ⟨z, z1, z1', z2⟩
  | 1 =>
    have := Ap.addS (Ap.mulS t1 t1 rU rU (by norm_num) (by norm_num) (by norm_num) (by norm_num) (by norm_num))
      (Ap.mulS q11 a11 rU rU (by norm_num) (by norm_num) (by norm_num) (by norm_num) (by norm_num)) (rU.mul rU) (by norm_num) (by norm_num) (by norm_num) (by norm_num) (by norm_num)
    obtain ⟨z, z1, z1', z2⟩ := ap_final (X' := huOf e 1) (S := U ^ 2) this (by norm_num) (by norm_num) (by norm_num; nlinarith [mul_pos U0 U0]) (by simp only [huOf]; push_cast; ring)
    exact ⟨z, z1, z1', z2⟩
  | 2 =>
    have := Ap.addS (Ap.mulS t2 t2 rV rV (by norm_num) (by norm_num) (by norm_num) (by norm_num) (by norm_num))
      (Ap.mulS t3 t3 rV rV (by norm_num) (by norm_num) (by norm_num) (by norm_num) (by norm_num)) rVV (by norm_num) (by norm_num) (by norm_num) (by norm_num) (by norm_num)
    obtain ⟨z, z1, z1', z2⟩ := ap_final (X' := huOf e 2) (S := V ^ 2) this (by norm_num) (by norm_num) (by norm_num; nlinarith [mul_pos V0 V0]) (by simp only [huOf]; push_cast; ring)
    exact ⟨z, z1, z1', z2⟩
  | 3 =>
    have := Ap.addS t44 t55 rVV (by norm_num) (by norm_num) (by norm_num) (by norm_num) (by norm_num)
    obtain ⟨z, z1, z1', z2⟩ := ap_final (X' := huOf e 3) (S := V ^ 2) this (by norm_num) (by norm_num) (by norm_num; nlinarith [mul_pos V0 V0]) (by simp only [huOf]; push_cast; ring)
    exact ⟨z, z1, z1', z2⟩
  | 4 =>
    have := Ap.addS
      (Ap.mulS (Ap.mulS t2 t4 rV rV (by norm_num) (by norm_num) (by norm_num) (by norm_num) (by norm_num)) d1 rVV rVV (by norm_num) (by norm_num) (by norm_num) (by norm_num) (by norm_num))
      (Ap.mulS (Ap.mulS t3 t5 rV rV (by norm_num) (by norm_num) (by norm_num) (by norm_num) (by norm_num)) d2 rVV rVV (by norm_num) (by norm_num) (by norm_num) (by norm_num) (by norm_num))
      (rVV.mul rVV) (by norm_num) (by norm_num) (by norm_num) (by norm_num) (by norm_num)
    obtain ⟨z, z1, z1', z2⟩ := ap_final (X' := huOf e 4) (S := V ^ 4) this (by norm_num) (by norm_num) (by norm_num; nlinarith [mul_pos (mul_pos V0 V0) (mul_pos V0 V0)]) (by simp only [huOf]; push_cast; ring)
    exact ⟨z, z1, z1', z2⟩
  | 5 =>
    have p1 := Ap.mulS t1 d3 rU rVV (by norm_num) (by norm_num) (by norm_num) (by norm_num) (by norm_num)
    have p2 := Ap.mulS (Ap.mulS q11 t4 rU rV (by norm_num) (by norm_num) (by norm_num) (by norm_num) (by norm_num)) t5 (rU.mul rV) rV (by norm_num) (by norm_num) (by norm_num) (by norm_num) (by norm_num)
    rw [mul_assoc U V V] at p2
    have := Ap.addS p1 p2 (rU.mul rVV) (by norm_num) (by norm_num) (by norm_num) (by norm_num) (by norm_num)
    obtain ⟨z, z1, z1', z2⟩ := ap_final (X' := huOf e 5) (S := U * V ^ 2) this (by norm_num) (by norm_num) (by norm_num; nlinarith [mul_pos U0 (mul_pos V0 V0)]) (by simp only [huOf]; push_cast; ring)
    exact ⟨z, z1, z1', z2⟩
  | k + 6 =>
    have := Ap.subS
      (Ap.mulS (Ap.mulS t3 t4 rV rV (by norm_num) (by norm_num) (by norm_num) (by norm_num) (by norm_num)) d1 rVV rVV (by norm_num) (by norm_num) (by norm_num) (by norm_num) (by norm_num))
      (Ap.mulS (Ap.mulS t2 t5 rV rV (by norm_num) (by norm_num) (by norm_num) (by norm_num) (by norm_num)) d2 rVV rVV (by norm_num) (by norm_num) (by norm_num) (by norm_num) (by norm_num))
      (rVV.mul rVV) (by norm_num) (by norm_num) (by norm_num) (by norm_num) (by norm_num)
    obtain ⟨z, z1, z1', z2⟩ := ap_final (X' := huOf e (k + 6)) (S := V ^ 4) this (by norm_num) (by norm_num) (by norm_num; nlinarith [mul_pos (mul_pos V0 V0) (mul_pos V0 V0)]) (by simp only [huOf]; push_cast; ring)
    exact ⟨z, z1, z1', z2⟩

end HyperCV
