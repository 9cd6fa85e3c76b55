/- Laplacian and Sobel. -/
import Verif.Model.Gradient
import Verif.Proof.Padding
import Verif.Proof.Matrix
import Verif.Proof.ImageN
import Mathlib.Tactic.IntervalCases
import Verif.Props.DataType

namespace HyperCV
open Spec

theorem tapIndex_ok {p len t x : Int} (h : border p len t = .ok x) (m : Mem) : tapIndex p len t m = .ok (x, m) := by
  unfold tapIndex
  split
  · exact borderM_ok h m
  · rename_i hp
    have h2 : x = p := by
      unfold border borderFuel at h
      rw [if_neg (by omega)] at h
      by_cases ht : (t = 2 ∨ t = 4 ∨ t = 1 ∨ t = 3 ∨ t = 0)
      · rw [if_neg (not_not.mpr ht), if_pos (by omega)] at h
        exact (Except.ok.inj h).symm
      · rw [if_pos ht] at h; cases h
    rw [h2]; rfl

/-- the border type `t` selects source index `g p` (below `len`) at position `p`, for all positions within `k` of
the image -/
def TapOK (t : Int) (len k : Nat) (g : Int → Nat) : Prop :=
  ∀ p : Int, -(k:Int) ≤ p → p < len + k → border p len t = .ok (g p : Int) ∧ g p < len

theorem tap_ext (e : Extension) {len k : Nat} (h0 : 0 < len) (h1 : len ≤ 2147483647) (hk : k + len ≤ 2147483647) :
    TapOK e.code len k (fun p => (e.index p len).toNat) := by
  intro p hp1 hp2
  obtain ⟨g1, g2, g3⟩ := C21_border e (p := p) (len := len) (by omega) (by omega) (by omega) (fun _ => by omega)
  refine ⟨?_, by beta_reduce; omega⟩
  beta_reduce
  rw [g1, Int.toNat_of_nonneg g2]

/-- a finite value, whatever its sign bit -/
def FV.Is (v : FV) (q : ℚ) : Prop := ∃ s, v = .fin s q

theorem is_ofInt {F : Fmt} {n : ℤ} (h : F.Rep n) : (F.ofInt n).Is n := round_exact h

theorem is_mul {F : Fmt} {a b : FV} {x y : ℚ} (ha : a.Is x) (hb : b.Is y) (h : F.Rep (x * y)) : (F.mul a b).Is (x * y) := by
  obtain ⟨s, rfl⟩ := ha
  obtain ⟨s', rfl⟩ := hb
  exact round_exact h

theorem is_add {F : Fmt} {a b : FV} {x y : ℚ} (ha : a.Is x) (hb : b.Is y) (h : F.Rep (x + y)) : (F.add a b).Is (x + y) := by
  obtain ⟨s, rfl⟩ := ha
  obtain ⟨s', rfl⟩ := hb
  exact round_exact h

theorem rep32_int {n : ℤ} (h : |n| ≤ 16777216) : f32.Rep n := by
  refine ⟨n, 0, by norm_num, h, by decide, ?_⟩
  have : |(n:ℚ)| ≤ 16777216 := by exact_mod_cast h
  refine lt_of_le_of_lt this ?_
  show (16777216 : ℚ) < 2 ^ 128
  norm_num

/-- converting a finite `float` to a byte rounds it to the nearest integer (even on ties) and limits it to 0..255 -/
theorem saturate_fin {v : FV} {q : ℚ} (h : v.Is q) :
    ((saturate_cast_float2uchar v).toNat : ℤ) = clamp 0 255 (rne q) := by
  obtain ⟨s, rfl⟩ := h
  exact C55_saturate.1 s q _ (rne_spec q)

/-- like `Fills.bind`, for a read about which only a property of the result is known -/
theorem Fills.bindP {α : Type} {x : M α} {f : α → M Unit} {m : Mem} {d N : Nat} {new : Nat → UInt8}
    {P : Nat → Prop} {Q : α → Prop} (hx : ∀ g, ∃ a, x (m.put d N g) = .ok (a, m.put d N g) ∧ Q a)
    (hf : ∀ a, Q a → Fills (f a) m d N new P) : Fills (x >>= f) m d N new P := by
  intro g
  obtain ⟨a, h1, h2⟩ := hx g
  rw [bind_ok h1]
  exact hf a h2 g

/-- a loop carrying a value, without effect on memory -/
theorem forA_inv {σ : Type} {n : Nat} {body : Int → σ → M σ} {m : Mem} {s0 : σ} (P : Nat → σ → Prop) (h0 : P 0 s0)
    (hs : ∀ x s, x < n → P x s → ∃ s', body (x:Int) s m = .ok (s', m) ∧ P (x+1) s') :
    ∃ s', forA 0 (n:Int) s0 body m = .ok (s', m) ∧ P n s' := by
  have gen : ∀ k x s, x + k = n → P x s → ∃ s', forLoop body k (x:Int) s m = .ok (s', m) ∧ P n s' := by
    intro k
    induction k with
    | zero => intro x s hx hP; obtain rfl : x = n := by omega
              exact ⟨s, rfl, hP⟩
    | succ k ih =>
      intro x s hx hP
      obtain ⟨s1, e1, p1⟩ := hs x s (by omega) hP
      obtain ⟨s2, e2, p2⟩ := ih (x+1) s1 (by omega) p1
      refine ⟨s2, ?_, p2⟩
      rw [forLoop, bind_ok e1]
      exact_mod_cast e2
  have := gen n 0 s0 (by omega) h0
  unfold forA
  simpa using this

/-- a double loop carrying a value, without effect on memory -/
theorem taps_inv {σ : Type} {a b : Nat} {body : Int → Int → σ → M σ} {m : Mem} {s0 : σ} (P : Nat → Nat → σ → Prop)
    (h0 : P 0 0 s0)
    (hs : ∀ x y s, x < a → y < b → P x y s → ∃ s', body (x:Int) (y:Int) s m = .ok (s', m) ∧ P x (y+1) s')
    (hr : ∀ x s, x < a → P x b s → P (x+1) 0 s) :
    ∃ s', forA 0 (a:Int) s0 (fun x s => forA 0 (b:Int) s fun y s => body x y s) m = .ok (s', m) ∧ P a 0 s' := by
  refine forA_inv (fun x s => P x 0 s) h0 ?_
  intro x s hx hP
  obtain ⟨s', e, p⟩ := forA_inv (n := b) (body := fun y s => body (x:Int) y s) (m := m) (fun y s => P x y s) hP
    (fun y s hy hp => hs x y s hx hy hp)
  exact ⟨s', e, hr x s' hx p⟩

/-- sum of the terms before (`x`, `y`) of an array with rows of length `b` -/
def psum {α : Type} [AddCommMonoid α] (b : Nat) (t : Nat → Nat → α) (x y : Nat) : α :=
  ∑ u ∈ Finset.range x, ∑ v ∈ Finset.range b, t u v + ∑ v ∈ Finset.range y, t x v

theorem psum_zero {α : Type} [AddCommMonoid α] (b : Nat) (t : Nat → Nat → α) : psum b t 0 0 = 0 := by simp [psum]

theorem psum_step {α : Type} [AddCommMonoid α] (b : Nat) (t : Nat → Nat → α) (x y : Nat) :
    psum b t x (y+1) = psum b t x y + t x y := by
  unfold psum; rw [Finset.sum_range_succ, add_assoc]

theorem psum_row {α : Type} [AddCommMonoid α] (b : Nat) (t : Nat → Nat → α) (x : Nat) :
    psum b t (x+1) 0 = psum b t x b := by
  unfold psum; rw [Finset.sum_range_succ]; simp

theorem psum_end {α : Type} [AddCommMonoid α] (a b : Nat) (t : Nat → Nat → α) :
    psum b t a 0 = ∑ u ∈ Finset.range a, ∑ v ∈ Finset.range b, t u v := by
  unfold psum; simp

theorem psum_bound {b : Nat} {t : Nat → Nat → ℤ} {K : Nat} (h : ∀ x y, |t x y| ≤ K) (x y : Nat) :
    |psum b t x y| ≤ K * (x * b + y) := by
  have h1 : ∀ (s : Nat → ℤ) (B : Nat) (n : Nat), (∀ v, |s v| ≤ B) → |∑ v ∈ Finset.range n, s v| ≤ B * n := by
    intro s B n hs
    refine le_trans (Finset.abs_sum_le_sum_abs _ _) ?_
    refine le_trans (Finset.sum_le_card_nsmul _ _ (B:ℤ) (fun v _ => hs v)) ?_
    rw [Finset.card_range, nsmul_eq_mul, mul_comm]
  unfold psum
  refine le_trans (abs_add_le _ _) ?_
  have e1 := h1 (fun u => ∑ v ∈ Finset.range b, t u v) (K * b) x (fun u => by
    have := h1 (fun v => t u v) K b (h u)
    push_cast; exact this)
  have e2 := h1 (fun v => t x v) K y (h x)
  push_cast at e1 e2
  calc _ ≤ (K:ℤ) * b * x + K * y := add_le_add e1 e2
    _ = _ := by ring

/-- the 3 x 3 neighbourhood of (`i`, `j`), rows and columns outside selected by `gR` and `gC` -/
def nbr (C : Nat) (gR gC : Int → Nat) (f : Nat → UInt8) (i j x y : Nat) : Nat :=
  (f (gR ((i:Int) + x - 1) * C + gC ((j:Int) + y - 1))).toNat

theorem nbr_lt (C : Nat) (gR gC : Int → Nat) (f : Nat → UInt8) (i j x y : Nat) : nbr C gR gC f i j x y < 256 :=
  UInt8.toNat_lt _

/-- the common prefix of the two tap computations -/
theorem tap_prefix {m : Mem} {sd N R C i j x y : Nat} {bt : Int} {gR gC : Int → Nat} {f : Nat → UInt8} {α : Type} {s : SimpleMat}
    {k : UInt8 → M α} (hs : Holds m sd N f) (hN : R * C ≤ N) (hb : R * C ≤ 2147483647) (hR' : R ≤ 2147483640)
    (hC' : C ≤ 2147483640)
    (hR : TapOK bt R 1 gR) (hC : TapOK bt C 1 gC) (hi : i < R) (hj : j < C) (hx : x < 3) (hy : y < 3)
    (s1 : s.rows = R) (s2 : s.cols = C) (s3 : s.data = sd) :
    (do let pm ← ev (CI.lit (i:Int) + CI.lit (x:Int) - CI.lit 1)
        let index_m ← tapIndex pm s.rows bt
        let pn ← ev (CI.lit (j:Int) + CI.lit (y:Int) - CI.lit 1)
        let index_n ← tapIndex pn s.cols bt
        let q ← ev (CI.lit index_m * CI.lit s.cols + CI.lit index_n)
        let v ← load s.data q
        k v : M α) m = k (f (gR ((i:Int) + x - 1) * C + gC ((j:Int) + y - 1))) m := by
  have e1 : (CI.lit (i:Int) + CI.lit (x:Int) - CI.lit 1 : CI) = CI.lit ((i:Int) + x - 1) := by
    rw [CI.add_ok (by constructor <;> omega), CI.sub_ok (by constructor <;> omega)]
  have e2 : (CI.lit (j:Int) + CI.lit (y:Int) - CI.lit 1 : CI) = CI.lit ((j:Int) + y - 1) := by
    rw [CI.add_ok (by constructor <;> omega), CI.sub_ok (by constructor <;> omega)]
  obtain ⟨r1, r2⟩ := hR ((i:Int) + x - 1) (by omega) (by omega)
  obtain ⟨c1, c2⟩ := hC ((j:Int) + y - 1) (by omega) (by omega)
  have e3 := eval_px1 r2 c2 hb
  rw [bind_ok (ev_ok e1 _), s1, s2, s3, bind_ok (tapIndex_ok r1 m), bind_ok (ev_ok e2 _), bind_ok (tapIndex_ok c1 m),
    bind_ok (ev_ok e3 _), Nat.mul_one, Nat.add_zero]
  have hlt : gR ((i:Int) + x - 1) * C + gC ((j:Int) + y - 1) < N := lt_of_lt_of_le (mix_lt r2 c2) hN
  rw [bind_ok (load_ok hs hlt)]

/-- Laplacian kernel entries -/
def lapK (k_size : Int) (x y : Nat) : ℤ :=
  (if k_size = 2 then 2 else 1) * (if x = 1 ∧ y = 1 then -4 else if x = 1 ∨ y = 1 then 1 else 0)

theorem lapKernel_is (k_size : Int) (x y : Nat) : (lapKernel k_size x y).Is (lapK k_size x y) := by
  have h1 : ∀ n : ℤ, |n| ≤ 16777216 → (f32.ofInt n).Is n := fun n hn => is_ofInt (rep32_int hn)
  have hb : |(if x = 1 ∧ y = 1 then (-4:ℤ) else if x = 1 ∨ y = 1 then 1 else 0)| ≤ 4 := by
    split
    · decide
    · split <;> decide
  have he : (if (x:Int) = 1 ∧ (y:Int) = 1 then (-4:ℤ) else if (x:Int) = 1 ∨ (y:Int) = 1 then 1 else 0)
      = if x = 1 ∧ y = 1 then (-4:ℤ) else if x = 1 ∨ y = 1 then 1 else 0 := by
    norm_cast
  unfold lapKernel lapK
  simp only []
  rw [he]
  generalize (if x = 1 ∧ y = 1 then (-4:ℤ) else if x = 1 ∨ y = 1 then 1 else 0) = z at hb
  by_cases hk : k_size = 2
  · rw [if_pos hk, if_pos hk]
    have := is_mul (F := f32) (h1 z (by omega)) (h1 2 (by decide)) (by
      have : f32.Rep ((z * 2 : ℤ)) := rep32_int (by rw [abs_mul]; norm_num; omega)
      exact_mod_cast this)
    convert this using 1
    push_cast; ring
  · rw [if_neg hk, if_neg hk, one_mul]
    exact h1 z (by omega)

theorem lapK_bound (k : Int) (x y : Nat) : |lapK k x y| ≤ 8 := by
  unfold lapK
  split <;> split <;> first | decide | (split <;> decide)

/-- the Laplacian at (`i`, `j`) -/
def lapSum (k_size : Int) (C : Nat) (gR gC : Int → Nat) (f : Nat → UInt8) (i j : Nat) : ℤ :=
  ∑ x ∈ Finset.range 3, ∑ y ∈ Finset.range 3, lapK k_size x y * nbr C gR gC f i j x y

theorem lapPixel_run {m : Mem} {sd dd N N' R C i j : Nat} {bt k_size : Int} {gR gC : Int → Nat} {f new : Nat → UInt8}
    {s d : SimpleMat} (hs : Holds m sd N f) (hN : R * C ≤ N) (hN' : R * C ≤ N') (hne : sd ≠ dd) (hb : R * C ≤ 2147483647)
    (hR' : R ≤ 2147483640) (hC' : C ≤ 2147483640)
    (hR : TapOK bt R 1 gR) (hC : TapOK bt C 1 gC) (hi : i < R) (hj : j < C)
    (s1 : s.rows = R) (s2 : s.cols = C) (s3 : s.data = sd) (d3 : d.data = dd)
    (hnew : ((new (i * C + j)).toNat : ℤ) = clamp 0 255 (lapSum k_size C gR gC f i j)) :
    Fills (lapPixel s d k_size bt i j) m dd N' new (fun p => p = i * C + j) := by
  have tb : ∀ x y, |lapK k_size x y * (nbr C gR gC f i j x y : ℤ)| ≤ (2040 : Nat) := by
    intro x y
    rw [abs_mul]
    have h1 := lapK_bound k_size x y
    have h2 := nbr_lt C gR gC f i j x y
    have h3 : |(nbr C gR gC f i j x y : ℤ)| ≤ 255 := by rw [abs_of_nonneg (by omega)]; omega
    calc _ ≤ (8:ℤ) * 255 := mul_le_mul h1 h3 (abs_nonneg _) (by norm_num)
      _ = _ := by norm_num
  unfold lapPixel
  refine Fills.bindP (Q := fun v : FV => v.Is (lapSum k_size C gR gC f i j)) ?_ ?_
  · intro g
    obtain ⟨v, h1, h2⟩ := taps_inv (a := 3) (b := 3) (m := m.put dd N' g) (s0 := FV.fin false 0)
      (body := fun x y sum => lapTap s k_size bt i j x y sum)
      (fun x y v => v.Is (psum 3 (fun x y => lapK k_size x y * (nbr C gR gC f i j x y : ℤ)) x y : ℤ))
      (by rw [psum_zero]; exact ⟨false, by norm_num⟩)
      (by
        intro x y v hx hy hv
        have hp := tap_prefix (k := fun b => (pure (f32.add v (f32.mul (lapKernel k_size x y) (f32.ofInt (b.toNat : Int)))) : M FV))
          (hs.put_ne hne (n' := N') (f' := g)) hN hb hR' hC' hR hC hi hj hx hy s1 s2 s3
        refine ⟨_, hp, ?_⟩
        rw [psum_step]
        have b1 := tb x y
        have b2 := psum_bound (b := 3) tb x (y+1)
        rw [psum_step] at b2
        have hv2 : (f32.ofInt ((nbr C gR gC f i j x y : Nat) : ℤ)).Is ((nbr C gR gC f i j x y : ℤ)) :=
          is_ofInt (rep32_int (by have := nbr_lt C gR gC f i j x y; rw [abs_of_nonneg (by omega)]; omega))
        have hm := is_mul (F := f32) (lapKernel_is k_size x y) hv2 (by
          have := rep32_int (n := lapK k_size x y * (nbr C gR gC f i j x y : ℤ)) (by omega)
          exact_mod_cast this)
        have ha := is_add (F := f32) hv hm (by
          have := rep32_int (n := psum 3 (fun x y => lapK k_size x y * (nbr C gR gC f i j x y : ℤ)) x y
            + lapK k_size x y * (nbr C gR gC f i j x y : ℤ)) (by
              refine le_trans b2 ?_
              push_cast
              omega)
          push_cast at this ⊢
          exact this)
        have e : (((psum 3 (fun x y => lapK k_size x y * (nbr C gR gC f i j x y : ℤ)) x y
            + lapK k_size x y * (nbr C gR gC f i j x y : ℤ) : ℤ)) : ℚ)
            = ((psum 3 (fun x y => lapK k_size x y * (nbr C gR gC f i j x y : ℤ)) x y : ℤ) : ℚ)
              + (lapK k_size x y : ℚ) * ((nbr C gR gC f i j x y : ℤ) : ℚ) := by push_cast; ring
        rw [e]
        exact ha)
      (by intro x v _ hv; rw [psum_row]; exact hv)
    rw [psum_end] at h2
    exact ⟨v, h1, h2⟩
  intro v hv
  have e := eval_px1 hi hj hb
  rw [Nat.mul_one, Nat.add_zero] at e
  rw [s2]
  refine Fills.bind (fun g => ev_ok e _) ?_
  rw [d3]
  refine Fills.store (lt_of_lt_of_le (mix_lt hi hj) hN') ?_
  apply UInt8.toNat_inj.mp
  have := saturate_fin hv
  rw [rne_int, ← hnew] at this
  exact_mod_cast this

/-- the two Sobel kernels -/
def sobKx (x y : Nat) : ℤ := sobelX x y
def sobKy (x y : Nat) : ℤ := sobelY x y

def sobSum (K : Nat → Nat → ℤ) (C : Nat) (gR gC : Int → Nat) (f : Nat → UInt8) (i j : Nat) : ℤ :=
  ∑ x ∈ Finset.range 3, ∑ y ∈ Finset.range 3, K x y * nbr C gR gC f i j x y

theorem sob_bound {C : Nat} {gR gC : Int → Nat} {f : Nat → UInt8} {i j : Nat} {K : Nat → Nat → ℤ}
    (hK : ∀ x y, x < 3 → y < 3 → |K x y| ≤ 2) (x y : Nat) :
    |(if x < 3 ∧ y < 3 then K x y * (nbr C gR gC f i j x y : ℤ) else 0)| ≤ (510 : Nat) := by
  split
  · rename_i h
    rw [abs_mul]
    have h2 := nbr_lt C gR gC f i j x y
    have h3 : |(nbr C gR gC f i j x y : ℤ)| ≤ 255 := by rw [abs_of_nonneg (by omega)]; omega
    calc _ ≤ (2:ℤ) * 255 := mul_le_mul (hK x y h.1 h.2) h3 (abs_nonneg _) (by norm_num)
      _ = _ := by norm_num
  · simp

theorem sobKx_bound (x y : Nat) (hx : x < 3) (hy : y < 3) : |sobKx x y| ≤ 2 := by
  interval_cases x <;> interval_cases y <;> decide
theorem sobKy_bound (x y : Nat) (hx : x < 3) (hy : y < 3) : |sobKy x y| ≤ 2 := by
  interval_cases x <;> interval_cases y <;> decide

theorem sobStep {z t : ℤ} {k v : ℤ} (ht : t = k * v) (h1 : |t| ≤ 510) (h2 : |z| ≤ 510 * 9) :
    (CI.lit z + CI.lit k * CI.lit v : CI) = CI.lit (z + t) := by
  rw [abs_le] at h1 h2
  rw [CI.mul_ok (by constructor <;> omega), ← ht, CI.add_ok (by constructor <;> omega)]

theorem absStep {z : ℤ} (h : |z| ≤ 510 * 9) : (if z < 0 then - CI.lit z else CI.lit z : CI) = CI.lit |z| := by
  have h' := abs_le.mp h
  split
  · rename_i h0
    rw [CI.neg_ok (by constructor <;> omega), abs_of_neg h0]
  · rename_i h0
    rw [abs_of_nonneg (by omega)]

theorem sobelPixel_run {m : Mem} {sd dd N N' R C i j : Nat} {bt threshold : Int} {gR gC : Int → Nat} {f new : Nat → UInt8}
    {s d : SimpleMat} (hs : Holds m sd N f) (hN : R * C ≤ N) (hN' : R * C ≤ N') (hne : sd ≠ dd) (hb : R * C ≤ 2147483647)
    (hR' : R ≤ 2147483640) (hC' : C ≤ 2147483640)
    (hR : TapOK bt R 1 gR) (hC : TapOK bt C 1 gC) (hi : i < R) (hj : j < C)
    (s1 : s.rows = R) (s2 : s.cols = C) (s3 : s.data = sd) (d3 : d.data = dd)
    (hnew : new (i * C + j) = if max |sobSum sobKx C gR gC f i j| |sobSum sobKy C gR gC f i j| > threshold then 255 else 0) :
    Fills (sobelPixel s d threshold bt i j) m dd N' new (fun p => p = i * C + j) := by
  let tx : Nat → Nat → ℤ := fun x y => if x < 3 ∧ y < 3 then sobKx x y * (nbr C gR gC f i j x y : ℤ) else 0
  let ty : Nat → Nat → ℤ := fun x y => if x < 3 ∧ y < 3 then sobKy x y * (nbr C gR gC f i j x y : ℤ) else 0
  have bx : ∀ x y, |tx x y| ≤ (510:Nat) := sob_bound sobKx_bound
  have by' : ∀ x y, |ty x y| ≤ (510:Nat) := sob_bound sobKy_bound
  have px : ∀ x y, x ≤ 3 → x * 3 + y ≤ 9 → |psum 3 tx x y| ≤ 510 * 9 := by
    intro x y _ h; refine le_trans (psum_bound bx x y) ?_; push_cast; omega
  have py : ∀ x y, x ≤ 3 → x * 3 + y ≤ 9 → |psum 3 ty x y| ≤ 510 * 9 := by
    intro x y _ h; refine le_trans (psum_bound by' x y) ?_; push_cast; omega
  have ex : psum 3 tx 3 0 = sobSum sobKx C gR gC f i j := by
    rw [psum_end]
    exact Finset.sum_congr rfl fun x hx => Finset.sum_congr rfl fun y hy =>
      if_pos ⟨Finset.mem_range.mp hx, Finset.mem_range.mp hy⟩
  have ey : psum 3 ty 3 0 = sobSum sobKy C gR gC f i j := by
    rw [psum_end]
    exact Finset.sum_congr rfl fun x hx => Finset.sum_congr rfl fun y hy =>
      if_pos ⟨Finset.mem_range.mp hx, Finset.mem_range.mp hy⟩
  unfold sobelPixel
  refine Fills.bindP (Q := fun g : Int × Int => g = (psum 3 tx 3 0, psum 3 ty 3 0)) ?_ ?_
  · intro g
    exact taps_inv (a := 3) (b := 3) (m := m.put dd N' g) (s0 := ((0, 0) : Int × Int))
      (body := fun x y g => sobelTap s bt i j x y g)
      (fun x y v => v = (psum 3 tx x y, psum 3 ty x y))
      (by rw [psum_zero, psum_zero])
      (by
        rintro x y v hx hy rfl
        have hp := tap_prefix (k := fun b => (do
            let gradx ← ev (CI.lit (psum 3 tx x y) + CI.lit (sobelX x y) * CI.lit (b.toNat : Int))
            let grady ← ev (CI.lit (psum 3 ty x y) + CI.lit (sobelY x y) * CI.lit (b.toNat : Int))
            pure (gradx, grady) : M (Int × Int)))
          (hs.put_ne hne (n' := N') (f' := g)) hN hb hR' hC' hR hC hi hj hx hy s1 s2 s3
        have z1 := sobStep (z := psum 3 tx x y) (t := tx x y) (k := sobelX x y) (v := (nbr C gR gC f i j x y : ℤ))
          (if_pos ⟨hx, hy⟩) (by exact_mod_cast bx x y) (px x y (by omega) (by omega))
        have z2 := sobStep (z := psum 3 ty x y) (t := ty x y) (k := sobelY x y) (v := (nbr C gR gC f i j x y : ℤ))
          (if_pos ⟨hx, hy⟩) (by exact_mod_cast by' x y) (py x y (by omega) (by omega))
        have := hp.trans ((bind_ok (ev_ok z1 _)).trans (bind_ok (ev_ok z2 _)))
        refine ⟨_, this, ?_⟩
        rw [psum_step, psum_step])
      (by rintro x v _ rfl; rw [psum_row, psum_row])
  rintro _ rfl
  dsimp only
  rw [ex, ey]
  have bx' := px 3 0 (by omega) (by omega)
  have by'' := py 3 0 (by omega) (by omega)
  rw [ex] at bx'
  rw [ey] at by''
  refine Fills.bind (fun g => ev_ok (absStep bx') _) ?_
  refine Fills.bind (fun g => ev_ok (absStep by'') _) ?_
  have e := eval_px1 hi hj hb
  rw [Nat.mul_one, Nat.add_zero] at e
  rw [s2]
  refine Fills.bind (fun g => ev_ok e _) ?_
  rw [d3]
  refine Fills.store (lt_of_lt_of_le (mix_lt hi hj) hN') ?_
  rw [hnew]
  have : (if |sobSum sobKx C gR gC f i j| > |sobSum sobKy C gR gC f i j| then |sobSum sobKx C gR gC f i j|
      else |sobSum sobKy C gR gC f i j|) = max |sobSum sobKx C gR gC f i j| |sobSum sobKy C gR gC f i j| := by
    split
    · rw [max_eq_left (by omega)]
    · rw [max_eq_right (by omega)]
  rw [this]

end HyperCV
