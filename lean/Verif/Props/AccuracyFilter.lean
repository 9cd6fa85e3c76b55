/- C35, C66: accuracy of the filters for arbitrary kernels. -/
import Verif.Props.Accuracy
import Verif.Props.Filter2D
import Verif.Props.Separable

namespace HyperCV
open Spec Finset

/-- sums of products in `float` -/
theorem dot_f32 {v w : Nat → FV} {x y : Nat → ℚ} {c : FV} {a : ℚ} {n : Nat} (hn : n ≤ 4194304) (hv : ∀ i, i < n → (v i).Is (x i))
    (hw : ∀ i, i < n → (w i).Is (y i)) (hc : f32.Val c a) (hb : |a| + ∑ i ∈ range n, |x i * y i| ≤ 2 ^ 125) :
    ∃ z, f32.Val ((List.range n).foldl (fun s i => f32.add s (f32.mul (v i) (w i))) c) z ∧
      |z - (a + ∑ i ∈ range n, x i * y i)| ≤ (n + 1) / 2 ^ 23 * (|a| + ∑ i ∈ range n, |x i * y i|) + n / 2 ^ 149 := by
  have hkq : (n:ℚ) ≤ 4194304 := by exact_mod_cast hn
  have hk0 : (0:ℚ) ≤ n := by positivity
  have p1 := pow_u_le f32 (n + 1) (by rw [f32_u]; push_cast; norm_num; linarith)
  have p0 := pow_u_le f32 n (by rw [f32_u]; norm_num; linarith)
  rw [f32_u] at p1 p0
  push_cast at p1
  have p2 : (1 + (1:ℚ) / 2 ^ 24) ^ (n + 1) ≤ 2 := by norm_num at p1 ⊢; linarith
  have p3 : (1 + (1:ℚ) / 2 ^ 24) ^ n ≤ 2 := by norm_num at p0 ⊢; linarith
  have q0 : 0 ≤ |a| + ∑ i ∈ range n, |x i * y i| := add_nonneg (abs_nonneg _) (sum_nonneg fun _ _ => abs_nonneg _)
  obtain ⟨z, z1, z2⟩ := dot_err n hv hw hc (by
    rw [f32_u, f32_eta, f32_max]
    have e : |a| + ∑ i ∈ range n, |x i * y i| + n * (1 / 2 ^ 150) ≤ 2 ^ 126 := by norm_num at hb ⊢; linarith
    refine lt_of_le_of_lt (mul_le_mul p2 e (by positivity) (by norm_num)) (by norm_num))
  refine ⟨z, z1, le_trans z2 (add_le_add ?_ ?_)⟩
  · refine mul_le_mul_of_nonneg_right ?_ q0
    rw [f32_u]
    norm_num at p1 ⊢
    linarith
  · rw [f32_u, f32_eta]
    have : (1 + (1:ℚ) / 2 ^ 24) ^ n * (n * (1 / 2 ^ 150)) ≤ 2 * (n * (1 / 2 ^ 150)) := mul_le_mul_of_nonneg_right p3 (by positivity)
    refine le_trans this (le_of_eq ?_)
    ring

/-! ### C35 -/

theorem foldl_flat {σ : Type} (g : σ → Nat → Nat → σ) (a b : Nat) (s : σ) :
    (List.range a).foldl (fun s x => (List.range b).foldl (fun s y => g s x y) s) s = (List.range (a * b)).foldl (fun s q => g s (q / b) (q % b)) s := by
  induction a generalizing s with
  | zero => rw [Nat.zero_mul]; rfl
  | succ a ih =>
    have inner : ∀ n s, n ≤ b → (List.range n).foldl (fun s y => g s a y) s = (List.range n).foldl (fun s y => g s ((a * b + y) / b) ((a * b + y) % b)) s := by
      intro n
      induction n with
      | zero => intro s _; rfl
      | succ n ihn =>
        intro s hn
        rw [List.range_succ, List.foldl_append, List.foldl_append, ihn s (by omega)]
        simp only [List.foldl_cons, List.foldl_nil]
        rw [mix_div (by omega), mix_mod (by omega)]
    rw [List.range_succ, List.foldl_append, ih, Nat.succ_mul, List.range_add, List.foldl_append, List.foldl_map]
    exact inner b _ (le_refl _)

section
variable {m : Mem} {sp dp kd R C ch kr kc : Nat} {px : Nat → Nat → Nat → UInt8} {old : Nat → Nat → Nat → Nat} {K : Nat → Nat → Nat}

/-- **C35**, any kernel of finite weights (up to 2^22 of them) and any finite previous contents: every element becomes its previous value plus the
correlation, up to `(kr*kc+1) / 2^23` times the sum of the magnitudes of the terms.
Missing: independence of the previous contents (`C35_refuted_previous`). -/
theorem C35_error_partial (e : Extension) (h : FilterArgs m sp dp kd R C ch kr kc px old K) {k : Nat → Nat → ℚ} {o : Nat → Nat → Nat → ℚ}
    (hK : ∀ x y, x < kr → y < kc → FloatIs f32 (K x y) (k x y)) (ho : ∀ i j c, i < R → j < C → c < ch → FloatIs f32 (old i j c) (o i j c))
    (hn : kr * kc ≤ 4194304)
    (hb : ∀ i j c, i < R → j < C → c < ch → |o i j c| + ∑ x ∈ range kr, ∑ y ∈ range kc, |k x y * tapPx e R C kr kc px i j c x y| ≤ 2 ^ 125) :
    ∃ m' out, hypercv_filter2D (some sp) (some dp) (some kd) kr kc e.code m = .ok ((), m') ∧ IsImageN m' dp R C 4 ch 4 out ∧
      OnlyPixels m m' dp ∧ ∀ i j c, i < R → j < C → c < ch → ∃ q, FloatIs f32 (out i j c) q ∧
        |q - (o i j c + corr e R C kr kc px k i j c)| ≤
          (kr * kc + 1) / 2 ^ 23 * (|o i j c| + ∑ x ∈ range kr, ∑ y ∈ range kc, |k x y * tapPx e R C kr kc px i j c x y|) + kr * kc / 2 ^ 149 := by
  obtain ⟨m', out, h1, h2, h3, h4⟩ := C35_filter2D e h
  refine ⟨m', out, h1, h2, h3, fun i j c hi hj hc => ?_⟩
  have hkc := h.kc_pos
  have flat : ∀ t : Nat → Nat → ℚ, ∑ x ∈ range kr, ∑ y ∈ range kc, t x y = ∑ q ∈ range (kr * kc), t (q / kc) (q % kc) := by
    intro t
    rw [sum_flat]
    refine sum_congr rfl fun x _ => sum_congr rfl fun y hy => ?_
    rw [mix_div (mem_range.1 hy), mix_mod (mem_range.1 hy)]
  have b := hb i j c hi hj hc
  rw [flat] at b
  obtain ⟨z, z1, z2⟩ := dot_f32 (v := fun q => f32.decode (K (q / kc) (q % kc))) (w := fun q => f32.ofInt (tapPx e R C kr kc px i j c (q / kc) (q % kc)))
    (x := fun q => k (q / kc) (q % kc)) (y := fun q => (tapPx e R C kr kc px i j c (q / kc) (q % kc) : ℚ)) hn
    (fun q hq => hK _ _ (Nat.div_lt_of_lt_mul (by rw [Nat.mul_comm]; exact hq)) (Nat.mod_lt _ hkc))
    (fun q hq => is_ofInt (rep32_int (by
      have := tapPx_bounds (R := R) (C := C) (kr := kr) (kc := kc) (px := px) e i j c (q / kc) (q % kc)
      rw [abs_of_nonneg this.1]; omega)))
    (good_val (good_decode f32_std _) (ho i j c hi hj hc)) b
  refine ⟨z, ?_, ?_⟩
  · unfold FloatIs
    rw [h4 i j c hi hj hc]
    unfold corrFloat
    rw [foldl_flat (fun v x y => f32.add v (f32.mul (f32.decode (K x y)) (f32.ofInt (tapPx e R C kr kc px i j c x y))))]
    exact z1.1
  · unfold corr
    rw [flat, flat]
    push_cast at z2
    exact z2

/-- a kernel with weights that are not dyadic fractions of few bits: 0.1 -/
example : FloatIs f32 0x3DCCCCCD (13421773 / 134217728) := ⟨false, by decide +kernel⟩

end

/-! ### C66 -/

namespace Spec
/-- limit to 0..255 -/
def clampQ (q : ℚ) : ℚ := if q < 0 then 0 else if 255 < q then 255 else q

/-- the exact horizontal sum, limited to 0..255 -/
def rowExact (e : Extension) (C w : Nat) (kx : Nat → ℚ) (px : Nat → Nat → Nat → UInt8) (i j c : Nat) : ℚ :=
  clampQ (∑ b ∈ range w, kx b * ((px i (e.index ((j:Int) + b - (w / 2 : Nat)) C).toNat c).toNat : ℚ))

/-- the exact vertical sum of the horizontal sums, limited to 0..255 -/
def sepExact (e : Extension) (R C w h : Nat) (kx ky : Nat → ℚ) (px : Nat → Nat → Nat → UInt8) (i j c : Nat) : ℚ :=
  clampQ (∑ a ∈ range h, ky a * rowExact e C w kx px (e.index ((i:Int) + a - (h / 2 : Nat)) R).toNat j c)
end Spec

theorem clampQ_range (q : ℚ) : 0 ≤ clampQ q ∧ clampQ q ≤ 255 := by
  unfold clampQ
  split
  · norm_num
  · split
    · norm_num
    · constructor <;> linarith

theorem clampQ_close (p q : ℚ) : |clampQ p - clampQ q| ≤ |p - q| := by
  unfold clampQ
  rw [le_abs]
  split_ifs with h1 h2 h3 h4 h5 h6 h7
  all_goals first
    | (rw [sub_self, abs_zero]; by_cases hh : p ≤ q <;> [right; left] <;> linarith)
    | skip
  · right; rw [abs_of_nonpos (by linarith)]; linarith
  · right; rw [abs_of_nonpos (by linarith)]; linarith
  · left; rw [abs_of_nonneg (by linarith)]; linarith
  · left; rw [abs_of_nonneg (by linarith)]; linarith
  · left; rw [abs_of_nonneg (by linarith)]; linarith
  · right; rw [abs_of_nonpos (by linarith)]; linarith
  · by_cases hh : p ≤ q
    · right; rw [abs_of_nonpos (by linarith)]
    · left; rw [abs_of_nonneg (by linarith)]

theorem clampByte_isQ {v : FV} {q : ℚ} (h : v.Is q) : (clampByte v).Is (clampQ q) := by
  obtain ⟨s, rfl⟩ := h
  unfold clampByte clampQ
  dsimp only
  split_ifs <;> exact ⟨_, rfl⟩

/-- one limited sum -/
theorem sumFloat_err {w : Nat} {k : Nat → Nat} {x : Nat → FV} {kq xq : Nat → ℚ} (hw : w ≤ 4194304) (hk : ∀ b, b < w → FloatIs f32 (k b) (kq b))
    (hx : ∀ b, b < w → (x b).Is (xq b)) (hx1 : ∀ b, b < w → |xq b| ≤ 255) (hK : ∑ b ∈ range w, |kq b| ≤ 2 ^ 100) :
    ∃ z, (sumFloat w k x).Is z ∧ |z - ∑ b ∈ range w, kq b * xq b| ≤ (w + 1) / 2 ^ 23 * (255 * ∑ b ∈ range w, |kq b|) + w / 2 ^ 149 := by
  have hA : ∑ b ∈ range w, |kq b * xq b| ≤ 255 * ∑ b ∈ range w, |kq b| := by
    rw [mul_sum]
    refine sum_le_sum fun b hb => ?_
    rw [abs_mul, mul_comm]
    exact mul_le_mul_of_nonneg_right (hx1 b (mem_range.1 hb)) (abs_nonneg _)
  obtain ⟨z, z1, z2⟩ := dot_f32 (v := fun b => f32.decode (k b)) (w := x) hw hk hx (val_zero f32) (by
    rw [abs_zero, zero_add]
    refine le_trans hA ?_
    norm_num at hK ⊢
    linarith)
  refine ⟨z, z1.1, ?_⟩
  rw [abs_zero, zero_add, zero_add] at z2
  refine le_trans z2 (add_le_add (mul_le_mul_of_nonneg_left hA (by positivity)) (le_refl _))

theorem nat_byte_is (b : UInt8) : (f32.ofInt (b.toNat : Int)).Is (b.toNat : ℚ) := by
  have hb := b.toNat_lt
  have := is_ofInt (F := f32) (n := (b.toNat : ℤ)) (rep32_int (by rw [abs_of_nonneg (by omega)]; omega))
  rwa [Int.cast_natCast] at this

/-- the computed value before rounding -/
theorem sepFloat_err (e : Extension) {R C w h : Nat} {kx ky : Nat → Nat} {kxq kyq : Nat → ℚ} {px : Nat → Nat → Nat → UInt8} (i j c : Nat)
    (hw : w ≤ 4194304) (hh : h ≤ 4194304) (hx : ∀ b, b < w → FloatIs f32 (kx b) (kxq b)) (hy : ∀ a, a < h → FloatIs f32 (ky a) (kyq a))
    (hX : ∑ b ∈ range w, |kxq b| ≤ 2 ^ 100) (hY : ∑ a ∈ range h, |kyq a| ≤ 2 ^ 100) :
    ∃ z, (sepFloat e R C w h kx ky px i j c).Is z ∧ |z - sepExact e R C w h kxq kyq px i j c| ≤
      (h + 1) / 2 ^ 23 * (255 * ∑ a ∈ range h, |kyq a|) + h / 2 ^ 149 +
      (∑ a ∈ range h, |kyq a|) * ((w + 1) / 2 ^ 23 * (255 * ∑ b ∈ range w, |kxq b|) + w / 2 ^ 149) := by
  have row : ∀ i, ∃ r, (rowFloat e C w kx px i j c).Is r ∧ |r| ≤ 255 ∧
      |r - rowExact e C w kxq px i j c| ≤ (w + 1) / 2 ^ 23 * (255 * ∑ b ∈ range w, |kxq b|) + w / 2 ^ 149 := by
    intro i
    obtain ⟨z, z1, z2⟩ := sumFloat_err (x := fun b => f32.ofInt ((px i (e.index ((j:Int) + b - (w / 2 : Nat)) C).toNat c).toNat : Int)) hw hx
      (fun b _ => nat_byte_is _) (fun b _ => by
        have : (px i (e.index ((j:Int) + b - (w / 2 : Nat)) C).toNat c).toNat ≤ 255 := by
          have := (px i (e.index ((j:Int) + b - (w / 2 : Nat)) C).toNat c).toNat_lt; omega
        rw [abs_of_nonneg (Nat.cast_nonneg _)]
        exact_mod_cast this) hX
    refine ⟨clampQ z, clampByte_isQ z1, ?_, le_trans (clampQ_close _ _) z2⟩
    have := clampQ_range z
    rw [abs_of_nonneg this.1]
    exact this.2
  choose r r1 r2 r3 using row
  obtain ⟨z, z1, z2⟩ := sumFloat_err (x := fun a => rowFloat e C w kx px (e.index ((i:Int) + a - (h / 2 : Nat)) R).toNat j c) hh hy
    (fun a _ => r1 _) (fun a _ => r2 _) hY
  refine ⟨clampQ z, clampByte_isQ z1, ?_⟩
  unfold sepExact
  refine le_trans (clampQ_close _ _) ?_
  have e1 : ∀ T : ℚ, z - T = (z - ∑ a ∈ range h, kyq a * r (e.index ((i:Int) + a - (h / 2 : Nat)) R).toNat) +
      (∑ a ∈ range h, kyq a * r (e.index ((i:Int) + a - (h / 2 : Nat)) R).toNat - T) := fun T => by ring
  rw [e1]
  refine le_trans (abs_add_le _ _) (add_le_add z2 ?_)
  rw [← sum_sub_distrib, sum_mul]
  refine le_trans (abs_sum_le_sum_abs _ _) (sum_le_sum fun a _ => ?_)
  rw [← mul_sub, abs_mul]
  exact mul_le_mul_of_nonneg_left (r3 _) (abs_nonneg _)

/-- **C66**, accuracy: for kernels of finite weights every element of the destination is within 1/2 plus the rounding errors of the exact limited
vertical sum of limited horizontal sums; for a Gaussian kernel (weights adding to 1) of 31 x 31 taps the rounding errors add up to less than 0.002. -/
theorem C66_error {m : Mem} {sp dp xp yp R C ch w h : Nat} {px old : Nat → Nat → Nat → UInt8} {kx ky : Nat → Nat} {kxq kyq : Nat → ℚ}
    (e : Extension) (a : SepArgs m sp dp xp yp R C ch w h px old kx ky)
    (hw : w ≤ 4194304) (hh : h ≤ 4194304) (hx : ∀ b, b < w → FloatIs f32 (kx b) (kxq b)) (hy : ∀ a, a < h → FloatIs f32 (ky a) (kyq a))
    (hX : ∑ b ∈ range w, |kxq b| ≤ 2 ^ 100) (hY : ∑ a ∈ range h, |kyq a| ≤ 2 ^ 100) :
    ∃ m' out, hypercv_gaussian_blur_with_kernel (some sp) (some dp) (some xp) (some yp) e.code m = .ok ((), m') ∧
      IsImage8 m' dp R C ch out ∧ OldUnchangedBut m m' dp ∧
      ∀ i j c, i < R → j < C → c < ch → |((out i j c).toNat : ℚ) - sepExact e R C w h kxq kyq px i j c| ≤ 1 / 2 +
        ((h + 1) / 2 ^ 23 * (255 * ∑ a ∈ range h, |kyq a|) + h / 2 ^ 149 +
          (∑ a ∈ range h, |kyq a|) * ((w + 1) / 2 ^ 23 * (255 * ∑ b ∈ range w, |kxq b|) + w / 2 ^ 149)) := by
  obtain ⟨m', out, h1, h2, h3, h4⟩ := C66_separable e a
  refine ⟨m', out, h1, h2, h3, fun i j c hi hj hc => ?_⟩
  obtain ⟨z, z1, z2⟩ := sepFloat_err (R := R) (C := C) (px := px) e i j c hw hh hx hy hX hY
  have n := (h4 i j c z hi hj hc z1).1
  have e1 : ((out i j c).toNat : ℚ) - sepExact e R C w h kxq kyq px i j c = (((out i j c).toNat : ℚ) - z) + (z - sepExact e R C w h kxq kyq px i j c) := by ring
  rw [e1]
  refine le_trans (abs_add_le _ _) (add_le_add ?_ z2)
  push_cast at n
  first
    | exact n
    | (rw [abs_sub_comm]; exact n)

/-- the bound for 31 taps and weights that add up to 1 -/
example : (31 + 1) / 2 ^ 23 * (255 * 1) + 31 / 2 ^ 149 + 1 * ((31 + 1) / 2 ^ 23 * (255 * 1) + 31 / 2 ^ 149) < (2:ℚ) / 1000 := by norm_num

end HyperCV
