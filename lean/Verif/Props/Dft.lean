/- C93: the discrete Fourier transform. -/
import Verif.Proof.DftError
import Verif.Props.FloatAdd

namespace HyperCV
open Spec Finset

/-! ### The specification in terms of cosines and sines -/

theorem dft_re (R C : Nat) (x : Nat → Nat → ℝ) (u v : Nat) (hC : 0 < C) :
    (dft R C x u v).re = ∑ q ∈ range (R * C), x (q / C) (q % C) * Real.cos ((-2:ℤ) * Real.pi * ((u:ℝ) * (q / C : Nat) / R + (v:ℝ) * (q % C : Nat) / C)) := by
  rw [sum_flat]
  unfold dft
  rw [Complex.re_sum]
  refine sum_congr rfl fun i _ => ?_
  rw [Complex.re_sum]
  refine sum_congr rfl fun j hj => ?_
  have hj := mem_range.1 hj
  rw [mix_div hj, mix_mod hj, Complex.re_ofReal_mul, ← Complex.ofReal_neg, Complex.exp_ofReal_mul_I_re]
  unfold phase
  congr 2
  push_cast
  ring

theorem dft_im (R C : Nat) (x : Nat → Nat → ℝ) (u v : Nat) (hC : 0 < C) :
    (dft R C x u v).im = ∑ q ∈ range (R * C), x (q / C) (q % C) * Real.sin ((-2:ℤ) * Real.pi * ((u:ℝ) * (q / C : Nat) / R + (v:ℝ) * (q % C : Nat) / C)) := by
  rw [sum_flat]
  unfold dft
  rw [Complex.im_sum]
  refine sum_congr rfl fun i _ => ?_
  rw [Complex.im_sum]
  refine sum_congr rfl fun j hj => ?_
  have hj := mem_range.1 hj
  rw [mix_div hj, mix_mod hj, Complex.im_ofReal_mul, ← Complex.ofReal_neg, Complex.exp_ofReal_mul_I_im]
  unfold phase
  congr 2
  push_cast
  ring

/-- the sum of all pixels -/
def greySum (R C : Nat) (a : Nat → Nat → Nat → Nat) : ℕ := ∑ i ∈ range R, ∑ j ∈ range C, a i j 0

theorem pixelSum_flat (R C : Nat) (a : Nat → Nat → Nat → Nat) : greySum R C a = ∑ q ∈ range (R * C), a (q / C) (q % C) 0 := by
  rw [sum_flat]
  unfold greySum
  refine sum_congr rfl fun i _ => sum_congr rfl fun j hj => ?_
  have hj := mem_range.1 hj
  rw [mix_div hj, mix_mod hj]

section
variable {m : Mem} {ps pr pi R C E : Nat} {dt : Int} {a r0 i0 : Nat → Nat → Nat → Nat} {L : Trig}

/-- the arguments of the transform: a grey image of bytes or of 16-bit numbers, and two `float` images of the same size -/
structure DftArgs (m : Mem) (ps pr pi R C : Nat) (dt : Int) (E : Nat) (a r0 i0 : Nat → Nat → Nat → Nat) : Prop where
  src : IsImageN m ps R C dt 1 E a
  re : IsImageN m pr R C 4 1 4 r0
  im : IsImageN m pi R C 4 1 4 i0
  type : dt = 1 ∨ dt = 12
  sep1 : SepPixels m ps pr
  sep2 : SepPixels m ps pi
  sep3 : SepPixels m pr pi

theorem DftArgs.bytes (h : DftArgs m ps pr pi R C dt E a r0 i0) : E ≤ 2 := by
  have h1 := h.src.1.size
  rcases h.type with rfl | rfl
  · have : elemBytes 1 = some 1 := rfl
    rw [this] at h1
    cases h1
    decide
  · have : elemBytes 12 = some 2 := rfl
    rw [this] at h1
    cases h1
    decide

/-- the term of the sum at one frequency -/
theorem dftTerm_err {f : FV → FV} {g : ℝ → ℝ} (hf : GoodFn f g) (hR : R ≤ 4096) (hC : C ≤ 4096) (ha : ∀ i j, i < R → j < C → a i j 0 < 65536)
    {u v : Nat} (hu : u < R) (hv : v < C) {q : Nat} (hq : q < R * C) :
    ∃ z : ℚ, f64.Val (dftTerm f R C a u v q) z ∧ |z| ≤ ((a (q / C) (q % C) 0 : Nat) : ℚ) * (1 + 1 / 2 ^ 40) + 1 / 2 ^ 190 ∧
      |(z:ℝ) - (a (q / C) (q % C) 0 : Nat) * g ((-2:ℤ) * Real.pi * ((u:ℝ) * (q / C : Nat) / R + (v:ℝ) * (q % C : Nat) / C))|
        ≤ (((a (q / C) (q % C) 0 : Nat) : ℚ) : ℝ) * ((R + C) / 2 ^ 20) + 1 / 2 ^ 190 := by
  have pC : 0 < C := by omega
  have hx : q / C < R := Nat.div_lt_of_lt_mul (by rwa [mul_comm])
  have hy : q % C < C := Nat.mod_lt _ pC
  have hb := ha _ _ hx hy
  unfold dftTerm
  generalize a (q / C) (q % C) 0 = b at *
  have vb : (f64.ofInt (b:Int)).Is (b:ℚ) := by
    have := is_int64 (n := (b:ℤ)) (by rw [abs_of_nonneg (by positivity)]; omega)
    simpa using this
  have hbq : (b:ℚ) ≤ 65536 := by exact_mod_cast hb.le
  obtain ⟨z, z1, z2, z3⟩ := prod_err hf (s := -2) (Or.inr rfl) hR hC hu hx hv hy vb (by
    rw [abs_of_nonneg (by positivity)]
    refine le_trans hbq (by norm_num))
  have hb0 : (0:ℚ) ≤ b := by positivity
  have hb0' : (0:ℝ) ≤ ((b:ℚ):ℝ) := by positivity
  refine ⟨z, z1, ?_, ?_⟩
  · rw [abs_of_nonneg hb0] at z2
    norm_num at z2 ⊢
    linarith
  · rw [abs_of_nonneg hb0'] at z3
    rw [Rat.cast_natCast] at *
    refine le_trans z3 ?_
    have hR1 : (1:ℝ) ≤ R := by exact_mod_cast (by omega : 1 ≤ R)
    have hC1 : (1:ℝ) ≤ C := by exact_mod_cast (by omega : 1 ≤ C)
    have h1 : ((R:ℝ) + C) * (9 / 10 ^ 7) + 1 / 2 ^ 49 ≤ (R + C) / 2 ^ 20 := by norm_num; linarith
    have := mul_le_mul_of_nonneg_left h1 hb0'
    norm_num at this ⊢
    linarith

theorem dftAcc_err {f : FV → FV} {g : ℝ → ℝ} (hf : GoodFn f g) (hR : R ≤ 4096) (hC : C ≤ 4096) (hn : R * C ≤ 4194304) (ha : ∀ i j, i < R → j < C → a i j 0 < 65536)
    {u v : Nat} (hu : u < R) (hv : v < C) :
    ∃ z : ℚ, f32.Val (accD (dftTerm f R C a u v) (R * C)) z ∧
      |(z:ℝ) - ∑ q ∈ range (R * C), (a (q / C) (q % C) 0 : Nat) * g ((-2:ℤ) * Real.pi * ((u:ℝ) * (q / C : Nat) / R + (v:ℝ) * (q % C : Nat) / C))|
        ≤ ((R + C) / 2 ^ 20 + R * C / 2 ^ 22) * greySum R C a + 1 / 2 ^ 100 := by
  have pC : 0 < C := by omega
  have hsum : (∑ q ∈ range (R * C), ((a (q / C) (q % C) 0 : Nat) : ℚ)) = (greySum R C a : ℚ) := by
    rw [pixelSum_flat]; push_cast; rfl
  have hle : greySum R C a ≤ 2 ^ 38 := by
    rw [pixelSum_flat]
    have : ∑ q ∈ range (R * C), a (q / C) (q % C) 0 ≤ ∑ q ∈ range (R * C), 65536 := sum_le_sum fun q hq => by
      have hq := mem_range.1 hq
      exact (ha _ _ (Nat.div_lt_of_lt_mul (by rwa [mul_comm])) (Nat.mod_lt _ pC)).le
    rw [sum_const, card_range, smul_eq_mul] at this
    refine le_trans this ?_
    calc R * C * 65536 ≤ 4194304 * 65536 := Nat.mul_le_mul_right _ hn
      _ = 2 ^ 38 := by norm_num
  obtain ⟨z, z1, z2⟩ := accD_real hn (b := fun q => ((a (q / C) (q % C) 0 : Nat) : ℚ)) (fun q _ => by positivity)
    (by rw [hsum]; have : (greySum R C a : ℚ) ≤ 2 ^ 38 := by exact_mod_cast hle
        refine le_trans this (by norm_num)) (fun q hq => dftTerm_err hf hR hC ha hu hv hq)
  refine ⟨z, z1, le_trans z2 (le_of_eq ?_)⟩
  rw [hsum]
  push_cast
  rfl

/-- **C93**, for images of at most 4096 rows and columns and at most 2^22 pixels: at every frequency the two result images have the real
and the imaginary part of the transform, up to the stated rounding error (the library functions being accurate, the constant `PI` having
eight digits); the source and all other memory are unchanged.  Images of other data types, which the property does not speak of, are
neither transformed nor rejected (`C93_types`). -/
theorem C93_dft (hL : GoodTrig L) (h : DftArgs m ps pr pi R C dt E a r0 i0) (hR : R ≤ 4096) (hC : C ≤ 4096) (hn : R * C ≤ 4194304) :
    ∃ m' re im, hypercv_dft L (some ps) (some pr) (some pi) m = .ok ((), m') ∧ IsImageN m' pr R C 4 1 4 re ∧ IsImageN m' pi R C 4 1 4 im ∧
      (m'.hm = m.hm ∧ m'.sm = m.sm ∧ m'.next = m.next ∧ ∀ x, ¬ PixelBlock m pr x → ¬ PixelBlock m pi x → m'.blk x = m.blk x) ∧
      ∀ u v, u < R → v < C → ∃ x y : ℚ, FloatIs f32 (re u v 0) x ∧ FloatIs f32 (im u v 0) y ∧
        |(x:ℝ) - (dft R C (fun i j => a i j 0) u v).re| ≤ ((R + C) / 2 ^ 20 + R * C / 2 ^ 22) * greySum R C a + 1 / 2 ^ 100 ∧
        |(y:ℝ) - (dft R C (fun i j => a i j 0) u v).im| ≤ ((R + C) / 2 ^ 20 + R * C / 2 ^ 22) * greySum R C a + 1 / 2 ^ 100 := by
  have pC := h.src.1.posC
  obtain ⟨sd, si, s1, s2⟩ := imgN_open h.src
  obtain ⟨rd, ri, r1, r2⟩ := imgN_open h.re
  obtain ⟨vd, vi, v1, v2⟩ := imgN_open h.im
  have n1 : sd ≠ rd := sep_ne h.sep1 s1 r1
  have n2 : sd ≠ vd := sep_ne h.sep2 s1 v1
  have n3 : rd ≠ vd := sep_ne h.sep3 r1 v1
  have good : ∀ f, FitsP 4 R C 1 (dftBits f R C a) := fun f _ _ _ _ _ _ => f32_encode_lt (good_accD _ _)
  obtain ⟨o1, o2⟩ := imgN_put h.re r1 (good L.cos)
  have h3 : IsImageN (m.putP rd 4 R C 1 (dftBits L.cos R C a)) pi R C 4 1 4 i0 := ⟨img_only h.im.1 (fun x hx => h.sep3 x ⟨hx.2, hx.1⟩) o2, h.im.2⟩
  obtain ⟨o3, o4⟩ := imgN_put h3 (show (m.putP rd 4 R C 1 (dftBits L.cos R C a)).sm pi = _ from v1) (good L.sin)
  have run : hypercv_dft L (some ps) (some pr) (some pi) m = .ok ((), (m.putP rd 4 R C 1 (dftBits L.cos R C a)).putP vd 4 R C 1 (dftBits L.sin R C a)) := by
    unfold hypercv_dft
    rw [bind_ok (dftChecks_run s1 r1 v1)]
    have hz : R * C ≤ 2147483647 := by omega
    rcases h.type with rfl | rfl
    · obtain rfl : E = 1 := by have := h.src.1.size; cases this; rfl
      show (if (1:Int) = 1 then hypercv_dft_uchar L (some ps) (some pr) (some pi) else _) m = _
      rw [if_pos rfl]
      unfold hypercv_dft_uchar
      rw [bind_ok (dftChecks_run s1 r1 v1)]
      exact dftLoop_run L s2 r2 v2 n1 n2 n3 hz
    · obtain rfl : E = 2 := by have := h.src.1.size; cases this; rfl
      show (if (12:Int) = 1 then hypercv_dft_uchar L (some ps) (some pr) (some pi) else if (12:Int) = 12 then hypercv_dft_ushort L (some ps) (some pr) (some pi) else _) m = _
      rw [if_neg (by decide), if_pos rfl]
      unfold hypercv_dft_ushort
      rw [bind_ok (dftChecks_run s1 r1 v1)]
      exact dftLoop_run L s2 r2 v2 n1 n2 n3 hz
  have ha : ∀ i j, i < R → j < C → a i j 0 < 65536 := by
    intro i j hi hj
    refine lt_of_lt_of_le (h.src.2 i j 0 hi hj (by decide)) ?_
    calc 256 ^ E ≤ 256 ^ 2 := Nat.pow_le_pow_right (by decide) h.bytes
      _ = 65536 := by norm_num
  refine ⟨_, _, _, run, ⟨img_only o1.1 (sep_only h.sep3 o2) o4, o1.2⟩, o3, ⟨rfl, rfl, rfl, ?_⟩, ?_⟩
  · intro x hx hy
    have e1 : x ≠ vd := by rintro rfl; exact hy ⟨_, v1, rfl⟩
    have e2 : x ≠ rd := by rintro rfl; exact hx ⟨_, r1, rfl⟩
    exact (put_blk_ne _ _ _ e1).trans (put_blk_ne _ _ _ e2)
  · intro u v hu hv
    obtain ⟨x, x1, x2⟩ := dftAcc_err (GoodTrig.fcos hL) hR hC hn ha hu hv
    obtain ⟨y, y1, y2⟩ := dftAcc_err (GoodTrig.fsin hL) hR hC hn ha hu hv
    refine ⟨x, y, ?_, ?_, ?_, ?_⟩
    · show ∃ s, f32.decode (f32.encode _) = _
      rw [f32_dec_enc (good_accD _ _)]
      exact x1.1
    · show ∃ s, f32.decode (f32.encode _) = _
      rw [f32_dec_enc (good_accD _ _)]
      exact y1.1
    · rw [dft_re R C _ u v pC]
      exact x2
    · rw [dft_im R C _ u v pC]
      exact y2

/-- **C93 is false** of images of any other data type: the call returns normally without writing anything. -/
theorem C93_types (hs : IsImageN m ps R C dt 1 E a) (hr : IsImageN m pr R C 4 1 4 r0) (hi : IsImageN m pi R C 4 1 4 i0) (h1 : dt ≠ 1) (h2 : dt ≠ 12) :
    hypercv_dft L (some ps) (some pr) (some pi) m = .ok ((), m) := by
  obtain ⟨sd, si, s1, s2⟩ := imgN_open hs
  obtain ⟨rd, ri, r1, r2⟩ := imgN_open hr
  obtain ⟨vd, vi, v1, v2⟩ := imgN_open hi
  unfold hypercv_dft
  rw [bind_ok (dftChecks_run s1 r1 v1)]
  show (if dt = 1 then hypercv_dft_uchar L (some ps) (some pr) (some pi) else if dt = 12 then hypercv_dft_ushort L (some ps) (some pr) (some pi) else _) m = _
  rw [if_neg h1, if_neg h2]
  rfl

end

/-! ### The hypotheses can be met -/

/-- a library: the values rounded to multiples of 2^-50 -/
noncomputable def floorLib (g : ℝ → ℝ) : FV → FV
  | .fin _ q => .fin false ((⌊g q * 2 ^ 50⌋ : ℤ) / 2 ^ 50)
  | v => v

theorem floorLib_good {g : ℝ → ℝ} (hg : ∀ x, |g x| ≤ 1) (v : FV) (q : ℚ) (hv : f64.Val v q) :
    ∃ r : ℚ, f64.Val (floorLib g v) r ∧ |(r:ℝ) - g q| ≤ 1 / 2 ^ 50 := by
  obtain ⟨⟨s, rfl⟩, -⟩ := hv
  have h1 := abs_le.1 (hg q)
  have h2 := Int.floor_le (g q * 2 ^ 50)
  have h3 := Int.lt_floor_add_one (g q * 2 ^ 50)
  refine ⟨(⌊g q * 2 ^ 50⌋ : ℤ) / 2 ^ 50, ⟨⟨false, rfl⟩, ⌊g q * 2 ^ 50⌋, -50, ?_, ?_, by decide, ?_⟩, ?_⟩
  · rw [div_eq_mul_inv, zpow_neg]
    norm_num
  · have l1 : -(2 ^ 50 : ℤ) ≤ ⌊g q * 2 ^ 50⌋ := by
      rw [Int.le_floor]
      push_cast
      nlinarith
    have l2 : ⌊g q * 2 ^ 50⌋ ≤ (2 ^ 50 : ℤ) := by
      have : ((⌊g q * 2 ^ 50⌋ : ℤ) : ℝ) ≤ ((2 ^ 50 : ℤ) : ℝ) := by push_cast; nlinarith
      exact_mod_cast this
    show |⌊g q * 2 ^ 50⌋| ≤ (2:ℤ) ^ 53
    rw [abs_le]
    constructor <;> omega
  · rw [f64_max]
    refine lt_of_le_of_lt (b := 2 ^ 1) ?_ (pow_lt_pow_right₀ (by norm_num) (by decide))
    have l1 : -(2 ^ 50 : ℤ) ≤ ⌊g q * 2 ^ 50⌋ := by
      rw [Int.le_floor]
      push_cast
      nlinarith
    have l2 : ⌊g q * 2 ^ 50⌋ ≤ (2 ^ 50 : ℤ) := by
      have : ((⌊g q * 2 ^ 50⌋ : ℤ) : ℝ) ≤ ((2 ^ 50 : ℤ) : ℝ) := by push_cast; nlinarith
      exact_mod_cast this
    have l1' : -(2 ^ 50 : ℚ) ≤ (⌊g q * 2 ^ 50⌋ : ℤ) := by exact_mod_cast l1
    have l2' : ((⌊g q * 2 ^ 50⌋ : ℤ) : ℚ) ≤ 2 ^ 50 := by exact_mod_cast l2
    rw [abs_le]
    norm_num at l1' l2' ⊢
    constructor <;> linarith
  · push_cast
    rw [abs_le]
    generalize ((⌊g q * 2 ^ 50⌋ : ℤ) : ℝ) = F at *
    norm_num at h2 h3 ⊢
    constructor <;> linarith

theorem exists_goodTrig : ∃ L, GoodTrig L :=
  ⟨⟨floorLib Real.cos, floorLib Real.sin⟩, fun v q h _ => floorLib_good Real.abs_cos_le_one v q h, fun v q h _ => floorLib_good Real.abs_sin_le_one v q h⟩

/-- a 2 x 3 image of 16-bit numbers, two `float` images and an accurate library -/
example : ∃ L m a r v, GoodTrig L ∧ DftArgs m 1 3 5 2 3 12 2 a r v ∧ greySum 2 3 a = 6000 := by
  obtain ⟨L, hL⟩ := exists_goodTrig
  obtain ⟨m, -, h1, h2, h3, s1, s2, s3⟩ := exists_three (R := 2) (C := 3) (dt1 := 12) (dt2 := 4) (dt3 := 4) (a := fun _ _ _ => 1000) (b := fun _ _ _ => 7) (c := fun _ _ _ => 0)
    (by decide) (by decide) rfl rfl rfl (by intro _ _ _ _ _ _; norm_num) (by intro _ _ _ _ _ _; norm_num) (by intro _ _ _ _ _ _; norm_num)
  exact ⟨L, m, _, _, _, hL, ⟨h1, h2, h3, Or.inr rfl, s1, s2, s3⟩, by decide⟩

/-- an image of type `float`, for `C93_types` -/
example : ∃ m a r v, IsImageN m 1 2 3 4 1 4 a ∧ IsImageN m 3 2 3 4 1 4 r ∧ IsImageN m 5 2 3 4 1 4 v := by
  obtain ⟨m, -, h1, h2, h3, -⟩ := exists_three (R := 2) (C := 3) (dt1 := 4) (dt2 := 4) (dt3 := 4) (a := fun _ _ _ => 1000) (b := fun _ _ _ => 7) (c := fun _ _ _ => 0)
    (by decide) (by decide) rfl rfl rfl (by intro _ _ _ _ _ _; norm_num) (by intro _ _ _ _ _ _; norm_num) (by intro _ _ _ _ _ _; norm_num)
  exact ⟨m, _, _, _, h1, h2, h3⟩

end HyperCV
