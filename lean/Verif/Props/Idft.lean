/- C94: the inverse discrete Fourier transform. -/
import Verif.Proof.IdftError
import Verif.Proof.DftInverse
import Verif.Props.Dft

namespace HyperCV
open Spec Finset

/-- the real part of the inverse transform, before the division by the number of pixels -/
theorem idft_re (R C : Nat) (X Y : Nat → Nat → ℝ) (i j : Nat) (hR : 0 < R) (hC : 0 < C) :
    (idft R C (fun u v => X u v + Y u v * Complex.I) i j).re * (R * C) =
      ∑ q ∈ range (R * C), (X (q / C) (q % C) * Real.cos ((2:ℤ) * Real.pi * ((i:ℝ) * (q / C : Nat) / R + (j:ℝ) * (q % C : Nat) / C))
        - Y (q / C) (q % C) * Real.sin ((2:ℤ) * Real.pi * ((i:ℝ) * (q / C : Nat) / R + (j:ℝ) * (q % C : Nat) / C))) := by
  have h1 : (R:ℝ) * C ≠ 0 := by positivity
  have e : ((R:ℂ) * C) = (((R:ℝ) * C : ℝ) : ℂ) := by push_cast; rfl
  unfold idft
  rw [e, Complex.div_ofReal_re, div_mul_cancel₀ _ h1, sum_flat, Complex.re_sum]
  refine sum_congr rfl fun u _ => ?_
  rw [Complex.re_sum]
  refine sum_congr rfl fun v hv => ?_
  have hv := mem_range.1 hv
  rw [mix_div hv, mix_mod hv]
  have e2 : phase R C u v i j = (2:ℤ) * Real.pi * ((i:ℝ) * u / R + (j:ℝ) * v / C) := by
    unfold phase
    push_cast
    ring
  rw [Complex.mul_re, Complex.exp_ofReal_mul_I_re, Complex.exp_ofReal_mul_I_im, e2]
  simp

/-- the sum of the absolute values of two images -/
def absSum (R C : Nat) (X Y : Nat → Nat → ℚ) : ℚ := ∑ u ∈ range R, ∑ v ∈ range C, (|X u v| + |Y u v|)

theorem absSum_flat (R C : Nat) (X Y : Nat → Nat → ℚ) : absSum R C X Y = ∑ q ∈ range (R * C), (|X (q / C) (q % C)| + |Y (q / C) (q % C)|) := by
  rw [sum_flat]
  unfold absSum
  refine sum_congr rfl fun i _ => sum_congr rfl fun j hj => ?_
  have hj := mem_range.1 hj
  rw [mix_div hj, mix_mod hj]

section
variable {m : Mem} {pr pi pd R C E : Nat} {dt : Int} {r v d0 : Nat → Nat → Nat → Nat} {L : Trig}

/-- the arguments of the inverse transform: two `float` images and a grey image of bytes or of 16-bit numbers, all of the same size -/
structure IdftArgs (m : Mem) (pr pi pd R C : Nat) (dt : Int) (E : Nat) (r v d0 : Nat → Nat → Nat → Nat) : Prop where
  re : IsImageN m pr R C 4 1 4 r
  im : IsImageN m pi R C 4 1 4 v
  dst : IsImageN m pd R C dt 1 E d0
  type : dt = 1 ∨ dt = 12
  sep1 : SepPixels m pr pd
  sep2 : SepPixels m pi pd

theorem idft_run (h : IdftArgs m pr pi pd R C dt E r v d0) (hn : R * C ≤ 2147483647) :
    ∃ m', hypercv_idft L (some pr) (some pi) (some pd) m = .ok ((), m') ∧ IsImageN m' pd R C dt 1 E (idftBits L R C r v) ∧ OnlyPixels m m' pd := by
  obtain ⟨rd, ri, r1, r2⟩ := imgN_open h.re
  obtain ⟨vd, vi, v1, v2⟩ := imgN_open h.im
  obtain ⟨dd, di, d1, d2⟩ := imgN_open h.dst
  have n1 : rd ≠ dd := sep_ne h.sep1 r1 d1
  have n2 : vd ≠ dd := sep_ne h.sep2 v1 d1
  have hE : 1 ≤ E := by
    have h1 := h.dst.1.size
    rcases h.type with rfl | rfl
    · have : elemBytes 1 = some 1 := rfl
      rw [this] at h1
      cases h1
      decide
    · have : elemBytes 12 = some 2 := rfl
      rw [this] at h1
      cases h1
      decide
  have fit : FitsP E R C 1 (idftBits L R C r v) := by
    intro i j c _ _ _
    refine lt_of_lt_of_le (UInt8.toNat_lt _) ?_
    calc 2 ^ 8 = 256 ^ 1 := by norm_num
      _ ≤ 256 ^ E := Nat.pow_le_pow_right (by decide) hE
  obtain ⟨o1, o2⟩ := imgN_put h.dst d1 fit
  refine ⟨_, ?_, o1, o2⟩
  unfold hypercv_idft
  rw [show derefS (some pd) = getS pd from rfl, bind_ok (getS_ok d1)]
  rcases h.type with rfl | rfl
  · obtain rfl : E = 1 := by have := h.dst.1.size; cases this; rfl
    show (if (1:Int) = 1 then hypercv_idft_uchar L (some pr) (some pi) (some pd) else _) m = _
    rw [if_pos rfl]
    unfold hypercv_idft_uchar
    rw [bind_ok (idftChecks_run r1 v1 d1)]
    exact idftLoop_run L hE d2 r2 v2 n1 n2 hn
  · obtain rfl : E = 2 := by have := h.dst.1.size; cases this; rfl
    show (if (12:Int) = 1 then hypercv_idft_uchar L (some pr) (some pi) (some pd) else if (12:Int) = 12 then hypercv_idft_ushort L (some pr) (some pi) (some pd) else _) m = _
    rw [if_neg (by decide), if_pos rfl]
    unfold hypercv_idft_ushort
    rw [bind_ok (idftChecks_run r1 v1 d1)]
    exact idftLoop_run L hE d2 r2 v2 n1 n2 hn

/-- the accumulated sum and the pixel -/
theorem idftBits_err (hL : GoodTrig L) (hR : R ≤ 4096) (hC : C ≤ 4096) (hn : R * C ≤ 4194304) {X Y : Nat → Nat → ℚ}
    (hx : ∀ i j, i < R → j < C → FloatIs f32 (r i j 0) (X i j)) (hy : ∀ i j, i < R → j < C → FloatIs f32 (v i j 0) (Y i j))
    (hA : absSum R C X Y ≤ 2 ^ 50) {i j : Nat} (hi : i < R) (hj : j < C) :
    |((idftBits L R C r v i j 0 : Nat) : ℝ) - max 0 (min 255 (Real.sqrt (R * C) * (idft R C (fun u v => X u v + Y u v * Complex.I) i j).re))|
      ≤ 1 / 2 + (((R + C) / 2 ^ 19 + R * C / 2 ^ 22) * absSum R C X Y / Real.sqrt (R * C) + 1 / 2 ^ 90) := by
  have pC : 0 < C := by omega
  have pR : 0 < R := by omega
  have hnp : 1 ≤ R * C := Nat.mul_pos pR pC
  have b0 : ∀ q ∈ range (R * C), 0 ≤ |X (q / C) (q % C)| + |Y (q / C) (q % C)| := fun q _ => add_nonneg (abs_nonneg _) (abs_nonneg _)
  have hAf := absSum_flat R C X Y
  have bq : ∀ q, q < R * C → |X (q / C) (q % C)| + |Y (q / C) (q % C)| ≤ 2 ^ 50 := by
    intro q hq
    refine le_trans ?_ hA
    rw [hAf]
    exact single_le_sum (f := fun q => |X (q / C) (q % C)| + |Y (q / C) (q % C)|) b0 (mem_range.2 hq)
  obtain ⟨z, z1, z2⟩ := accD_real hn (t := idftTerm L R C r v i j) (b := fun q => |X (q / C) (q % C)| + |Y (q / C) (q % C)|)
    (T := fun q => X (q / C) (q % C) * Real.cos ((2:ℤ) * Real.pi * ((i:ℝ) * (q / C : Nat) / R + (j:ℝ) * (q % C : Nat) / C))
        - Y (q / C) (q % C) * Real.sin ((2:ℤ) * Real.pi * ((i:ℝ) * (q / C : Nat) / R + (j:ℝ) * (q % C : Nat) / C))) (k := ((R:ℝ) + C) / 2 ^ 20)
    (fun q hq => b0 q (mem_range.2 hq)) (by rw [← hAf]; exact le_trans hA (by norm_num)) (by
      intro q hq
      have hqx : q / C < R := Nat.div_lt_of_lt_mul (by rwa [mul_comm])
      have hqy : q % C < C := Nat.mod_lt _ pC
      have h3 := bq q hq
      have f1 := hx _ _ hqx hqy
      have f2 := hy _ _ hqx hqy
      have a1 := abs_nonneg (X (q / C) (q % C))
      have a2 := abs_nonneg (Y (q / C) (q % C))
      exact idftTerm_err hL hR hC hi hj hq f1 f2 (by linarith) (by linarith) (good_val (good_decode f32_std _) f1).2 (good_val (good_decode f32_std _) f2).2)
  have hT : |∑ q ∈ range (R * C), (((X (q / C) (q % C) : ℚ) : ℝ) * Real.cos ((2:ℤ) * Real.pi * ((i:ℝ) * (q / C : Nat) / R + (j:ℝ) * (q % C : Nat) / C))
        - ((Y (q / C) (q % C) : ℚ) : ℝ) * Real.sin ((2:ℤ) * Real.pi * ((i:ℝ) * (q / C : Nat) / R + (j:ℝ) * (q % C : Nat) / C)))| ≤ (absSum R C X Y : ℝ) := by
    rw [hAf, Rat.cast_sum]
    refine le_trans (abs_sum_le_sum_abs _ _) (sum_le_sum fun q _ => ?_)
    refine le_trans (abs_sub _ _) ?_
    rw [abs_mul, abs_mul]
    push_cast
    have c1 := mul_le_mul_of_nonneg_left (Real.abs_cos_le_one ((2:ℤ) * Real.pi * ((i:ℝ) * (q / C : Nat) / R + (j:ℝ) * (q % C : Nat) / C))) (abs_nonneg ((X (q / C) (q % C) : ℚ) : ℝ))
    have c2 := mul_le_mul_of_nonneg_left (Real.abs_sin_le_one ((2:ℤ) * Real.pi * ((i:ℝ) * (q / C : Nat) / R + (j:ℝ) * (q % C : Nat) / C))) (abs_nonneg ((Y (q / C) (q % C) : ℚ) : ℝ))
    push_cast at c1 c2 ⊢
    linarith
  rw [← idft_re R C (fun u v => X u v) (fun u v => Y u v) i j pR pC] at z2 hT
  rw [← hAf] at z2
  have hA0 : 0 ≤ absSum R C X Y := by rw [hAf]; exact sum_nonneg b0
  have hA0' : (0:ℝ) ≤ absSum R C X Y := by exact_mod_cast hA0
  have hAr : (absSum R C X Y : ℝ) ≤ 2 ^ 50 := by exact_mod_cast hA
  generalize (absSum R C X Y : ℝ) = A at *
  generalize hG : (idft R C (fun u v => X u v + Y u v * Complex.I) i j).re = G at *
  have hRr : (1:ℝ) ≤ R := by exact_mod_cast pR
  have hCr : (1:ℝ) ≤ C := by exact_mod_cast pC
  have hRr' : (R:ℝ) ≤ 4096 := by exact_mod_cast hR
  have hCr' : (C:ℝ) ≤ 4096 := by exact_mod_cast hC
  have hnr : (R:ℝ) * C ≤ 4194304 := by exact_mod_cast hn
  have hnr1 : (1:ℝ) ≤ (R:ℝ) * C := by exact_mod_cast hnp
  rw [Nat.cast_mul] at z2
  have hz : |(z:ℝ)| ≤ 3 * A + 1 / 2 ^ 100 := by
    have := abs_add_le ((z:ℝ) - G * (R * C)) (G * (R * C))
    rw [sub_add_cancel] at this
    have k : (((R:ℝ) + C) / 2 ^ 20 + R * C / 2 ^ 22) * A ≤ 2 * A := mul_le_mul_of_nonneg_right (by norm_num; linarith) hA0'
    generalize (((R:ℝ) + C) / 2 ^ 20 + R * C / 2 ^ 22) * A = K at *
    linarith
  have hzq : |z| ≤ 2 ^ 60 := by
    have : ((|z| : ℚ) : ℝ) ≤ ((2 ^ 60 : ℚ) : ℝ) := by
      rw [Rat.cast_abs]
      push_cast
      norm_num at hAr ⊢
      linarith
    exact_mod_cast this
  obtain ⟨s, s1, s2, s3⟩ := sqrt_int hnp (show R * C ≤ 2147483647 by omega)
  rw [Nat.cast_mul] at s3
  have hr1 : (1:ℝ) ≤ Real.sqrt (R * C) := by rw [Real.one_le_sqrt]; exact hnr1
  have hrs : Real.sqrt ((R:ℝ) * C) * Real.sqrt (R * C) = R * C := Real.mul_self_sqrt (by positivity)
  generalize Real.sqrt ((R:ℝ) * C) = ρ at *
  have hr0 : 0 < ρ := by linarith
  have cz : (f64.conv (accD (idftTerm L R C r v i j) (R * C))).Is z := is_conv' z1.1 (f32_to_f64 z1.2)
  obtain ⟨w, w1, w2⟩ := div_conv_err cz s1 s2 hr1 (le_trans s3 (by apply div_le_div_of_nonneg_left hr0.le <;> norm_num)) hzq
  unfold idftBits idftValue
  refine sat_clamp_real w1.1 ?_
  have e : (w:ℝ) - ρ * G = (w - z / ρ) + (z - G * (R * C)) / ρ := by
    rw [← hrs]
    field_simp
    ring
  rw [e]
  refine le_trans (abs_add_le _ _) ?_
  rw [abs_div, abs_of_pos hr0]
  have hq0 : 0 ≤ A / ρ := by positivity
  have d1 : |(z:ℝ)| / ρ ≤ 3 * (A / ρ) + 1 / 2 ^ 100 := by
    have h1 : |(z:ℝ)| / ρ ≤ (3 * A + 1 / 2 ^ 100) / ρ := div_le_div_of_nonneg_right hz hr0.le
    have h2 : (1 / 2 ^ 100 : ℝ) / ρ ≤ 1 / 2 ^ 100 := div_le_self (by norm_num) hr1
    have e : (3 * A + 1 / 2 ^ 100) / ρ = 3 * (A / ρ) + 1 / 2 ^ 100 / ρ := by ring
    rw [e] at h1
    linarith
  have d2 : |(z:ℝ) - G * (R * C)| / ρ ≤ ((R + C) / 2 ^ 20 + R * C / 2 ^ 22) * (A / ρ) + 1 / 2 ^ 100 := by
    have h1 := div_le_div_of_nonneg_right z2 hr0.le
    have h2 : (1 / 2 ^ 100 : ℝ) / ρ ≤ 1 / 2 ^ 100 := div_le_self (by norm_num) hr1
    have e : ((((R:ℝ) + C) / 2 ^ 20 + R * C / 2 ^ 22) * A + 1 / 2 ^ 100) / ρ = ((R + C) / 2 ^ 20 + R * C / 2 ^ 22) * (A / ρ) + 1 / 2 ^ 100 / ρ := by ring
    rw [e] at h1
    linarith
  have e4 : (((R:ℝ) + C) / 2 ^ 19 + R * C / 2 ^ 22) * A / ρ = ((R + C) / 2 ^ 20 + R * C / 2 ^ 22) * (A / ρ) + (R + C) / 2 ^ 20 * (A / ρ) := by ring
  rw [e4]
  have d3 : 2 / 2 ^ 20 * (A / ρ) ≤ ((R:ℝ) + C) / 2 ^ 20 * (A / ρ) := mul_le_mul_of_nonneg_right (by norm_num; linarith) hq0
  generalize (((R:ℝ) + C) / 2 ^ 20 + R * C / 2 ^ 22) * (A / ρ) = K at *
  generalize ((R:ℝ) + C) / 2 ^ 20 * (A / ρ) = K2 at *
  generalize |(z:ℝ)| / ρ = Z at *
  generalize A / ρ = Q at *
  norm_num at d1 d2 d3 w2 ⊢
  linarith

/-- **C94, what holds**, for images of at most 4096 rows and columns and at most 2^22 pixels: the result is `sqrt (R C)` times the inverse
transform, clipped to 0..255, up to the stated rounding error.  Missing for the full property: the right factor (`C94_roundtrip`,
`C94_refuted_scale`), 16-bit values (`C94_refuted_sixteen`) and other data types (`C94_types`). -/
theorem C94_idft_partial (hL : GoodTrig L) (h : IdftArgs m pr pi pd R C dt E r v d0) (hR : R ≤ 4096) (hC : C ≤ 4096) (hn : R * C ≤ 4194304)
    {X Y : Nat → Nat → ℚ} (hx : ∀ i j, i < R → j < C → FloatIs f32 (r i j 0) (X i j)) (hy : ∀ i j, i < R → j < C → FloatIs f32 (v i j 0) (Y i j))
    (hA : absSum R C X Y ≤ 2 ^ 50) :
    ∃ m' b, hypercv_idft L (some pr) (some pi) (some pd) m = .ok ((), m') ∧ IsImageN m' pd R C dt 1 E b ∧ OnlyPixels m m' pd ∧
      ∀ i j, i < R → j < C →
        |((b i j 0 : Nat) : ℝ) - max 0 (min 255 (Real.sqrt (R * C) * (idft R C (fun u v => X u v + Y u v * Complex.I) i j).re))|
          ≤ 1 / 2 + (((R + C) / 2 ^ 19 + R * C / 2 ^ 22) * absSum R C X Y / Real.sqrt (R * C) + 1 / 2 ^ 90) := by
  obtain ⟨m', h1, h2, h3⟩ := idft_run (L := L) h (show R * C ≤ 2147483647 by omega)
  exact ⟨m', _, h1, h2, h3, fun i j hi hj => idftBits_err hL hR hC hn hx hy hA hi hj⟩

/-- **C94 is false of 16-bit images**: whatever the arguments and the library, no pixel of the result is above 255, so that no image with a
larger pixel comes back. -/
theorem C94_refuted_sixteen (h : IdftArgs m pr pi pd R C 12 2 r v d0) (hn : R * C ≤ 2147483647) :
    ∃ m' b, hypercv_idft L (some pr) (some pi) (some pd) m = .ok ((), m') ∧ IsImageN m' pd R C 12 1 2 b ∧ ∀ i j, i < R → j < C → b i j 0 ≤ 255 := by
  obtain ⟨m', h1, h2, h3⟩ := idft_run (L := L) h hn
  exact ⟨m', _, h1, h2, fun i j _ _ => by
    have := UInt8.toNat_lt (idftValue (accD (idftTerm L R C r v i j) (R * C)) (R * C : Nat))
    unfold idftBits
    omega⟩

/-- **C94 is false of other data types**: the call returns normally without writing anything. -/
theorem C94_types (hd : IsImageN m pd R C dt 1 E d0) (h1 : dt ≠ 1) (h2 : dt ≠ 12) (re im : Option Nat) :
    hypercv_idft L re im (some pd) m = .ok ((), m) := by
  obtain ⟨dd, di, d1, d2⟩ := imgN_open hd
  unfold hypercv_idft
  rw [show derefS (some pd) = getS pd from rfl, bind_ok (getS_ok d1)]
  show (if dt = 1 then hypercv_idft_uchar L re im (some pd) else if dt = 12 then hypercv_idft_ushort L re im (some pd) else _) m = _
  rw [if_neg h1, if_neg h2]
  rfl

end

/-! ### Transform and inverse transform -/

theorem img_two {m m' : Mem} {p q q' R C ch E : Nat} {dt : Int} {a : Nat → Nat → Nat → Nat} (h : IsImageN m p R C dt ch E a) (s1 : SepPixels m p q)
    (s2 : SepPixels m p q') (hs : m'.sm = m.sm) (hb : ∀ x, ¬ PixelBlock m q x → ¬ PixelBlock m q' x → m'.blk x = m.blk x) : IsImageN m' p R C dt ch E a := by
  obtain ⟨⟨h0, h1, h2, h3, hdr, f, g1, g2, g3, g4, g5, g6, g7, g8⟩, hf⟩ := h
  refine ⟨⟨h0, h1, h2, h3, hdr, f, ?_, g2, g3, g4, g5, g6, ?_, g8⟩, hf⟩
  · rw [hs]; exact g1
  · rw [bytes_iff] at g7 ⊢
    unfold Holds
    rw [hb hdr.data (fun hc => s1 hdr.data ⟨⟨hdr, g1, rfl⟩, hc⟩) (fun hc => s2 hdr.data ⟨⟨hdr, g1, rfl⟩, hc⟩)]
    exact g7

theorem sep_sm {m m' : Mem} {p q : Nat} (h : SepPixels m p q) (hs : m'.sm = m.sm) : SepPixels m' p q := by
  intro x hx
  apply h x
  unfold PixelBlock at *
  rw [hs] at hx
  exact hx

/-- the transform is bounded by the sum of the pixels -/
theorem dft_bound (R C : Nat) (a : Nat → Nat → Nat → Nat) (u v : Nat) (hC : 0 < C) :
    |(dft R C (fun i j => a i j 0) u v).re| ≤ greySum R C a ∧ |(dft R C (fun i j => a i j 0) u v).im| ≤ greySum R C a := by
  rw [dft_re R C _ u v hC, dft_im R C _ u v hC, pixelSum_flat, Nat.cast_sum]
  constructor
  · refine le_trans (abs_sum_le_sum_abs _ _) (sum_le_sum fun q _ => ?_)
    rw [abs_mul, abs_of_nonneg (Nat.cast_nonneg _)]
    have := mul_le_mul_of_nonneg_left (Real.abs_cos_le_one ((-2:ℤ) * Real.pi * ((u:ℝ) * (q / C : Nat) / R + (v:ℝ) * (q % C : Nat) / C)))
      (Nat.cast_nonneg (α := ℝ) (a (q / C) (q % C) 0))
    linarith
  · refine le_trans (abs_sum_le_sum_abs _ _) (sum_le_sum fun q _ => ?_)
    rw [abs_mul, abs_of_nonneg (Nat.cast_nonneg _)]
    have := mul_le_mul_of_nonneg_left (Real.abs_sin_le_one ((-2:ℤ) * Real.pi * ((u:ℝ) * (q / C : Nat) / R + (v:ℝ) * (q % C : Nat) / C)))
      (Nat.cast_nonneg (α := ℝ) (a (q / C) (q % C) 0))
    linarith

/-- two inverse transforms of functions that are near each other -/
theorem idft_near {R C : Nat} {X Y : Nat → Nat → ℝ} {F : Nat → Nat → ℂ} {e : ℝ} (hR : 0 < R) (hC : 0 < C)
    (hx : ∀ u v, u < R → v < C → |X u v - (F u v).re| ≤ e) (hy : ∀ u v, u < R → v < C → |Y u v - (F u v).im| ≤ e) (i j : Nat) :
    |(idft R C (fun u v => X u v + Y u v * Complex.I) i j).re - (idft R C F i j).re| ≤ 2 * e := by
  have h1 : (0:ℝ) < (R:ℝ) * C := by positivity
  have eF : idft R C F i j = idft R C (fun u v => ((F u v).re : ℂ) + ((F u v).im : ℂ) * Complex.I) i j := by
    congr 1
    funext u v
    exact (Complex.re_add_im _).symm
  rw [eF]
  have a1 := idft_re R C X Y i j hR hC
  have a2 := idft_re R C (fun u v => (F u v).re) (fun u v => (F u v).im) i j hR hC
  rw [← mul_le_mul_iff_left₀ h1]
  have e1 : |(idft R C (fun u v => X u v + Y u v * Complex.I) i j).re - (idft R C (fun u v => ((F u v).re : ℂ) + ((F u v).im : ℂ) * Complex.I) i j).re| * ((R:ℝ) * C)
      = |(idft R C (fun u v => X u v + Y u v * Complex.I) i j).re * (R * C) - (idft R C (fun u v => ((F u v).re : ℂ) + ((F u v).im : ℂ) * Complex.I) i j).re * (R * C)| := by
    rw [← sub_mul, abs_mul, abs_of_pos h1]
  rw [e1, a1, a2, ← sum_sub_distrib]
  refine le_trans (abs_sum_le_sum_abs _ _) ?_
  have hb : ∀ q ∈ range (R * C), |(X (q / C) (q % C) * Real.cos ((2:ℤ) * Real.pi * ((i:ℝ) * (q / C : Nat) / R + (j:ℝ) * (q % C : Nat) / C))
        - Y (q / C) (q % C) * Real.sin ((2:ℤ) * Real.pi * ((i:ℝ) * (q / C : Nat) / R + (j:ℝ) * (q % C : Nat) / C)))
      - ((F (q / C) (q % C)).re * Real.cos ((2:ℤ) * Real.pi * ((i:ℝ) * (q / C : Nat) / R + (j:ℝ) * (q % C : Nat) / C))
        - (F (q / C) (q % C)).im * Real.sin ((2:ℤ) * Real.pi * ((i:ℝ) * (q / C : Nat) / R + (j:ℝ) * (q % C : Nat) / C)))| ≤ 2 * e := by
    intro q hq
    have hq := mem_range.1 hq
    have c1 := hx _ _ (Nat.div_lt_of_lt_mul (by rwa [mul_comm]) : q / C < R) (Nat.mod_lt q hC)
    have c2 := hy _ _ (Nat.div_lt_of_lt_mul (by rwa [mul_comm]) : q / C < R) (Nat.mod_lt q hC)
    have c3 := Real.abs_cos_le_one ((2:ℤ) * Real.pi * ((i:ℝ) * (q / C : Nat) / R + (j:ℝ) * (q % C : Nat) / C))
    have c4 := Real.abs_sin_le_one ((2:ℤ) * Real.pi * ((i:ℝ) * (q / C : Nat) / R + (j:ℝ) * (q % C : Nat) / C))
    generalize Real.cos _ = cc at *
    generalize Real.sin _ = ss at *
    have e2 : (X (q / C) (q % C) * cc - Y (q / C) (q % C) * ss) - ((F (q / C) (q % C)).re * cc - (F (q / C) (q % C)).im * ss)
        = (X (q / C) (q % C) - (F (q / C) (q % C)).re) * cc - (Y (q / C) (q % C) - (F (q / C) (q % C)).im) * ss := by ring
    rw [e2]
    refine le_trans (abs_sub _ _) ?_
    rw [abs_mul, abs_mul]
    have d1 := mul_le_mul c1 c3 (abs_nonneg _) (le_trans (abs_nonneg _) c1)
    have d2 := mul_le_mul c2 c4 (abs_nonneg _) (le_trans (abs_nonneg _) c2)
    linarith
  refine le_trans (sum_le_sum hb) (le_of_eq ?_)
  rw [sum_const, card_range, nsmul_eq_mul]
  push_cast
  ring

section
variable {m : Mem} {ps pr pi pd R C E E' : Nat} {dt dt' : Int} {a r0 i0 d0 : Nat → Nat → Nat → Nat} {L : Trig}

/-- **C94, transform and inverse transform**: the image that comes back is `sqrt (R C)` times the image that went in, clipped to 0..255,
up to the stated rounding error. -/
theorem C94_roundtrip (hL : GoodTrig L) (h : DftArgs m ps pr pi R C dt E a r0 i0) (hd : IsImageN m pd R C dt' 1 E' d0) (ht : dt' = 1 ∨ dt' = 12)
    (q1 : SepPixels m pd pr) (q2 : SepPixels m pd pi) (hR : R ≤ 4096) (hC : C ≤ 4096) (hn : R * C ≤ 4194304) (hS : R * C * greySum R C a ≤ 2 ^ 46) :
    ∃ m1 m2 b, hypercv_dft L (some ps) (some pr) (some pi) m = .ok ((), m1) ∧ hypercv_idft L (some pr) (some pi) (some pd) m1 = .ok ((), m2) ∧
      IsImageN m2 pd R C dt' 1 E' b ∧
      ∀ i j, i < R → j < C → |((b i j 0 : Nat) : ℝ) - max 0 (min 255 (Real.sqrt (R * C) * (a i j 0 : Nat)))|
        ≤ 1 / 2 + (Real.sqrt (R * C) * (4 * ((R + C) / 2 ^ 19 + R * C / 2 ^ 22) + 2 * ((R + C) / 2 ^ 19 + R * C / 2 ^ 22) ^ 2) * greySum R C a + 1 / 2 ^ 80) := by
  have pC := h.src.1.posC
  have pR := h.src.1.posR
  obtain ⟨m1, re, im, g1, g2, g3, ⟨-, g4, -, g5⟩, g6⟩ := C93_dft hL h hR hC hn
  have hex : ∀ u v, ∃ x y : ℚ, u < R → v < C → FloatIs f32 (re u v 0) x ∧ FloatIs f32 (im u v 0) y ∧
        |(x:ℝ) - (dft R C (fun i j => a i j 0) u v).re| ≤ ((R + C) / 2 ^ 20 + R * C / 2 ^ 22) * greySum R C a + 1 / 2 ^ 100 ∧
        |(y:ℝ) - (dft R C (fun i j => a i j 0) u v).im| ≤ ((R + C) / 2 ^ 20 + R * C / 2 ^ 22) * greySum R C a + 1 / 2 ^ 100 := by
    intro u v
    by_cases hu : u < R ∧ v < C
    · obtain ⟨x, y, hxy⟩ := g6 u v hu.1 hu.2
      exact ⟨x, y, fun _ _ => hxy⟩
    · exact ⟨0, 0, fun h1 h2 => absurd ⟨h1, h2⟩ hu⟩
  choose X Y hXY using hex
  obtain ⟨m2, b1, b2, -⟩ := idft_run (L := L) (r := re) (v := im) ⟨g2, g3, img_two hd q1 q2 g4 g5, ht,
    sep_sm (fun x hx => q1 x ⟨hx.2, hx.1⟩) g4, sep_sm (fun x hx => q2 x ⟨hx.2, hx.1⟩) g4⟩ (show R * C ≤ 2147483647 by omega)
  refine ⟨m1, m2, _, g1, b1, b2, ?_⟩
  intro i j hi hj
  have hRr : (1:ℝ) ≤ R := by exact_mod_cast pR
  have hCr : (1:ℝ) ≤ C := by exact_mod_cast pC
  have hRr' : (R:ℝ) ≤ 4096 := by exact_mod_cast hR
  have hCr' : (C:ℝ) ≤ 4096 := by exact_mod_cast hC
  have hnr : (R:ℝ) * C ≤ 4194304 := by exact_mod_cast hn
  have hnp : 1 ≤ R * C := Nat.mul_pos pR pC
  have hnr1 : (1:ℝ) ≤ (R:ℝ) * C := by exact_mod_cast hnp
  have hSr : (R:ℝ) * C * greySum R C a ≤ 2 ^ 46 := by exact_mod_cast hS
  have hS0 : (0:ℝ) ≤ greySum R C a := Nat.cast_nonneg _
  have near := idft_near (e := ((R + C) / 2 ^ 20 + R * C / 2 ^ 22) * greySum R C a + 1 / 2 ^ 100) (X := fun u v => X u v) (Y := fun u v => Y u v) pR pC
    (fun u v hu hv => (hXY u v hu hv).2.2.1) (fun u v hu hv => (hXY u v hu hv).2.2.2) i j
  rw [idft_dft R C _ hi hj, Complex.ofReal_re] at near
  have hA : (absSum R C X Y : ℝ) ≤ R * C * (2 * (greySum R C a + (((R + C) / 2 ^ 20 + R * C / 2 ^ 22) * greySum R C a + 1 / 2 ^ 100))) := by
    rw [absSum_flat, Rat.cast_sum]
    have : ∀ q ∈ range (R * C), ((|X (q / C) (q % C)| + |Y (q / C) (q % C)| : ℚ) : ℝ)
        ≤ 2 * (greySum R C a + (((R + C) / 2 ^ 20 + R * C / 2 ^ 22) * greySum R C a + 1 / 2 ^ 100)) := by
      intro q hq
      have hq := mem_range.1 hq
      obtain ⟨-, -, c1, c2⟩ := hXY _ _ (Nat.div_lt_of_lt_mul (by rwa [mul_comm]) : q / C < R) (Nat.mod_lt q pC)
      obtain ⟨f1, f2⟩ := dft_bound R C a (q / C) (q % C) pC
      have t1 := abs_add_le (((X (q / C) (q % C) : ℚ) : ℝ) - (dft R C (fun i j => a i j 0) (q / C) (q % C)).re) ((dft R C (fun i j => a i j 0) (q / C) (q % C)).re)
      have t2 := abs_add_le (((Y (q / C) (q % C) : ℚ) : ℝ) - (dft R C (fun i j => a i j 0) (q / C) (q % C)).im) ((dft R C (fun i j => a i j 0) (q / C) (q % C)).im)
      rw [sub_add_cancel] at t1 t2
      push_cast
      linarith
    refine le_trans (sum_le_sum this) (le_of_eq ?_)
    rw [sum_const, card_range, nsmul_eq_mul]
    push_cast
    ring
  have hk0 : (0:ℝ) ≤ ((R:ℝ) + C) / 2 ^ 19 + R * C / 2 ^ 22 := by positivity
  have hk2 : ((R:ℝ) + C) / 2 ^ 19 + R * C / 2 ^ 22 ≤ 2 := by norm_num; linarith
  have hk1 : (((R:ℝ) + C) / 2 ^ 20 + R * C / 2 ^ 22) ≤ ((R:ℝ) + C) / 2 ^ 19 + R * C / 2 ^ 22 := by norm_num; linarith
  have he : (((R:ℝ) + C) / 2 ^ 20 + R * C / 2 ^ 22) * greySum R C a ≤ (((R:ℝ) + C) / 2 ^ 19 + R * C / 2 ^ 22) * greySum R C a := mul_le_mul_of_nonneg_right hk1 hS0
  have hAle : absSum R C X Y ≤ 2 ^ 50 := by
    have : (absSum R C X Y : ℝ) ≤ ((2 ^ 50 : ℚ) : ℝ) := by
      refine le_trans hA ?_
      have h1 : (((R:ℝ) + C) / 2 ^ 19 + R * C / 2 ^ 22) * greySum R C a ≤ 2 * greySum R C a := mul_le_mul_of_nonneg_right hk2 hS0
      have h2 : 2 * ((greySum R C a : ℝ) + ((((R:ℝ) + C) / 2 ^ 20 + R * C / 2 ^ 22) * greySum R C a + 1 / 2 ^ 100)) ≤ 6 * greySum R C a + 1 := by
        have : (1:ℝ) / 2 ^ 100 ≤ 1 / 2 := by norm_num
        linarith
      have h3 := mul_le_mul_of_nonneg_left h2 (show (0:ℝ) ≤ R * C by positivity)
      refine le_trans h3 ?_
      have e : (R:ℝ) * C * (6 * greySum R C a + 1) = 6 * (R * C * greySum R C a) + R * C := by ring
      rw [e]
      push_cast
      norm_num at hSr ⊢
      linarith
    exact_mod_cast this
  have main := idftBits_err (L := L) (r := re) (v := im) hL hR hC hn (fun u v hu hv => (hXY u v hu hv).1) (fun u v hu hv => (hXY u v hu hv).2.1) hAle hi hj
  have hr1 : (1:ℝ) ≤ Real.sqrt (R * C) := by rw [Real.one_le_sqrt]; exact hnr1
  have hrs : Real.sqrt ((R:ℝ) * C) * Real.sqrt (R * C) = R * C := Real.mul_self_sqrt (by positivity)
  have hr2 : Real.sqrt ((R:ℝ) * C) ≤ 2048 := by
    rw [Real.sqrt_le_left (by norm_num)]
    norm_num
    linarith
  generalize ((idftBits L R C re im i j 0 : Nat) : ℝ) = P at *
  generalize (idft R C (fun u v => X u v + Y u v * Complex.I) i j).re = G at *
  generalize ((a i j 0 : Nat) : ℝ) = x at *
  have clampLip : |max 0 (min 255 (Real.sqrt (R * C) * G)) - max 0 (min 255 (Real.sqrt (R * C) * x))| ≤ Real.sqrt (R * C) * |G - x| := by
    refine le_trans (abs_max_sub_max_le_max _ _ _ _) ?_
    rw [sub_self, abs_zero, max_eq_right (abs_nonneg _)]
    refine le_trans (abs_min_sub_min_le_max _ _ _ _) ?_
    rw [sub_self, abs_zero, max_eq_right (abs_nonneg _), ← mul_sub, abs_mul, abs_of_nonneg (Real.sqrt_nonneg _)]
  have hAd : (absSum R C X Y : ℝ) / Real.sqrt (R * C) ≤ Real.sqrt (R * C) * (2 * (greySum R C a + (((R + C) / 2 ^ 19 + R * C / 2 ^ 22) * greySum R C a + 1 / 2 ^ 100))) := by
    rw [div_le_iff₀ (by linarith)]
    refine le_trans hA ?_
    have e : Real.sqrt ((R:ℝ) * C) * (2 * (greySum R C a + ((((R:ℝ) + C) / 2 ^ 19 + R * C / 2 ^ 22) * greySum R C a + 1 / 2 ^ 100))) * Real.sqrt (R * C)
        = Real.sqrt ((R:ℝ) * C) * Real.sqrt (R * C) * (2 * (greySum R C a + ((((R:ℝ) + C) / 2 ^ 19 + R * C / 2 ^ 22) * greySum R C a + 1 / 2 ^ 100))) := by ring
    rw [e, hrs]
    refine mul_le_mul_of_nonneg_left ?_ (by positivity)
    linarith
  have near2 : |G - x| ≤ 2 * ((((R:ℝ) + C) / 2 ^ 19 + R * C / 2 ^ 22) * greySum R C a + 1 / 2 ^ 100) := by linarith
  rw [mul_div_assoc] at main
  generalize hcl : max 0 (min 255 (Real.sqrt ((R:ℝ) * C) * G)) = cG at *
  generalize max 0 (min 255 (Real.sqrt ((R:ℝ) * C) * x)) = cx at *
  generalize (absSum R C X Y : ℝ) / Real.sqrt (R * C) = Q at *
  generalize Real.sqrt ((R:ℝ) * C) = ρ at *
  generalize ((R:ℝ) + C) / 2 ^ 19 + R * C / 2 ^ 22 = k at *
  generalize (greySum R C a : ℝ) = S at *
  have t := abs_add_le (P - cG) (cG - cx)
  rw [sub_add_sub_cancel] at t
  have u1 : ρ * |G - x| ≤ ρ * (2 * (k * S + 1 / 2 ^ 100)) := mul_le_mul_of_nonneg_left near2 (by linarith)
  have u2 : k * Q ≤ k * (ρ * (2 * (S + (k * S + 1 / 2 ^ 100)))) := mul_le_mul_of_nonneg_left hAd hk0
  have e : ρ * (2 * (k * S + 1 / 2 ^ 100)) + k * (ρ * (2 * (S + (k * S + 1 / 2 ^ 100)))) = ρ * (4 * k + 2 * k ^ 2) * S + ρ * (2 + 2 * k) / 2 ^ 100 := by ring
  have u3 : ρ * (2 + 2 * k) ≤ 2048 * 6 := mul_le_mul hr2 (by linarith) (by linarith) (by norm_num)
  have u4 : ρ * (2 + 2 * k) / 2 ^ 100 ≤ 2048 * 6 / 2 ^ 100 := div_le_div_of_nonneg_right u3 (by norm_num)
  generalize ρ * (4 * k + 2 * k ^ 2) * S = W at *
  generalize ρ * (2 + 2 * k) / 2 ^ 100 = W2 at *
  have u5 : (2048 * 6 / 2 ^ 100 : ℝ) + 1 / 2 ^ 90 ≤ 1 / 2 ^ 80 := by norm_num
  linarith

/-- **C94 is false of grey images of more than three pixels**: of every image of at most 256 rows and columns whose only pixel that is not
zero is the first one, with `R C v² ≤ 255²`, transform and inverse transform give an image with a brighter first pixel. -/
theorem C94_refuted_scale (hL : GoodTrig L) (h : DftArgs m ps pr pi R C 1 1 a r0 i0) (hd : IsImageN m pd R C 1 1 1 d0)
    (q1 : SepPixels m pd pr) (q2 : SepPixels m pd pi) (hR : R ≤ 256) (hC : C ≤ 256) (hn : 4 ≤ R * C) {v : Nat} (hv : 1 ≤ v) (hv2 : R * C * (v * v) ≤ 65025)
    (ha : a 0 0 0 = v) (hz : ∀ i j, i < R → j < C → (i, j) ≠ (0, 0) → a i j 0 = 0) :
    ∃ m1 m2 b, hypercv_dft L (some ps) (some pr) (some pi) m = .ok ((), m1) ∧ hypercv_idft L (some pr) (some pi) (some pd) m1 = .ok ((), m2) ∧
      IsImageN m2 pd R C 1 1 1 b ∧ v < b 0 0 0 := by
  have pC := h.src.1.posC
  have pR := h.src.1.posR
  have hS : greySum R C a = v := by
    unfold greySum
    rw [sum_eq_single 0, sum_eq_single 0, ha]
    · intro j hj hj0
      exact hz 0 j pR (mem_range.1 hj) (by simpa using hj0)
    · intro hc
      exact absurd (mem_range.2 pC) hc
    · intro i hi hi0
      exact sum_eq_zero fun j hj => hz i j (mem_range.1 hi) (mem_range.1 hj) (by simp [hi0])
    · intro hc
      exact absurd (mem_range.2 pR) hc
  have hRC : R * C ≤ 65536 := by nlinarith
  have hvle : v ≤ 255 := by nlinarith
  obtain ⟨m1, m2, b, g1, g2, g3, g4⟩ := C94_roundtrip (L := L) hL h hd (Or.inl rfl) q1 q2 (by omega) (by omega) (by omega) (by
    rw [hS]
    calc R * C * v ≤ 65536 * 255 := Nat.mul_le_mul hRC hvle
      _ ≤ 2 ^ 46 := by norm_num)
  refine ⟨m1, m2, b, g1, g2, g3, ?_⟩
  have hb := g4 0 0 pR pC
  rw [hS, ha] at hb
  have hrs : Real.sqrt ((R:ℝ) * C) * Real.sqrt (R * C) = R * C := Real.mul_self_sqrt (by positivity)
  have hr1 : (2:ℝ) ≤ Real.sqrt (R * C) := by
    rw [Real.le_sqrt' (by norm_num)]
    norm_num
    exact_mod_cast hn
  have hvr : (1:ℝ) ≤ v := by exact_mod_cast hv
  have hv2r : (R:ℝ) * C * (v * v) ≤ 65025 := by exact_mod_cast hv2
  have hRr' : (R:ℝ) ≤ 256 := by exact_mod_cast hR
  have hCr' : (C:ℝ) ≤ 256 := by exact_mod_cast hC
  have hnr : (R:ℝ) * C ≤ 65536 := by exact_mod_cast hRC
  have hk0 : (0:ℝ) ≤ ((R:ℝ) + C) / 2 ^ 19 + R * C / 2 ^ 22 := by positivity
  have hk2 : ((R:ℝ) + C) / 2 ^ 19 + R * C / 2 ^ 22 ≤ 17 / 1024 := by norm_num; linarith
  generalize ((R:ℝ) + C) / 2 ^ 19 + R * C / 2 ^ 22 = k at *
  generalize Real.sqrt ((R:ℝ) * C) = ρ at *
  have hrv : ρ * v ≤ 255 := by
    have h1 : (ρ * v) * (ρ * v) ≤ 255 * 255 := by
      have e : (ρ * v) * (ρ * v) = ρ * ρ * (v * v) := by ring
      rw [e, hrs]
      linarith
    exact abs_le_of_sq_le_sq' (by rw [sq, sq]; exact h1) (by norm_num) |>.2
  rw [min_eq_right hrv, max_eq_right (by positivity)] at hb
  have h4 := (abs_le.1 hb).1
  have k2 : 4 * k + 2 * k ^ 2 ≤ 1 / 10 := by nlinarith
  have h5 : ρ * (4 * k + 2 * k ^ 2) * v ≤ ρ * v * (1 / 10) := by
    have := mul_le_mul_of_nonneg_left k2 (show 0 ≤ ρ * v by positivity)
    linarith
  have h6 : 2 * (v:ℝ) ≤ ρ * v := mul_le_mul_of_nonneg_right hr1 (by linarith)
  have : (v:ℝ) < b 0 0 0 := by
    generalize ρ * (4 * k + 2 * k ^ 2) * v = W at *
    norm_num at h4
    linarith
  exact_mod_cast this

end

/-! ### The hypotheses can be met -/

/-- two `float` images of zeros and a grey image -/
example : ∃ L m r v d X Y, GoodTrig L ∧ IdftArgs m 1 3 5 2 3 1 1 r v d ∧ (∀ i j, i < 2 → j < 3 → FloatIs f32 (r i j 0) (X i j)) ∧
    (∀ i j, i < 2 → j < 3 → FloatIs f32 (v i j 0) (Y i j)) ∧ absSum 2 3 X Y ≤ 2 ^ 50 := by
  obtain ⟨L, hL⟩ := exists_goodTrig
  obtain ⟨m, -, h1, h2, h3, s1, s2, s3⟩ := exists_three (R := 2) (C := 3) (dt1 := 4) (dt2 := 4) (dt3 := 1) (a := fun _ _ _ => 0x40400000) (b := fun _ _ _ => 0x3F800000) (c := fun _ _ _ => 9)
    (by decide) (by decide) rfl rfl rfl (by intro _ _ _ _ _ _; norm_num) (by intro _ _ _ _ _ _; norm_num) (by intro _ _ _ _ _ _; norm_num)
  have d1 : f32.decode 0x40400000 = .fin false 3 := by decide +kernel
  have d2 : f32.decode 0x3F800000 = .fin false 1 := by decide +kernel
  refine ⟨L, m, _, _, _, fun _ _ => 3, fun _ _ => 1, hL, ⟨h1, h2, h3, Or.inl rfl, s2, s3⟩, ?_, ?_, ?_⟩
  · exact fun _ _ _ _ => ⟨false, d1⟩
  · exact fun _ _ _ _ => ⟨false, d2⟩
  · norm_num [absSum]

/-- a grey image with one pixel of value 100 at the top left; the result overwrites the image -/
example : ∃ L m a r v, GoodTrig L ∧ DftArgs m 1 3 5 2 3 1 1 a r v ∧ SepPixels m 1 3 ∧ SepPixels m 1 5 ∧ a 0 0 0 = 100 ∧
    (∀ i j, i < 2 → j < 3 → (i, j) ≠ (0, 0) → a i j 0 = 0) ∧ 2 * 3 * (100 * 100) ≤ 65025 := by
  obtain ⟨L, hL⟩ := exists_goodTrig
  obtain ⟨m, -, h1, h2, h3, s1, s2, s3⟩ := exists_three (R := 2) (C := 3) (dt1 := 1) (dt2 := 4) (dt3 := 4) (a := fun i j _ => if (i, j) = (0, 0) then 100 else 0) (b := fun _ _ _ => 7) (c := fun _ _ _ => 0)
    (by decide) (by decide) rfl rfl rfl (by intro i j _ _ _ _; dsimp only; split <;> norm_num) (by intro _ _ _ _ _ _; norm_num) (by intro _ _ _ _ _ _; norm_num)
  exact ⟨L, m, _, _, _, hL, ⟨h1, h2, h3, Or.inl rfl, s1, s2, s3⟩, s1, s2, rfl, fun i j _ _ h => if_neg h, by norm_num⟩

/-- a 16-bit destination, for `C94_refuted_sixteen` -/
example : ∃ m r v d, IdftArgs m 1 3 5 2 3 12 2 r v d := by
  obtain ⟨m, -, h1, h2, h3, s1, s2, s3⟩ := exists_three (R := 2) (C := 3) (dt1 := 4) (dt2 := 4) (dt3 := 12) (a := fun _ _ _ => 0) (b := fun _ _ _ => 0) (c := fun _ _ _ => 9)
    (by decide) (by decide) rfl rfl rfl (by intro _ _ _ _ _ _; norm_num) (by intro _ _ _ _ _ _; norm_num) (by intro _ _ _ _ _ _; norm_num)
  exact ⟨m, _, _, _, h1, h2, h3, Or.inr rfl, s2, s3⟩

end HyperCV
