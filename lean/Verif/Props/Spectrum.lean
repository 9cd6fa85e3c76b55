/- C95: the centred magnitude spectrum. -/
import Verif.Proof.SpecError
import Verif.Proof.DftInverse

namespace HyperCV
open Spec Finset

/-- for images with an even number of rows and columns, the transform of the image with alternating signs is the transform of the image,
moved by half the size: frequency zero is in the centre -/
theorem dft_centre (r c : Nat) (x : Nat → Nat → ℝ) (u v : Nat) (hr : 0 < r) (hc : 0 < c) :
    dft (2 * r) (2 * c) (fun i j => (-1) ^ (i + j) * x i j) u v = dft (2 * r) (2 * c) x (u + r) (v + c) := by
  have hr' : (r:ℂ) ≠ 0 := by exact_mod_cast hr.ne'
  have hc' : (c:ℂ) ≠ 0 := by exact_mod_cast hc.ne'
  unfold dft
  refine sum_congr rfl fun i _ => sum_congr rfl fun j _ => ?_
  have e : (-(phase (2 * r) (2 * c) (u + r) (v + c) i j : ℂ) * Complex.I) = (-(phase (2 * r) (2 * c) u v i j : ℂ) * Complex.I) + ((i + j : ℕ) : ℂ) * (-(Real.pi * Complex.I)) := by
    unfold phase
    push_cast
    field_simp
    ring
  rw [e, Complex.exp_add, Complex.exp_nat_mul, Complex.exp_neg, Complex.exp_pi_mul_I]
  push_cast
  norm_num
  ring

section
variable {m : Mem} {ps pd R C ch : Nat} {a d0 : Nat → Nat → Nat → Nat} {L : Trig}

/-- the pixels of the spectrum -/
def specBits (L : Trig) (R C : Nat) (px : Nat → Nat → Nat → Nat) (i j _c : Nat) : Nat :=
  (saturate_cast_float2uchar (specValue (accD (specTerm L.cos R C px i j) (R * C)) (accD (specTerm L.sin R C px i j) (R * C)) (R * C : Nat))).toNat

/-- the run of the function, for a source with any number of channels -/
theorem spec_run (hs : IsImageN m ps R C 1 ch 1 a) (hd : IsImageN m pd R C 1 1 1 d0) (sep : SepPixels m ps pd) (hn : R * C ≤ 2147483647) :
    ∃ m', hypercv_dft_frespectrum L (some ps) (some pd) m = .ok ((), m') ∧ IsImageN m' pd R C 1 1 1 (specBits L R C fun x y _ => pxF C ch a (x * C + y)) ∧ OnlyPixels m m' pd := by
  obtain ⟨sd, si, s1, s2⟩ := imgN_open hs
  obtain ⟨dd, di, d1, d2⟩ := imgN_open hd
  have n1 : sd ≠ dd := sep_ne sep s1 d1
  have hc : 1 ≤ ch := hs.1.posCh
  have fit : FitsP 1 R C 1 (specBits L R C fun x y _ => pxF C ch a (x * C + y)) := fun i j c _ _ _ => UInt8.toNat_lt _
  obtain ⟨o1, o2⟩ := imgN_put hd d1 fit
  refine ⟨_, ?_, o1, o2⟩
  unfold hypercv_dft_frespectrum
  rw [show derefS (some ps) = getS ps from rfl, show derefS (some pd) = getS pd from rfl]
  simp only [ne_eq, reduceCtorEq, not_false_eq_true, decide_true, cassert_bind_true]
  rw [bind_ok (getS_ok s1), bind_ok (getS_ok d1)]
  simp only [and_self, decide_true, cassert_bind_true]
  refine pixels_run (body := fun i j => do
    let a ← specSums L sd R C i j
    let n ← ev (CI.lit (R:Int) * CI.lit (C:Int))
    let p ← ev (CI.lit i * CI.lit (C:Int) + CI.lit j)
    storeN 1 dd p (saturate_cast_float2uchar (specValue a.1 a.2 n)).toNat) d2 ?_
  intro i j hi hj
  rw [bind_ok (specSums_run L hc (s2.putP_ne n1) hn i j), eval_rc hn, bind_ok (ev_ok rfl _), bind_ok (ev_ok (eval_px1 hi hj hn) _)]
  rw [storeP_put hi hj (by decide)]
  refine congrArg (fun x => Except.ok ((), x)) (putP_congr m (mixP_step1 _ ?_))
  show _ % 256 ^ 1 = _
  exact Nat.mod_eq_of_lt (UInt8.toNat_lt _)

/-- **C95**, for grey images of bytes of at most 4096 rows and columns and at most 2^22 pixels: every pixel of the result is the length of
the transform of the image with alternating signs (by `dft_centre`, for even sizes, the transform with frequency zero in the centre),
divided by the root of the number of pixels, clipped at 255, up to the stated rounding error.  Missing for the full property: images with
an odd number of rows or columns, larger images; images of several channels and of other data types are accepted (`C95_channels`). -/
theorem C95_spectrum_partial (hL : GoodTrig L) (hs : IsImageN m ps R C 1 1 1 a) (hd : IsImageN m pd R C 1 1 1 d0) (sep : SepPixels m ps pd)
    (hR : R ≤ 4096) (hC : C ≤ 4096) (hn : R * C ≤ 4194304) :
    ∃ m' b, hypercv_dft_frespectrum L (some ps) (some pd) m = .ok ((), m') ∧ IsImageN m' pd R C 1 1 1 b ∧ OnlyPixels m m' pd ∧
      ∀ u v, u < R → v < C →
        |((b u v 0 : Nat) : ℝ) - min 255 (‖dft R C (fun i j => (-1) ^ (i + j) * (a i j 0 : Nat)) u v‖ / Real.sqrt (R * C))|
          ≤ 1 / 2 + (((R + C) / 2 ^ 18 + R * C / 2 ^ 21) * greySum R C a / Real.sqrt (R * C) + 1 / 2 ^ 60) := by
  have pC := hs.1.posC
  have pR := hs.1.posR
  obtain ⟨m', h1, h2, h3⟩ := spec_run (L := L) hs hd sep (by omega)
  refine ⟨m', _, h1, h2, h3, ?_⟩
  intro u v hu hv
  have epx : ∀ i j, i < R → j < C → (fun x y (_ : Nat) => pxF C 1 a (x * C + y)) i j 0 = a i j 0 := by
    intro i j _ hj
    show pxF C 1 a (i * C + j) = _
    have := pxF_at (C := C) (ch := 1) (a := a) (i := i) (j := j) (c := 0) hj (by decide)
    simpa using this
  generalize hpx : (fun x y (_ : Nat) => pxF C 1 a (x * C + y)) = px at *
  have hb : ∀ i j, i < R → j < C → px i j 0 < 65536 := by
    intro i j hi hj
    rw [epx i j hi hj]
    have := hs.2 i j 0 hi hj (by decide)
    omega
  have hS : greySum R C px = greySum R C a := by
    unfold greySum
    exact sum_congr rfl fun i hi => sum_congr rfl fun j hj => epx i j (mem_range.1 hi) (mem_range.1 hj)
  have hsum : ∀ g : ℝ → ℝ, (∑ q ∈ range (R * C), ((-1) ^ (q / C + q % C) * (px (q / C) (q % C) 0 : Nat)) * g ((-2:ℤ) * Real.pi * ((u:ℝ) * (q / C : Nat) / R + (v:ℝ) * (q % C : Nat) / C)))
      = ∑ q ∈ range (R * C), ((-1) ^ (q / C + q % C) * ((a (q / C) (q % C) 0 : Nat) : ℝ)) * g ((-2:ℤ) * Real.pi * ((u:ℝ) * (q / C : Nat) / R + (v:ℝ) * (q % C : Nat) / C)) := by
    intro g
    refine sum_congr rfl fun q hq => ?_
    have hq := mem_range.1 hq
    rw [epx _ _ (Nat.div_lt_of_lt_mul (by rwa [mul_comm])) (Nat.mod_lt q pC)]
  obtain ⟨x, x1, x2⟩ := specAcc_err (GoodTrig.fcos hL) hR hC hn hb hu hv
  obtain ⟨y, y1, y2⟩ := specAcc_err (GoodTrig.fsin hL) hR hC hn hb hu hv
  rw [hsum, hS] at x2 y2
  have fre := dft_re R C (fun i j => (-1) ^ (i + j) * (a i j 0 : Nat)) u v pC
  have fim := dft_im R C (fun i j => (-1) ^ (i + j) * (a i j 0 : Nat)) u v pC
  rw [← fre] at x2
  rw [← fim] at y2
  have hF : ‖dft R C (fun i j => (-1) ^ (i + j) * (a i j 0 : Nat)) u v‖ ≤ greySum R C a := by
    unfold dft greySum
    push_cast
    refine le_trans (norm_sum_le _ _) (sum_le_sum fun i _ => ?_)
    refine le_trans (norm_sum_le _ _) (sum_le_sum fun j _ => ?_)
    rw [norm_mul, norm_mul, norm_pow, norm_neg, norm_one, one_pow, one_mul]
    have : ‖Complex.exp (-(phase R C u v i j : ℂ) * Complex.I)‖ = 1 := by
      rw [← Complex.ofReal_neg]
      exact Complex.norm_exp_ofReal_mul_I _
    rw [this]
    simp
  have hSle : (greySum R C a : ℝ) ≤ 2 ^ 30 := by
    have : greySum R C a ≤ 2 ^ 30 := by
      rw [pixelSum_flat]
      have : ∑ q ∈ range (R * C), a (q / C) (q % C) 0 ≤ ∑ q ∈ range (R * C), 256 := sum_le_sum fun q hq => by
        have hq := mem_range.1 hq
        exact (hs.2 _ _ 0 (Nat.div_lt_of_lt_mul (by rwa [mul_comm])) (Nat.mod_lt _ pC) (by decide)).le
      rw [sum_const, card_range, smul_eq_mul] at this
      refine le_trans this ?_
      calc R * C * 256 ≤ 4194304 * 256 := Nat.mul_le_mul_right _ hn
        _ = 2 ^ 30 := by norm_num
    exact_mod_cast this
  have hS0 : (0:ℝ) ≤ greySum R C a := Nat.cast_nonneg _
  generalize dft R C (fun i j => (-1) ^ (i + j) * ((a i j 0 : Nat) : ℝ)) u v = F at *
  have hRr : (1:ℝ) ≤ R := by exact_mod_cast pR
  have hCr : (1:ℝ) ≤ C := by exact_mod_cast pC
  have hRr' : (R:ℝ) ≤ 4096 := by exact_mod_cast hR
  have hCr' : (C:ℝ) ≤ 4096 := by exact_mod_cast hC
  have hnr : (R:ℝ) * C ≤ 4194304 := by exact_mod_cast hn
  have hnp : 1 ≤ R * C := Nat.mul_pos pR pC
  have hnr1 : (1:ℝ) ≤ (R:ℝ) * C := by exact_mod_cast hnp
  have hk2 : (((R:ℝ) + C) / 2 ^ 20 + R * C / 2 ^ 22) * greySum R C a ≤ 3 / 2 * greySum R C a := mul_le_mul_of_nonneg_right (by norm_num; linarith) hS0
  have bnd : ∀ {t : ℚ} {f : ℝ}, |(t:ℝ) - f| ≤ ((R + C) / 2 ^ 20 + R * C / 2 ^ 22) * greySum R C a + 1 / 2 ^ 100 → |f| ≤ ‖F‖ → |t| ≤ 2 ^ 50 := by
    intro t f ht hf
    have : ((|t| : ℚ) : ℝ) ≤ ((2 ^ 50 : ℚ) : ℝ) := by
      rw [Rat.cast_abs]
      have g := abs_add_le ((t:ℝ) - f) f
      rw [sub_add_cancel] at g
      generalize (((R:ℝ) + C) / 2 ^ 20 + R * C / 2 ^ 22) * greySum R C a = K at *
      have e1 : (1:ℝ) / 2 ^ 100 ≤ 1 := by norm_num
      have e2 : 3 * (2:ℝ) ^ 30 + 1 ≤ 2 ^ 50 := by norm_num
      push_cast
      linarith
    exact_mod_cast this
  obtain ⟨w, w1, w2⟩ := specValue_err x1 y1 (bnd x2 (Complex.abs_re_le_norm F)) (bnd y2 (Complex.abs_im_le_norm F)) hnp (by omega)
  have hH : |Real.sqrt ((x:ℝ) ^ 2 + y ^ 2) - ‖F‖| ≤ 2 * ((((R:ℝ) + C) / 2 ^ 20 + R * C / 2 ^ 22) * greySum R C a + 1 / 2 ^ 100) := by
    have e1 : Real.sqrt ((x:ℝ) ^ 2 + y ^ 2) = ‖((x:ℝ) : ℂ) + ((y:ℝ) : ℂ) * Complex.I‖ := (Complex.norm_add_mul_I _ _).symm
    rw [e1]
    refine le_trans (abs_norm_sub_norm_le _ _) (le_trans (Complex.norm_le_abs_re_add_abs_im _) ?_)
    have r1 : (((x:ℝ) : ℂ) + ((y:ℝ) : ℂ) * Complex.I - F).re = x - F.re := by simp
    have r2 : (((x:ℝ) : ℂ) + ((y:ℝ) : ℂ) * Complex.I - F).im = y - F.im := by simp
    rw [r1, r2]
    linarith
  rw [Nat.cast_mul] at w2
  have hr1 : (1:ℝ) ≤ Real.sqrt (R * C) := by rw [Real.one_le_sqrt]; exact hnr1
  generalize hρ : Real.sqrt ((R:ℝ) * C) = ρ at *
  generalize Real.sqrt ((x:ℝ) ^ 2 + y ^ 2) = H at *
  have hr0 : 0 < ρ := by linarith
  have hF0 : 0 ≤ ‖F‖ := norm_nonneg _
  have hmax : min 255 (‖F‖ / ρ) = max 0 (min 255 (‖F‖ / ρ)) := by
    rw [max_eq_right]
    exact le_min (by norm_num) (by positivity)
  rw [hmax]
  unfold specBits
  refine sat_clamp_real w1.1 ?_
  have e : (w:ℝ) - ‖F‖ / ρ = (w - H / ρ) + (H - ‖F‖) / ρ := by ring
  rw [e]
  refine le_trans (abs_add_le _ _) ?_
  rw [abs_div, abs_of_pos hr0]
  have q0 : 0 ≤ (greySum R C a : ℝ) / ρ := by positivity
  have tiny : (1 / 2 ^ 100 : ℝ) / ρ ≤ 1 / 2 ^ 100 := div_le_self (by norm_num) hr1
  have c2 : |H - ‖F‖| / ρ ≤ 2 * ((((R:ℝ) + C) / 2 ^ 20 + R * C / 2 ^ 22) * (greySum R C a / ρ)) + 1 / 2 ^ 99 := by
    have g := div_le_div_of_nonneg_right hH hr0.le
    have e : 2 * ((((R:ℝ) + C) / 2 ^ 20 + R * C / 2 ^ 22) * greySum R C a + 1 / 2 ^ 100) / ρ
      = 2 * ((((R:ℝ) + C) / 2 ^ 20 + R * C / 2 ^ 22) * (greySum R C a / ρ)) + 2 * (1 / 2 ^ 100 / ρ) := by ring
    rw [e] at g
    have e3 : (2:ℝ) * (1 / 2 ^ 100) = 1 / 2 ^ 99 := by norm_num
    linarith
  have c3 : H / ρ ≤ 4 * (greySum R C a / ρ) + 1 / 2 ^ 99 := by
    have g0 : H ≤ 4 * greySum R C a + 2 * (1 / 2 ^ 100) := by
      have := (abs_le.1 hH).2
      linarith
    have g := div_le_div_of_nonneg_right g0 hr0.le
    have e : (4 * (greySum R C a : ℝ) + 2 * (1 / 2 ^ 100)) / ρ = 4 * (greySum R C a / ρ) + 2 * (1 / 2 ^ 100 / ρ) := by ring
    rw [e] at g
    have e3 : (2:ℝ) * (1 / 2 ^ 100) = 1 / 2 ^ 99 := by norm_num
    linarith
  have e5 : (((R:ℝ) + C) / 2 ^ 18 + R * C / 2 ^ 21) * greySum R C a / ρ
      = 2 * ((((R:ℝ) + C) / 2 ^ 20 + R * C / 2 ^ 22) * (greySum R C a / ρ)) + 2 * (((R:ℝ) + C) / 2 ^ 20 * (greySum R C a / ρ)) := by ring
  rw [e5]
  have c4 : 2 / 2 ^ 20 * ((greySum R C a : ℝ) / ρ) ≤ ((R:ℝ) + C) / 2 ^ 20 * (greySum R C a / ρ) := mul_le_mul_of_nonneg_right (by norm_num; linarith) q0
  generalize (((R:ℝ) + C) / 2 ^ 20 + R * C / 2 ^ 22) * ((greySum R C a : ℝ) / ρ) = A1 at *
  generalize ((R:ℝ) + C) / 2 ^ 20 * ((greySum R C a : ℝ) / ρ) = A2 at *
  generalize (greySum R C a : ℝ) / ρ = A3 at *
  generalize H / ρ = A4 at *
  norm_num at w2 c2 c3 c4 ⊢
  linarith

/-- **C95 is false of images of several channels** (and no data type is checked): they are accepted, and the result depends only on the first
`R C` bytes of the pixels, that is on the first rows: two images that agree there have the same "spectrum". -/
theorem C95_channels {a' d0' : Nat → Nat → Nat → Nat} {m' : Mem} {ps' pd' : Nat} (hs : IsImageN m ps R C 1 ch 1 a) (hd : IsImageN m pd R C 1 1 1 d0) (sep : SepPixels m ps pd)
    (hs' : IsImageN m' ps' R C 1 ch 1 a') (hd' : IsImageN m' pd' R C 1 1 1 d0') (sep' : SepPixels m' ps' pd') (hn : R * C ≤ 2147483647)
    (h : ∀ i j c, i < R → j < C → c < ch → (i * C + j) * ch + c < R * C → a i j c = a' i j c) :
    ∃ m1 m2 b, hypercv_dft_frespectrum L (some ps) (some pd) m = .ok ((), m1) ∧ hypercv_dft_frespectrum L (some ps') (some pd') m' = .ok ((), m2) ∧
      IsImageN m1 pd R C 1 1 1 b ∧ IsImageN m2 pd' R C 1 1 1 b := by
  have hc : 1 ≤ ch := hs.1.posCh
  have pC := hs.1.posC
  obtain ⟨m1, r1, r2, -⟩ := spec_run (L := L) hs hd sep hn
  obtain ⟨m2, t1, t2, -⟩ := spec_run (L := L) hs' hd' sep' hn
  refine ⟨m1, m2, _, r1, t1, r2, ?_⟩
  have e : specBits L R C (fun x y _ => pxF C ch a (x * C + y)) = specBits L R C (fun x y _ => pxF C ch a' (x * C + y)) := by
    funext i j c
    have acc : ∀ f n, n ≤ R * C → accD (specTerm f R C (fun x y _ => pxF C ch a (x * C + y)) i j) n = accD (specTerm f R C (fun x y _ => pxF C ch a' (x * C + y)) i j) n := by
      intro f n
      induction n with
      | zero => intro _; rfl
      | succ n ih =>
        intro hlt
        have ep : pxF C ch a (n / C * C + n % C) = pxF C ch a' (n / C * C + n % C) := by
          rw [Nat.div_add_mod']
          have b1 : n / ch < R * C := lt_of_le_of_lt (Nat.div_le_self _ _) (by omega)
          have b2 : n / ch / C < R := Nat.div_lt_of_lt_mul (by rwa [mul_comm])
          unfold pxF
          refine h _ _ _ b2 (Nat.mod_lt _ pC) (Nat.mod_lt _ hc) ?_
          rw [Nat.div_add_mod', Nat.div_add_mod']
          omega
        show addD _ _ = addD _ _
        rw [ih (by omega)]
        congr 1
        unfold specTerm
        dsimp only
        rw [ep]
    unfold specBits
    rw [acc _ _ le_rfl, acc _ _ le_rfl]
  rw [e]
  exact t2

end

/-! ### The hypotheses can be met -/

/-- a grey image and a destination -/
example : ∃ L m a d, GoodTrig L ∧ IsImageN m 1 2 4 1 1 1 a ∧ IsImageN m 3 2 4 1 1 1 d ∧ SepPixels m 1 3 ∧ greySum 2 4 a = 1600 := by
  obtain ⟨L, hL⟩ := exists_goodTrig
  obtain ⟨m, -, h1, h2, h3, s1, s2, s3⟩ := exists_three (R := 2) (C := 4) (dt1 := 1) (dt2 := 1) (dt3 := 4) (a := fun _ _ _ => 200) (b := fun _ _ _ => 7) (c := fun _ _ _ => 0)
    (by decide) (by decide) rfl rfl rfl (by intro _ _ _ _ _ _; norm_num) (by intro _ _ _ _ _ _; norm_num) (by intro _ _ _ _ _ _; norm_num)
  exact ⟨L, m, _, _, hL, h1, h2, s1, by decide⟩

/-- an image of three channels and a grey destination -/
example : ∃ m a d, IsImageN m 1 2 3 1 3 1 a ∧ IsImageN m 3 2 3 1 1 1 d ∧ SepPixels m 1 3 := by
  let m1 := Mem.empty.newImage 2 3 1 3 1 (imgBytes 3 3 1 fun i j k t => leByte (i + j + k) t)
  let m2 := m1.newImage 2 3 1 1 1 (imgBytes 3 1 1 fun _ _ _ t => leByte 9 t)
  have w1 : m1.WF := newImage_WF empty_WF
  have i1 : IsImage m1 1 2 3 1 3 1 _ := newImage_isImage (m := Mem.empty) rfl (by decide) (by decide) (by decide)
  have i2 : IsImage m2 3 2 3 1 1 1 _ := newImage_isImage (m := m1) rfl (by decide) (by decide) (by decide)
  refine ⟨m2, fun i j k => i + j + k, fun _ _ _ => 9, ⟨img_frame w1 i1 (newImage_frame _), ?_⟩, ⟨i2, ?_⟩, ?_⟩
  · intro i j k hi hj hk
    show i + j + k < 256
    omega
  · intro i j k _ _ _
    show 9 < 256
    decide
  · rintro h ⟨⟨x, g1, g2⟩, ⟨y, g3, g4⟩⟩
    have e1 : m2.sm 1 = some (newSHdr Mem.empty 2 3 1 3 1) := (newImage_sm_old m1 (show (1:Nat) ≠ 3 by decide)).trans (newImage_sm Mem.empty 2 3 1 3 1 _)
    have e3 : m2.sm 3 = some (newSHdr m1 2 3 1 1 1) := newImage_sm m1 2 3 1 1 1 _
    rw [e1] at g1
    rw [e3] at g3
    cases g1
    cases g3
    exact absurd (g2.symm.trans g4) (by show (0:Nat) ≠ 2; decide)

end HyperCV
