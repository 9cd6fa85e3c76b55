/- C96: the magnitude of a complex image given as two float images. -/
import Verif.Proof.Magnitude

namespace HyperCV
open Spec Finset

section
variable {m : Mem} {pr pi pd R C : Nat} {r v d0 : Nat → Nat → Nat → Nat}

/-- the arguments: two `float` images and a `float` destination of the same size -/
structure MagArgs (m : Mem) (pr pi pd R C : Nat) (r v d0 : Nat → Nat → Nat → Nat) : Prop where
  re : IsImageN m pr R C 4 1 4 r
  im : IsImageN m pi R C 4 1 4 v
  dst : IsImageN m pd R C 4 1 4 d0
  sep1 : SepPixels m pr pd
  sep2 : SepPixels m pi pd

/-- the number of the imaginary part that is read for the pixel (`i`, `j`) -/
theorem eval_icj {R C i j : Nat} (hi : i < R) (hj : j < C) (hz : R * C * C ≤ 2147483647) :
    (CI.lit (i:Int) * CI.lit (C:Int) * CI.lit (j:Int) : CI) = CI.lit ((i * C * j : Nat) : Int) := by
  have h1 : i * C ≤ R * C := Nat.mul_le_mul_right _ hi.le
  have h2 : i * C * j ≤ R * C * C := Nat.mul_le_mul h1 hj.le
  have h3 : R * C ≤ R * C * C := Nat.le_mul_of_pos_right _ (by omega)
  rw [CI.mul_ok (by constructor <;> ((try norm_cast) <;> omega))]
  have e : ((i:Int) * (C:Int)) = ((i * C : Nat) : Int) := by push_cast; rfl
  rw [e, CI.mul_ok (by constructor <;> ((try norm_cast) <;> omega))]
  push_cast; rfl

/-- **C96 is false of every image of at least two rows and three columns**: the imaginary part is read behind the end of its image. -/
theorem C96_refuted (h : MagArgs m pr pi pd R C r v d0) (hR : 2 ≤ R) (hC : 3 ≤ C) (hz : R * C * C ≤ 2147483647) :
    hypercv_magnitude (some pr) (some pi) (some pd) m = .error (.ub .oob) := by
  obtain ⟨rd, ri, r1, r2⟩ := imgN_open h.re
  obtain ⟨vd, vi, v1, v2⟩ := imgN_open h.im
  obtain ⟨dd, di, d1, d2⟩ := imgN_open h.dst
  have n1 : rd ≠ dd := sep_ne h.sep1 r1 d1
  have n2 : vd ≠ dd := sep_ne h.sep2 v1 d1
  have hz1 : R * C ≤ 2147483647 := le_trans (Nat.le_mul_of_pos_right _ (by omega)) hz
  unfold hypercv_magnitude
  rw [bind_ok (idftChecks_run r1 v1 d1)]
  let P : Mem → Prop := fun m' => HoldsP m' rd 4 R C 1 r ∧ HoldsP m' vd 4 R C 1 v ∧ ∃ d, HoldsN m' dd 4 (R * C * 1) d
  let body : Int → Int → M Unit := fun i j => do
    let p ← ev (CI.lit i * CI.lit (C:Int) + CI.lit j)
    let x ← ldF rd p
    let q ← ev (CI.lit i * CI.lit (C:Int) * CI.lit j)
    let y ← ldF vd q
    stF dd p (magnitudeF x y)
  have step : ∀ i j : Nat, i < R → j < C → ∀ m', P m' → (R * C ≤ i * C * j → body i j m' = .error (.ub .oob)) ∧ (i * C * j < R * C → ∃ m'', body i j m' = .ok ((), m'') ∧ P m'') := by
    rintro i j hi hj m' ⟨a1, a2, d, a3⟩
    have go : body i j m' = (do
        let y ← ldF vd ((i * C * j : Nat) : Int)
        stF dd (((i * C + j) * 1 + 0 : Nat) : Int) (magnitudeF (f32.decode (r i j 0)) y)) m' := by
      show (do
        let p ← ev (CI.lit (i:Int) * CI.lit (C:Int) + CI.lit (j:Int))
        let x ← ldF rd p
        let q ← ev (CI.lit (i:Int) * CI.lit (C:Int) * CI.lit (j:Int))
        let y ← ldF vd q
        stF dd p (magnitudeF x y)) m' = _
      rw [bind_ok (ev_ok (eval_px1 hi hj hz1) _), bind_ok (ldF_px a1 hi hj), eval_icj hi hj hz, bind_ok (ev_ok rfl _)]
    rw [go]
    constructor
    · intro hge
      refine bind_err ?_
      unfold ldF
      exact bind_err (loadN_oob a2.1 (by decide) (by omega))
    · intro hlt
      have l : ldF vd ((i * C * j : Nat) : Int) m' = .ok (f32.decode (pxF C 1 v (i * C * j)), m') := by
        unfold ldF
        rw [bind_ok (HoldsN.load a2 (by omega))]
        rfl
      rw [bind_ok l]
      unfold stF
      rw [HoldsN.store a3 (img8_lt hi hj (by decide))]
      refine ⟨_, rfl, HoldsN.putN_ne a1 n1, HoldsN.putN_ne a2 n2, _, holdsN_putN _ ?_⟩
      intro k hk
      split
      · exact Nat.mod_lt _ (by norm_num)
      · exact a3.2 k hk
  have out : ∀ i j : Nat, i < R → j < C → ∀ m', P m' → body i j m' = .error (.ub .oob) ∨ ∃ m'', body i j m' = .ok ((), m'') ∧ P m'' := by
    intro i j hi hj m' hm'
    by_cases hge : R * C ≤ i * C * j
    · exact Or.inl ((step i j hi hj m' hm').1 hge)
    · exact Or.inr ((step i j hi hj m' hm').2 (by omega))
  show (forI 0 (R:Int) fun i => forI 0 (C:Int) fun j => body i j) m = _
  refine forI_fails (k := R - 1) P ?_ (by omega) ?_ ⟨r2, v2, _, d2⟩
  · intro i hi m' hm'
    exact forI_outcome P (fun j hj m'' hm'' => out i j hi hj m'' hm'') hm'
  · intro m' hm'
    refine forI_fails (k := C - 1) P (fun j hj m'' hm'' => out (R - 1) j (by omega) hj m'' hm'') (by omega) ?_ hm'
    intro m'' hm''
    refine (step (R - 1) (C - 1) (by omega) (by omega) m'' hm'').1 ?_
    obtain ⟨R', rfl⟩ := Nat.exists_eq_add_of_le hR
    obtain ⟨C', rfl⟩ := Nat.exists_eq_add_of_le hC
    have e1 : 2 + R' - 1 = R' + 1 := by omega
    have e2 : 3 + C' - 1 = C' + 2 := by omega
    rw [e1, e2]
    nlinarith [Nat.zero_le (R' * C'), Nat.zero_le (R' * C' * C'), Nat.zero_le C', Nat.zero_le R']

/-- the run, for images of one row or of at most two columns: the imaginary part comes from the pixel number `i C j` -/
theorem magnitude_run (h : MagArgs m pr pi pd R C r v d0) (hs : R = 1 ∨ C ≤ 2) (hz : R * C * C ≤ 2147483647) :
    ∃ m', hypercv_magnitude (some pr) (some pi) (some pd) m = .ok ((), m') ∧ OnlyPixels m m' pd ∧
      IsImageN m' pd R C 4 1 4 fun i j _ => f32.encode (magnitudeF (f32.decode (r i j 0)) (f32.decode (pxF C 1 v (i * C * j)))) := by
  have pR := h.re.1.posR
  have pC := h.re.1.posC
  obtain ⟨rd, ri, r1, r2⟩ := imgN_open h.re
  obtain ⟨vd, vi, v1, v2⟩ := imgN_open h.im
  obtain ⟨dd, di, d1, d2⟩ := imgN_open h.dst
  have n1 : rd ≠ dd := sep_ne h.sep1 r1 d1
  have n2 : vd ≠ dd := sep_ne h.sep2 v1 d1
  have hz1 : R * C ≤ 2147483647 := le_trans (Nat.le_mul_of_pos_right _ pC) hz
  obtain ⟨o1, o2⟩ := imgN_put h.dst d1 (b := fun i j _ => f32.encode (magnitudeF (f32.decode (r i j 0)) (f32.decode (pxF C 1 v (i * C * j)))))
    (fun _ _ _ _ _ _ => f32_encode_lt (good_conv _ _))
  refine ⟨_, ?_, o2, o1⟩
  unfold hypercv_magnitude
  rw [bind_ok (idftChecks_run r1 v1 d1)]
  refine pixels_run (body := fun i j => do
    let p ← ev (CI.lit i * CI.lit (C:Int) + CI.lit j)
    let x ← ldF rd p
    let q ← ev (CI.lit i * CI.lit (C:Int) * CI.lit j)
    let y ← ldF vd q
    stF dd p (magnitudeF x y)) d2 ?_
  intro i j hi hj
  have hlt : i * C * j < R * C * 1 := by
    rcases hs with rfl | hs
    · obtain rfl : i = 0 := by omega
      simp
      omega
    · have : j ≤ 1 := by omega
      have : i * C * j ≤ i * C := by nlinarith [Nat.zero_le (i * C)]
      nlinarith
  rw [bind_ok (ev_ok (eval_px1 hi hj hz1) _), bind_ok (ldF_px (r2.putP_ne n1) hi hj), eval_icj hi hj hz, bind_ok (ev_ok rfl _)]
  have l : ∀ x, ldF vd ((i * C * j : Nat) : Int) (m.putP dd 4 R C 1 x) = .ok (f32.decode (pxF C 1 v (i * C * j)), m.putP dd 4 R C 1 x) := by
    intro x
    unfold ldF
    rw [bind_ok (HoldsN.load (v2.putP_ne n2) hlt)]
    rfl
  rw [bind_ok (l _)]
  exact stF_mix (good_conv _ _) rfl hi hj

/-- **C96, what holds**: for images of one row or of at most two columns whose imaginary parts are all equal (for instance zero), every pixel of
the result is the magnitude, up to the stated rounding error.  Missing for the full property: everything else (`C96_refuted`,
`C96_first_only`). -/
theorem C96_magnitude_partial (h : MagArgs m pr pi pd R C r v d0) (hs : R = 1 ∨ C ≤ 2) (hz : R * C * C ≤ 2147483647) {X : Nat → Nat → ℚ} {y : ℚ}
    (hx : ∀ i j, i < R → j < C → FloatIs f32 (r i j 0) (X i j) ∧ |X i j| ≤ 2 ^ 100) (hy : ∀ i j, i < R → j < C → FloatIs f32 (v i j 0) y) (by' : |y| ≤ 2 ^ 100) :
    ∃ m' b, hypercv_magnitude (some pr) (some pi) (some pd) m = .ok ((), m') ∧ OnlyPixels m m' pd ∧ IsImageN m' pd R C 4 1 4 b ∧
      ∀ i j, i < R → j < C → ∃ w : ℚ, FloatIs f32 (b i j 0) w ∧ |(w:ℝ) - ‖(X i j : ℂ) + (y : ℂ) * Complex.I‖| ≤ 1 / 2 ^ 23 * ‖(X i j : ℂ) + (y : ℂ) * Complex.I‖ + 1 / 2 ^ 149 := by
  have pC := h.re.1.posC
  obtain ⟨m', h1, h2, h3⟩ := magnitude_run h hs hz
  refine ⟨m', _, h1, h2, h3, ?_⟩
  intro i j hi hj
  have hlt : i * C * j < R * C := by
    rcases hs with rfl | hs
    · obtain rfl : i = 0 := by omega
      simp
      omega
    · have : j ≤ 1 := by omega
      have : i * C * j ≤ i * C := by nlinarith [Nat.zero_le (i * C)]
      nlinarith
  have fy : FloatIs f32 (pxF C 1 v (i * C * j)) y := by
    unfold pxF
    rw [Nat.div_one, Nat.mod_one]
    exact hy _ _ (Nat.div_lt_of_lt_mul (by rwa [mul_comm C R])) (Nat.mod_lt _ pC)
  obtain ⟨fx, bx⟩ := hx i j hi hj
  obtain ⟨w, w1, w2⟩ := magnitudeF_err (good_val (good_decode f32_std _) fx) (good_val (good_decode f32_std _) fy) bx by'
  refine ⟨w, ?_, ?_⟩
  · show ∃ s, f32.decode (f32.encode _) = _
    rw [f32_dec_enc (show f32.Good (magnitudeF _ _) from good_conv _ _)]
    exact w1.1
  · have e : ‖(X i j : ℂ) + (y : ℂ) * Complex.I‖ = Real.sqrt (((X i j : ℚ) : ℝ) ^ 2 + ((y:ℚ):ℝ) ^ 2) := by
      rw [← Complex.norm_add_mul_I]
      norm_cast
    rw [e]
    exact w2

/-- **C96 is false of images of one row**: all pixels use the imaginary part of the first pixel, whatever their own imaginary parts are. -/
theorem C96_first_only {v' : Nat → Nat → Nat → Nat} {m2 : Mem} (h : MagArgs m pr pi pd 1 C r v d0) (h' : MagArgs m2 pr pi pd 1 C r v' d0) (hz : C * C ≤ 2147483647)
    (he : v 0 0 0 = v' 0 0 0) :
    ∃ m' m2' b, hypercv_magnitude (some pr) (some pi) (some pd) m = .ok ((), m') ∧ hypercv_magnitude (some pr) (some pi) (some pd) m2 = .ok ((), m2') ∧
      IsImageN m' pd 1 C 4 1 4 b ∧ IsImageN m2' pd 1 C 4 1 4 b := by
  obtain ⟨m', h1, -, h3⟩ := magnitude_run h (Or.inl rfl) (by rwa [one_mul])
  obtain ⟨m2', g1, -, g3⟩ := magnitude_run h' (Or.inl rfl) (by rwa [one_mul])
  refine ⟨m', m2', _, h1, g1, h3, ⟨?_, h3.2⟩⟩
  have cg : ∀ i j c, i < 1 → j < C → c < 1 → f32.encode (magnitudeF (f32.decode (r i j 0)) (f32.decode (pxF C 1 v' (i * C * j))))
      = f32.encode (magnitudeF (f32.decode (r i j 0)) (f32.decode (pxF C 1 v (i * C * j)))) := by
    intro i j c hi _ _
    obtain rfl : i = 0 := by omega
    have e : ∀ w : Nat → Nat → Nat → Nat, pxF C 1 w (0 * C * j) = w 0 0 0 := by
      intro w
      unfold pxF
      simp
    rw [e, e, he]
  exact img_congr g3.1 (fun i j c t hi hj hc _ => by dsimp only; rw [cg i j c hi hj hc])

end

/-! ### The hypotheses can be met -/

/-- images of 4 rows and 5 columns -/
example : ∃ m r v d, MagArgs m 1 3 5 4 5 r v d := by
  obtain ⟨m, -, h1, h2, h3, s1, s2, s3⟩ := exists_three (R := 4) (C := 5) (dt1 := 4) (dt2 := 4) (dt3 := 4) (a := fun _ _ _ => 0x40400000) (b := fun _ _ _ => 0x3F800000) (c := fun _ _ _ => 9)
    (by decide) (by decide) rfl rfl rfl (by intro _ _ _ _ _ _; norm_num) (by intro _ _ _ _ _ _; norm_num) (by intro _ _ _ _ _ _; norm_num)
  exact ⟨m, _, _, _, h1, h2, h3, s2, s3⟩

/-- a row of five pixels, real part 3 and imaginary part 1 -/
example : ∃ m r v d, MagArgs m 1 3 5 1 5 r v d ∧ (∀ i j, i < 1 → j < 5 → FloatIs f32 (r i j 0) 3 ∧ |(3:ℚ)| ≤ 2 ^ 100) ∧
    (∀ i j, i < 1 → j < 5 → FloatIs f32 (v i j 0) 1) := by
  obtain ⟨m, -, h1, h2, h3, s1, s2, s3⟩ := exists_three (R := 1) (C := 5) (dt1 := 4) (dt2 := 4) (dt3 := 4) (a := fun _ _ _ => 0x40400000) (b := fun _ _ _ => 0x3F800000) (c := fun _ _ _ => 9)
    (by decide) (by decide) rfl rfl rfl (by intro _ _ _ _ _ _; norm_num) (by intro _ _ _ _ _ _; norm_num) (by intro _ _ _ _ _ _; norm_num)
  have d1 : f32.decode 0x40400000 = .fin false 3 := by decide +kernel
  have d2 : f32.decode 0x3F800000 = .fin false 1 := by decide +kernel
  exact ⟨m, _, _, _, ⟨h1, h2, h3, s2, s3⟩, fun _ _ _ _ => ⟨⟨false, d1⟩, by norm_num⟩, fun _ _ _ _ => ⟨false, d2⟩⟩

end HyperCV
