/- C36: Laplacian and Sobel. -/
import Verif.Proof.Gradient
import Verif.Props.Padding
import Verif.Spec.Gradient

namespace HyperCV
open Spec

section
variable {m : Mem} {sp dp R C : Nat} {px old : Nat → Nat → Nat → UInt8}

theorem nbr_ext (e : Extension) {i j x y : Nat} (hR : 0 < R) (hC : 0 < C)
    (hb : R ≤ 2147483600 ∧ C ≤ 2147483600) (hi : i < R) (hj : j < C) (hx : x < 3) (hy : y < 3) :
    (nbr C (fun p => (e.index p R).toNat) (fun p => (e.index p C).toNat) (imgBytes C 1 1 (fun i j c _ => px i j c)) i j x y : ℤ)
      = extPx e R C px ((i:Int) + x - 1) ((j:Int) + y - 1) := by
  unfold nbr extPx
  have h1 := (tap_ext e (len := R) (k := 1) hR (by omega) (by omega) ((i:Int) + x - 1) (by omega) (by omega)).2
  have h2 := (tap_ext e (len := C) (k := 1) hC (by omega) (by omega) ((j:Int) + y - 1) (by omega) (by omega)).2
  have := imgBytes_at8 (i := (e.index ((i:Int) + x - 1) R).toNat) (ch := 1) (c := 0) (px := px) h2 (by decide)
  rw [Nat.mul_one, Nat.add_zero] at this
  rw [this]

theorem lapSum_ext (k_size : Int) (e : Extension) {i j : Nat} (hR : 0 < R) (hC : 0 < C)
    (hb : R ≤ 2147483600 ∧ C ≤ 2147483600) (hi : i < R) (hj : j < C) :
    lapSum k_size C (fun p => (e.index p R).toNat) (fun p => (e.index p C).toNat)
      (imgBytes C 1 1 (fun i j c _ => px i j c)) i j = (if k_size = 2 then 2 else 1) * laplace e R C px i j := by
  unfold lapSum
  have := fun x y hx hy => nbr_ext (px := px) e (i := i) (j := j) (x := x) (y := y) hR hC hb hi hj hx hy
  simp only [Finset.sum_range_succ, Finset.sum_range_zero, zero_add]
  rw [this 0 0 (by decide) (by decide), this 0 1 (by decide) (by decide), this 0 2 (by decide) (by decide),
    this 1 0 (by decide) (by decide), this 1 1 (by decide) (by decide), this 1 2 (by decide) (by decide),
    this 2 0 (by decide) (by decide), this 2 1 (by decide) (by decide), this 2 2 (by decide) (by decide)]
  unfold laplace lapK
  have a0 : (i:Int) + (0:Nat) - 1 = i - 1 := by omega
  have a1 : (i:Int) + (1:Nat) - 1 = i := by omega
  have a2 : (i:Int) + (2:Nat) - 1 = i + 1 := by omega
  have b0 : (j:Int) + (0:Nat) - 1 = j - 1 := by omega
  have b1 : (j:Int) + (1:Nat) - 1 = j := by omega
  have b2 : (j:Int) + (2:Nat) - 1 = j + 1 := by omega
  rw [a0, a1, a2, b0, b1, b2]
  norm_num
  split_ifs <;> ring

theorem sobX_ext (e : Extension) {i j : Nat} (hR : 0 < R) (hC : 0 < C)
    (hb : R ≤ 2147483600 ∧ C ≤ 2147483600) (hi : i < R) (hj : j < C) :
    sobSum sobKx C (fun p => (e.index p R).toNat) (fun p => (e.index p C).toNat)
      (imgBytes C 1 1 (fun i j c _ => px i j c)) i j = sobelDx e R C px i j := by
  unfold sobSum
  have := fun x y hx hy => nbr_ext (px := px) e (i := i) (j := j) (x := x) (y := y) hR hC hb hi hj hx hy
  simp only [Finset.sum_range_succ, Finset.sum_range_zero, zero_add]
  rw [this 0 0 (by decide) (by decide), this 0 1 (by decide) (by decide), this 0 2 (by decide) (by decide),
    this 1 0 (by decide) (by decide), this 1 1 (by decide) (by decide), this 1 2 (by decide) (by decide),
    this 2 0 (by decide) (by decide), this 2 1 (by decide) (by decide), this 2 2 (by decide) (by decide)]
  unfold sobelDx sobKx sobelX
  have a0 : (i:Int) + (0:Nat) - 1 = i - 1 := by omega
  have a1 : (i:Int) + (1:Nat) - 1 = i := by omega
  have a2 : (i:Int) + (2:Nat) - 1 = i + 1 := by omega
  have b0 : (j:Int) + (0:Nat) - 1 = j - 1 := by omega
  have b1 : (j:Int) + (1:Nat) - 1 = j := by omega
  have b2 : (j:Int) + (2:Nat) - 1 = j + 1 := by omega
  rw [a0, a1, a2, b0, b1, b2]
  norm_num
  ring

theorem sobY_ext (e : Extension) {i j : Nat} (hR : 0 < R) (hC : 0 < C)
    (hb : R ≤ 2147483600 ∧ C ≤ 2147483600) (hi : i < R) (hj : j < C) :
    sobSum sobKy C (fun p => (e.index p R).toNat) (fun p => (e.index p C).toNat)
      (imgBytes C 1 1 (fun i j c _ => px i j c)) i j = sobelDy e R C px i j := by
  unfold sobSum
  have := fun x y hx hy => nbr_ext (px := px) e (i := i) (j := j) (x := x) (y := y) hR hC hb hi hj hx hy
  simp only [Finset.sum_range_succ, Finset.sum_range_zero, zero_add]
  rw [this 0 0 (by decide) (by decide), this 0 1 (by decide) (by decide), this 0 2 (by decide) (by decide),
    this 1 0 (by decide) (by decide), this 1 1 (by decide) (by decide), this 1 2 (by decide) (by decide),
    this 2 0 (by decide) (by decide), this 2 1 (by decide) (by decide), this 2 2 (by decide) (by decide)]
  unfold sobelDy sobKy sobelY
  have a0 : (i:Int) + (0:Nat) - 1 = i - 1 := by omega
  have a1 : (i:Int) + (1:Nat) - 1 = i := by omega
  have a2 : (i:Int) + (2:Nat) - 1 = i + 1 := by omega
  have b0 : (j:Int) + (0:Nat) - 1 = j - 1 := by omega
  have b1 : (j:Int) + (1:Nat) - 1 = j := by omega
  have b2 : (j:Int) + (2:Nat) - 1 = j + 1 := by omega
  rw [a0, a1, a2, b0, b1, b2]
  norm_num
  ring

theorem size_bounds (hR : 0 < R) (hC : 0 < C) (hN : R * C ≤ 2147483600) : R ≤ 2147483600 ∧ C ≤ 2147483600 := by
  have h1 : R ≤ R * C := Nat.le_mul_of_pos_right _ hC
  have h2 : C ≤ R * C := Nat.le_mul_of_pos_left _ hR
  omega

theorem put_img8 {hdr : SimpleMat} {new : Nat → UInt8} {px' : Nat → Nat → Nat → UInt8} (hd : IsImage8 m dp R C 1 old)
    (h1 : m.sm dp = some hdr) (hn : ∀ i j, i < R → j < C → new (i * C + j) = px' i j 0) :
    IsImage8 (m.put hdr.data (R * C) new) dp R C 1 px' ∧ OnlyPixels m (m.put hdr.data (R * C) new) dp := by
  have := img8_put (px' := px') (new := new) hd h1 (by
    intro i j c hi hj hc
    obtain rfl : c = 0 := by omega
    rw [Nat.mul_one, Nat.add_zero]
    exact hn i j hi hj)
  rw [Nat.mul_one] at this
  exact this

/-- **C36**, what the Laplacian computes on one-channel byte images: every pixel of `dst` becomes the discrete
Laplacian of the source continued by `e`, doubled for kernel size 2, limited to 0..255; nothing else changes. -/
theorem C36_laplacian (e : Extension) {k_size : Int} (hk : 0 < k_size) (hs : IsImage8 m sp R C 1 px)
    (hd : IsImage8 m dp R C 1 old) (hsep : SepPixels m sp dp) (hN : R * C ≤ 2147483600) :
    ∃ m' out, hypercv_laplacian (some sp) (some dp) k_size e.code m = .ok ((), m') ∧ IsImage8 m' dp R C 1 out ∧
      OnlyPixels m m' dp ∧ ∀ i j, i < R → j < C →
        ((out i j 0).toNat : ℤ) = clamp 0 255 ((if k_size = 2 then 2 else 1) * laplace e R C px i j) := by
  have pR := hs.posR
  have pC := hs.posC
  have hb := size_bounds pR pC hN
  obtain ⟨sd, si, s1, s2⟩ := img8_lit hs
  obtain ⟨dd, di, d1, d2⟩ := img8_lit hd
  have hne := sep_ne hsep s1 d1
  rw [Nat.mul_one] at s2 d2
  let out : Nat → Nat → Nat → UInt8 := fun i j _ =>
    UInt8.ofNat (clamp 0 255 ((if k_size = 2 then 2 else 1) * laplace e R C px i j)).toNat
  have hout : ∀ i j : Nat, ((out i j 0).toNat : ℤ) = clamp 0 255 ((if k_size = 2 then 2 else 1) * laplace e R C px i j) := by
    intro i j
    have : ∀ z, 0 ≤ clamp 0 255 z ∧ clamp 0 255 z ≤ 255 := by
      intro z; unfold clamp; split
      · omega
      · split <;> omega
    have h := this ((if k_size = 2 then 2 else 1) * laplace e R C px i j)
    show ((UInt8.ofNat _).toNat : ℤ) = _
    rw [UInt8.toNat_ofNat']
    omega
  obtain ⟨h3, h4⟩ := put_img8 (new := imgBytes C 1 1 (fun i j c _ => out i j c)) (px' := out) hd d1 (by
    intro i j hi hj
    have := imgBytes_at8 (i := i) (ch := 1) (c := 0) (px := out) hj (by decide)
    rwa [Nat.mul_one, Nat.add_zero] at this)
  refine ⟨_, out, ?_, h3, h4, fun i j _ _ => hout i j⟩
  unfold hypercv_laplacian
  rw [nonNull_some, nonNull_some, cassert_bind (by rw [decide_eq_true_eq]; omega), bind_ok (getS_ok s1), bind_ok (getS_ok d1)]
  have hf := nest2 (n1 := R) (n2 := C) (body := fun i j => lapPixel ⟨R, C, 1, ((1:Nat):Int), 1, sd, si⟩ ⟨R, C, 1, ((1:Nat):Int), 1, dd, di⟩ k_size e.code i j)
    (m := m) (d := dd) (N := R * C) (new := imgBytes C 1 1 (fun i j c _ => out i j c)) (P := fun i j p => p = i * C + j) (by
      intro i j hi hj
      refine lapPixel_run s2 (le_refl _) (le_refl _) hne (by omega) (by omega) (by omega)
        (tap_ext e pR (by omega) (by omega)) (tap_ext e pC (by omega) (by omega)) hi hj rfl rfl rfl rfl ?_
      have := imgBytes_at8 (i := i) (ch := 1) (c := 0) (px := out) hj (by decide)
      rw [Nat.mul_one, Nat.add_zero] at this
      rw [this, hout, lapSum_ext k_size e pR pC hb hi hj])
  refine hf.total ?_ d2
  intro p hp
  exact ⟨p / C, Nat.div_lt_of_lt_mul (by rwa [Nat.mul_comm]), p % C, Nat.mod_lt _ pC, by
    rw [Nat.mul_comm, Nat.div_add_mod]⟩

/-- **C36**, Laplacian: constant images become black. -/
theorem C36_laplacian_constant_partial (e : Extension) {k_size : Int} {v : UInt8} (hk : 0 < k_size)
    (hs : IsImage8 m sp R C 1 (fun _ _ _ => v)) (hd : IsImage8 m dp R C 1 old) (hsep : SepPixels m sp dp)
    (hN : R * C ≤ 2147483600) :
    ∃ m', hypercv_laplacian (some sp) (some dp) k_size e.code m = .ok ((), m') ∧ IsImage8 m' dp R C 1 (fun _ _ _ => 0) ∧
      OnlyPixels m m' dp := by
  obtain ⟨m', out, h1, h2, h3, h4⟩ := C36_laplacian e hk hs hd hsep hN
  refine ⟨m', h1, img8_congr h2 ?_, h3⟩
  intro i j c hi hj hc
  obtain rfl : c = 0 := by omega
  have h := h4 i j hi hj
  have z : laplace e R C (fun _ _ _ => v) i j = 0 := by unfold laplace extPx; ring
  rw [z, mul_zero, show clamp 0 255 0 = 0 from rfl] at h
  apply UInt8.toNat_inj.mp
  exact_mod_cast h

/-- **C36**, what Sobel computes: every pixel of `dst` becomes 255 where the larger of the two derivative magnitudes
exceeds the threshold and 0 elsewhere; nothing else changes. -/
theorem C36_sobel (e : Extension) (threshold : Int) (hs : IsImage8 m sp R C 1 px)
    (hd : IsImage8 m dp R C 1 old) (hsep : SepPixels m sp dp) (hN : R * C ≤ 2147483600) :
    ∃ m', hypercv_sobel (some sp) (some dp) threshold e.code m = .ok ((), m') ∧
      IsImage8 m' dp R C 1 (fun i j _ => if max |sobelDx e R C px i j| |sobelDy e R C px i j| > threshold then 255 else 0) ∧
      OnlyPixels m m' dp := by
  have pR := hs.posR
  have pC := hs.posC
  have hb := size_bounds pR pC hN
  obtain ⟨sd, si, s1, s2⟩ := img8_lit hs
  obtain ⟨dd, di, d1, d2⟩ := img8_lit hd
  have hne := sep_ne hsep s1 d1
  rw [Nat.mul_one] at s2 d2
  let out : Nat → Nat → Nat → UInt8 := fun i j _ => if max |sobelDx e R C px i j| |sobelDy e R C px i j| > threshold then 255 else 0
  obtain ⟨h3, h4⟩ := put_img8 (new := imgBytes C 1 1 (fun i j c _ => out i j c)) (px' := out) hd d1 (by
    intro i j hi hj
    have := imgBytes_at8 (i := i) (ch := 1) (c := 0) (px := out) hj (by decide)
    rwa [Nat.mul_one, Nat.add_zero] at this)
  refine ⟨_, ?_, h3, h4⟩
  unfold hypercv_sobel
  rw [bind_ok (show derefS (some sp) m = _ from getS_ok s1), bind_ok (show derefS (some dp) m = _ from getS_ok d1),
    cassert_bind (by simp), cassert_bind (by cases e <;> decide), cassert_bind (by simp)]
  have hf := nest2 (n1 := R) (n2 := C) (body := fun i j => sobelPixel ⟨R, C, 1, ((1:Nat):Int), 1, sd, si⟩ ⟨R, C, 1, ((1:Nat):Int), 1, dd, di⟩ threshold e.code i j)
    (m := m) (d := dd) (N := R * C) (new := imgBytes C 1 1 (fun i j c _ => out i j c)) (P := fun i j p => p = i * C + j) (by
      intro i j hi hj
      refine sobelPixel_run s2 (le_refl _) (le_refl _) hne (by omega) (by omega) (by omega)
        (tap_ext e pR (by omega) (by omega)) (tap_ext e pC (by omega) (by omega)) hi hj rfl rfl rfl rfl ?_
      have := imgBytes_at8 (i := i) (ch := 1) (c := 0) (px := out) hj (by decide)
      rw [Nat.mul_one, Nat.add_zero] at this
      rw [this, sobX_ext e pR pC hb hi hj, sobY_ext e pR pC hb hi hj])
  refine hf.total ?_ d2
  intro p hp
  exact ⟨p / C, Nat.div_lt_of_lt_mul (by rwa [Nat.mul_comm]), p % C, Nat.mod_lt _ pC, by
    rw [Nat.mul_comm, Nat.div_add_mod]⟩

/-- **C36**, Sobel: a constant image gives a black image exactly for thresholds that are not negative; for negative
thresholds it gives a white one. -/
theorem C36_sobel_constant (e : Extension) (threshold : Int) {v : UInt8} (hs : IsImage8 m sp R C 1 (fun _ _ _ => v))
    (hd : IsImage8 m dp R C 1 old) (hsep : SepPixels m sp dp) (hN : R * C ≤ 2147483600) :
    ∃ m', hypercv_sobel (some sp) (some dp) threshold e.code m = .ok ((), m') ∧
      IsImage8 m' dp R C 1 (fun _ _ _ => if 0 ≤ threshold then 0 else 255) ∧ OnlyPixels m m' dp := by
  obtain ⟨m', h1, h2, h3⟩ := C36_sobel e threshold hs hd hsep hN
  refine ⟨m', h1, img8_congr h2 ?_, h3⟩
  intro i j c hi hj hc
  have z1 : sobelDx e R C (fun _ _ _ => v) i j = 0 := by unfold sobelDx extPx; ring
  have z2 : sobelDy e R C (fun _ _ _ => v) i j = 0 := by unfold sobelDy extPx; ring
  rw [z1, z2, abs_zero, max_self]
  split <;> split <;> first | rfl | omega

/-- C36 is false of the Laplacian for several channels: only the first `R * C` of the `R * C * ch` elements are written,
so that the rest of the destination keeps its previous contents whatever the source is. -/
theorem C36_refuted_channels (e : Extension) {ch : Nat} {k_size : Int} (hk : 0 < k_size) (hs : IsImage8 m sp R C ch px)
    (hd : IsImage8 m dp R C ch old) (hsep : SepPixels m sp dp) (hN : R * C ≤ 2147483600) :
    ∃ m' out, hypercv_laplacian (some sp) (some dp) k_size e.code m = .ok ((), m') ∧ IsImage8 m' dp R C ch out ∧
      ∀ i j c, i < R → j < C → c < ch → R * C ≤ (i * C + j) * ch + c → out i j c = old i j c := by
  have pR := hs.posR
  have pC := hs.posC
  have pch := hs.posCh
  have hb := size_bounds pR pC hN
  obtain ⟨sd, si, s1, s2⟩ := img8_lit hs
  obtain ⟨dd, di, d1, d2⟩ := img8_lit hd
  have hne := sep_ne hsep s1 d1
  have hle : R * C ≤ R * C * ch := Nat.le_mul_of_pos_right _ pch
  have hc : ∀ z, 0 ≤ clamp 0 255 z ∧ clamp 0 255 z ≤ 255 := by
    intro z; unfold clamp; split
    · omega
    · split <;> omega
  let new : Nat → UInt8 := fun p => UInt8.ofNat (clamp 0 255 (lapSum k_size C (fun p => (e.index p R).toNat)
    (fun p => (e.index p C).toNat) (imgBytes C ch 1 (fun i j c _ => px i j c)) (p / C) (p % C))).toNat
  have hf := nest2 (n1 := R) (n2 := C) (body := fun i j => lapPixel ⟨R, C, 1, ch, 1, sd, si⟩ ⟨R, C, 1, ch, 1, dd, di⟩ k_size e.code i j)
    (m := m) (d := dd) (N := R * C * ch) (new := new) (P := fun i j p => p = i * C + j) (by
      intro i j hi hj
      refine lapPixel_run s2 hle hle hne (by omega) (by omega) (by omega)
        (tap_ext e pR (by omega) (by omega)) (tap_ext e pC (by omega) (by omega)) hi hj rfl rfl rfl rfl ?_
      show ((UInt8.ofNat _).toNat : ℤ) = _
      have e1 : (i * C + j) / C = i := by
        rw [Nat.mul_comm, Nat.mul_add_div pC, Nat.div_eq_of_lt hj, Nat.add_zero]
      have e2 : (i * C + j) % C = j := by rw [Nat.mul_comm, Nat.mul_add_mod, Nat.mod_eq_of_lt hj]
      rw [e1, e2, UInt8.toNat_ofNat']
      have := hc (lapSum k_size C (fun p => (e.index p R).toNat)
        (fun p => (e.index p C).toNat) (imgBytes C ch 1 (fun i j c _ => px i j c)) i j)
      omega)
  have hrun := hf.run d2
  obtain ⟨h3, -⟩ := img8_put (px' := fun i j c => if ∃ a, a < R ∧ ∃ b, b < C ∧ (i * C + j) * ch + c = a * C + b
      then new ((i * C + j) * ch + c) else old i j c) (new := fun p => if ∃ a, a < R ∧ ∃ b, b < C ∧ p = a * C + b then new p
      else imgBytes C ch 1 (fun i j c _ => old i j c) p) hd d1 (by
    intro i j c hi hj hc
    beta_reduce
    rw [imgBytes_at8 hj hc])
  refine ⟨_, _, ?_, h3, ?_⟩
  · unfold hypercv_laplacian
    rw [nonNull_some, nonNull_some, cassert_bind (by rw [decide_eq_true_eq]; omega), bind_ok (getS_ok s1), bind_ok (getS_ok d1)]
    refine hrun.trans ?_
    refine congrArg (fun x => Except.ok ((), x)) (put_congr m _ _ ?_)
    intro p _
    congr
  · intro i j c hi hj hc hge
    beta_reduce
    rw [if_neg]
    rintro ⟨a, ha, b, hb', he⟩
    have := mix_lt ha hb'
    omega

/-- C36 is false for BORDER_CONSTANT: `hypercv_border_Interpolate` then answers index 1, which lies outside every
one-row image, and the Laplacian reads out of bounds. -/
theorem C36_refuted_constant_border {k_size : Int} (hk : 0 < k_size) (hs : IsImage8 m sp 1 C 1 px)
    (hd : IsImage8 m dp 1 C 1 old) (hN : C ≤ 2147483600) :
    hypercv_laplacian (some sp) (some dp) k_size 0 m = .error (.ub .oob) := by
  have pC := hs.posC
  obtain ⟨sd, si, s1, s2⟩ := img8_lit hs
  obtain ⟨dd, di, d1, d2⟩ := img8_lit hd
  unfold hypercv_laplacian
  rw [nonNull_some, nonNull_some, cassert_bind (by rw [decide_eq_true_eq]; omega), bind_ok (getS_ok s1), bind_ok (getS_ok d1)]
  have b1 : ∀ l : Nat, border (-1) l 0 = .ok 1 := by
    intro l
    unfold border borderFuel
    rw [if_neg (by omega), if_neg (by decide), if_neg (by omega), if_neg (by decide), if_neg (by decide), if_neg (by decide)]
    rfl
  have b2 : load sd (1 * (C:Int) + 1) m = .error (.ub .oob) := by
    rw [show (1 * (C:Int) + 1) = ((C + 1 : Nat) : Int) by push_cast; ring]
    exact load_oob s2 (by omega)
  have tap : ∀ v, lapTap ⟨((1:Nat):Int), C, 1, ((1:Nat):Int), 1, sd, si⟩ k_size 0 0 0 0 0 v m = .error (.ub .oob) := by
    intro v
    unfold lapTap
    have e0 : (CI.lit 0 + CI.lit 0 - CI.lit 1 : CI) = CI.lit (-1) := rfl
    have e1 : (CI.lit 1 * CI.lit (C:Int) + CI.lit 1 : CI) = CI.lit (1 * (C:Int) + 1) := by
      rw [CI.mul_ok (by constructor <;> omega), CI.add_ok (by constructor <;> omega)]
    rw [bind_ok (ev_ok e0 _), bind_ok (tapIndex_ok (b1 1) m), bind_ok (ev_ok e0 _), bind_ok (tapIndex_ok (b1 C) m),
      bind_ok (ev_ok e1 _), bind_err b2]
  have pix : lapPixel ⟨((1:Nat):Int), C, 1, ((1:Nat):Int), 1, sd, si⟩ ⟨((1:Nat):Int), C, 1, ((1:Nat):Int), 1, dd, di⟩ k_size 0 0 0 m
      = .error (.ub .oob) := by
    unfold lapPixel
    rw [bind_err]
    exact bind_err (bind_err (tap _))
  obtain ⟨n, rfl⟩ : ∃ n, C = n + 1 := ⟨C - 1, by omega⟩
  have : (forI 0 ((n+1 : Nat) : Int) fun j => lapPixel ⟨((1:Nat):Int), (n+1 : Nat), 1, ((1:Nat):Int), 1, sd, si⟩
      ⟨((1:Nat):Int), (n+1 : Nat), 1, ((1:Nat):Int), 1, dd, di⟩ k_size 0 0 j) m = .error (.ub .oob) := by
    unfold forI forA
    rw [show (((n+1 : Nat) : Int) - 0).toNat = n + 1 by omega]
    exact bind_err pix
  exact bind_err this

end

example : ∃ m sp dp R C px old, IsImage8 m sp R C 1 px ∧ IsImage8 m dp R C 1 old ∧ SepPixels m sp dp ∧ R * C ≤ 2147483600 ∧ 1 < R * C :=
  ⟨demoImgs 1, 1, 3, 2, 3, _, _, demoImgs_src (by decide), demoImgs_dst (by decide), demoImgs_sep 1, by decide, by decide⟩

/-- a several-channel case in which the last element is indeed not covered -/
example : ∃ m sp dp R C ch px old, IsImage8 m sp R C ch px ∧ IsImage8 m dp R C ch old ∧ SepPixels m sp dp ∧
    R * C ≤ 2147483600 ∧ R * C ≤ ((R - 1) * C + (C - 1)) * ch :=
  ⟨demoImgs 3, 1, 3, 2, 3, 3, _, _, demoImgs_src (by decide), demoImgs_dst (by decide), demoImgs_sep 3, by decide, by decide⟩

example : ∃ m sp dp C px old, IsImage8 m sp 1 C 1 px ∧ IsImage8 m dp 1 C 1 old ∧ C ≤ 2147483600 ∧ 1 < C :=
  ⟨(Mem.empty.newImage 1 4 1 1 1 (imgBytes 4 1 1 (fun _ _ _ _ => 5))), 1, 1, 4, _, _,
    newImage_isImage (m := Mem.empty) (px := fun _ _ _ _ => 5) rfl (by decide) (by decide) (by decide),
    newImage_isImage (m := Mem.empty) (px := fun _ _ _ _ => 5) rfl (by decide) (by decide) (by decide), by decide, by decide⟩

end HyperCV
