/- C90 and C91: the addition and the logarithm of float images. -/
import Verif.Proof.FloatAdd
import Verif.Props.AccuracyFilter
import Verif.Props.Statistics

namespace HyperCV
open Spec

/-- three images of `float`s with the same number of channels and the same width; the destination has at least as many rows as the
common part of the two operands.  The images may share their pixels. -/
structure AddArgs (m : Mem) (pa pb pd R1 R2 Rd C ch : Nat) (a b old : Nat → Nat → Nat → Nat) : Prop where
  left : IsImageN m pa R1 C 4 ch 4 a
  right : IsImageN m pb R2 C 4 ch 4 b
  dst : IsImageN m pd Rd C 4 ch 4 old
  rows : min R1 R2 ≤ Rd
  size : Rd * C * ch ≤ 2147483647

section
variable {m : Mem} {pa pb pd R1 R2 Rd C C1 C2 ch : Nat} {a b old : Nat → Nat → Nat → Nat}

/-- the bits of the result: the `float` sum in the common rows, the previous values elsewhere -/
def addBits (R : Nat) (a b old : Nat → Nat → Nat → Nat) (i j c : Nat) : Nat :=
  if i < R then f32.encode (f32.add (f32.decode (a i j c)) (f32.decode (b i j c))) else old i j c

theorem pxF_min {R i j c : Nat} (hj : j < C) (hc : c < ch) : (i * C + j) * ch + c < R * C * ch ↔ i < R := by
  constructor
  · intro h
    by_contra hi
    have h1 : R * C ≤ i * C := Nat.mul_le_mul_right _ (by omega)
    have h2 : R * C * ch ≤ (i * C + j) * ch := Nat.mul_le_mul_right _ (by omega)
    omega
  · intro h
    exact img8_lt h hj hc

theorem add_image_run (h : AddArgs m pa pb pd R1 R2 Rd C ch a b old) :
    ∃ m', simple_mat_addition_float (some pa) (some pb) (some pd) m = .ok ((), m') ∧
      IsImageN m' pd Rd C 4 ch 4 (addBits (min R1 R2) a b old) ∧ OnlyPixels m m' pd := by
  obtain ⟨ad, ai, a1, a2⟩ := imgN_open h.left
  obtain ⟨bd, bi, b1, b2⟩ := imgN_open h.right
  obtain ⟨dd, di, d1, d2⟩ := imgN_open h.dst
  have hr := h.rows
  have hz := h.size
  have n1 : min R1 R2 * C * ch ≤ R1 * C * ch := Nat.mul_le_mul_right _ (Nat.mul_le_mul_right _ (Nat.min_le_left _ _))
  have n2 : min R1 R2 * C * ch ≤ R2 * C * ch := Nat.mul_le_mul_right _ (Nat.mul_le_mul_right _ (Nat.min_le_right _ _))
  have n3 : min R1 R2 * C * ch ≤ Rd * C * ch := Nat.mul_le_mul_right _ (Nat.mul_le_mul_right _ hr)
  have run := add_float_run (R1 := R1) (R2 := R2) (C1 := C) (C2 := C) (ch := ch) a1 b1 d1 a2 b2 d2 rfl rfl rfl rfl rfl rfl
    (by rw [Nat.min_self]; exact n1) (by rw [Nat.min_self]; exact n2) (by rw [Nat.min_self]; exact n3) (by rw [Nat.min_self]; omega)
  rw [Nat.min_self] at run
  obtain ⟨o1, o2⟩ := imgN_put (b := addBits (min R1 R2) a b old) h.dst d1 (by
    intro i j c hi hj hc
    unfold addBits
    split
    · exact f32_encode_lt (good_add _ _ _)
    · exact d2.fits i j c hi hj hc)
  refine ⟨_, ?_, o1, o2⟩
  rw [run]
  refine congrArg (fun x => Except.ok ((), x)) (putN_congr m ?_)
  intro p hp
  obtain ⟨i, j, c, hi, hj, hc, rfl⟩ := img8_cover hp
  unfold addMix
  rw [pxF_at _ hj hc, pxF_at _ hj hc, pxF_at _ hj hc, pxF_at _ hj hc]
  unfold addBits
  by_cases e : i < min R1 R2
  · rw [if_pos e, if_pos ((pxF_min hj hc).2 e)]
  · rw [if_neg e, if_neg (fun h => e ((pxF_min hj hc).1 h))]

/-- **C90**, for images of one width: in the rows common to both operands every channel of every pixel of the destination is the sum of
the two values, correctly rounded (exact when the sum is a `float`); the other rows of the destination, and everything else, are
unchanged.  The destination may be one of the operands.  Missing for the full property: operands of different widths, for which it is
false (`C90_widths`), and destinations that are too small, which are not detected (`C90_small`). -/
theorem C90_addition_partial (h : AddArgs m pa pb pd R1 R2 Rd C ch a b old) :
    ∃ m' out, simple_mat_addition_float (some pa) (some pb) (some pd) m = .ok ((), m') ∧ IsImageN m' pd Rd C 4 ch 4 out ∧
      OnlyPixels m m' pd ∧
      (∀ i j c, i < R1 → i < R2 → j < C → c < ch → ∀ x y, FloatIs f32 (a i j c) x → FloatIs f32 (b i j c) y → |x + y| ≤ 2 ^ 127 →
        ∃ z, FloatIs f32 (out i j c) z ∧ |z - (x + y)| ≤ 1 / 2 ^ 24 * |x + y| ∧ (f32.Rep (x + y) → z = x + y)) ∧
      ∀ i j c, i < Rd → ¬ (i < R1 ∧ i < R2) → j < C → c < ch → out i j c = old i j c := by
  obtain ⟨m', r1, r2, r3⟩ := add_image_run h
  refine ⟨m', _, r1, r2, r3, ?_, ?_⟩
  · intro i j c h1 h2 _ _ x y hx hy hb
    have vx : f32.Val (f32.decode (a i j c)) x := ⟨hx, floatIs_rep hx⟩
    have vy : f32.Val (f32.decode (b i j c)) y := ⟨hy, floatIs_rep hy⟩
    obtain ⟨z, z1, z2⟩ := val_add vx vy (by
      rw [f32_u, f32_max]
      norm_num at hb ⊢
      linarith)
    rw [f32_u] at z2
    have e1 : f32.decode (addBits (min R1 R2) a b old i j c) = f32.add (f32.decode (a i j c)) (f32.decode (b i j c)) := by
      unfold addBits
      rw [if_pos (by omega), f32_dec_enc (good_add _ _ _)]
    refine ⟨z, ?_, z2, ?_⟩
    · show (f32.decode _).Is z
      rw [e1]; exact z1.1
    · intro hrep
      have := is_add vx.1 vy.1 hrep
      obtain ⟨s, s1⟩ := this
      obtain ⟨s', s2⟩ := z1.1
      rw [s1] at s2
      exact ((FV.fin.injEq _ _ _ _).mp s2).2.symm
  · intro i j c _ h2 _ _
    unfold addBits
    rw [if_neg (by omega)]

/-- **C90 is false** of operands of different widths: all images are read and written with the row length of the narrower operand.
If the left operand is wider than the right one, the destination (as wide as the right one) does not get at pixel (1, 0) the sum of
the two pixels (1, 0): the left operand is read at pixel (0, `C2`). -/
theorem C90_widths (ha : IsImageN m pa R1 C1 4 ch 4 a) (hb : IsImageN m pb R2 C2 4 ch 4 b) (hd : IsImageN m pd Rd C2 4 ch 4 old)
    (hC : C2 < C1) (h1 : 2 ≤ R1) (h2 : 2 ≤ R2) (hr : min R1 R2 ≤ Rd) (hz : Rd * C2 * ch ≤ 2147483647) :
    ∃ m' out, simple_mat_addition_float (some pa) (some pb) (some pd) m = .ok ((), m') ∧ IsImageN m' pd Rd C2 4 ch 4 out ∧
      ∀ c, c < ch → f32.decode (out 1 0 c) = f32.add (f32.decode (a 0 C2 c)) (f32.decode (b 1 0 c)) := by
  obtain ⟨ad, ai, a1, a2⟩ := imgN_open ha
  obtain ⟨bd, bi, b1, b2⟩ := imgN_open hb
  obtain ⟨dd, di, d1, d2⟩ := imgN_open hd
  have pC := hb.1.posC
  have n1 : min R1 R2 * C2 * ch ≤ R1 * C1 * ch := Nat.mul_le_mul_right _ (Nat.mul_le_mul (Nat.min_le_left _ _) hC.le)
  have n2 : min R1 R2 * C2 * ch ≤ R2 * C2 * ch := Nat.mul_le_mul_right _ (Nat.mul_le_mul_right _ (Nat.min_le_right _ _))
  have n3 : min R1 R2 * C2 * ch ≤ Rd * C2 * ch := Nat.mul_le_mul_right _ (Nat.mul_le_mul_right _ hr)
  have e : min C1 C2 = C2 := by omega
  have run := add_float_run (R1 := R1) (R2 := R2) (C1 := C1) (C2 := C2) (ch := ch) a1 b1 d1 a2 b2 d2 rfl rfl rfl rfl rfl rfl
    (by rw [e]; exact n1) (by rw [e]; exact n2) (by rw [e]; exact n3) (by rw [e]; omega)
  rw [e] at run
  let out : Nat → Nat → Nat → Nat := fun i j c => addMix (min R1 R2 * C2 * ch) (pxF C1 ch a) (pxF C2 ch b) (pxF C2 ch old) ((i * C2 + j) * ch + c)
  obtain ⟨o1, o2⟩ := imgN_put (b := out) hd d1 (by
    intro i j c hi hj hc
    exact addMix_lt (ND := Rd * C2 * ch) d2.2 _ (img8_lt hi hj hc))
  refine ⟨_, out, ?_, o1, ?_⟩
  · rw [run]
    refine congrArg (fun x => Except.ok ((), x)) (putN_congr m ?_)
    intro p hp
    obtain ⟨i, j, c, hi, hj, hc, rfl⟩ := img8_cover hp
    rw [pxF_at _ hj hc]
  · intro c hc
    show f32.decode (addMix _ _ _ _ _) = _
    unfold addMix
    rw [if_pos ((pxF_min pC hc).2 (by omega)), f32_dec_enc (good_add _ _ _), pxF_at b pC hc]
    have e2 : (1 * C2 + 0) * ch + c = (0 * C1 + C2) * ch + c := by ring
    rw [e2, pxF_at a hC hc]

/-- **C90 is false** of destinations with fewer elements than the common part: this is not detected, and memory after the pixels of
the destination is written. -/
theorem C90_small {Cd dch : Nat} (ha : IsImageN m pa R1 C1 4 ch 4 a) (hb : IsImageN m pb R2 C2 4 ch 4 b) (hd : IsImageN m pd Rd Cd 4 dch 4 old)
    (hs : Rd * Cd * dch < min R1 R2 * min C1 C2 * ch) (hz : min R1 R2 * min C1 C2 * ch ≤ 2147483647) :
    simple_mat_addition_float (some pa) (some pb) (some pd) m = .error (.ub .oob) := by
  obtain ⟨ad, ai, a1, a2⟩ := imgN_open ha
  obtain ⟨bd, bi, b1, b2⟩ := imgN_open hb
  obtain ⟨dd, di, d1, d2⟩ := imgN_open hd
  have n1 : min R1 R2 * min C1 C2 * ch ≤ R1 * C1 * ch := Nat.mul_le_mul_right _ (Nat.mul_le_mul (Nat.min_le_left _ _) (Nat.min_le_left _ _))
  have n2 : min R1 R2 * min C1 C2 * ch ≤ R2 * C2 * ch := Nat.mul_le_mul_right _ (Nat.mul_le_mul (Nat.min_le_right _ _) (Nat.min_le_right _ _))
  exact add_float_small a1 b1 d1 ⟨_, a2.1⟩ ⟨_, b2.1⟩ ⟨_, d2.1⟩ rfl rfl rfl rfl rfl rfl (Nat.mul_le_mul_right _ n1) (Nat.mul_le_mul_right _ n2) hs hz

/-- **C91**, for images of one channel: every element of the destination becomes the logarithm of the element of the source, computed
by the C library in `double` and converted to `float`; nothing else changes, and source and destination may be the same image.  Missing
for the full property: images with more channels (`C91_channels`). -/
theorem C91_log_partial (log : FV → FV) (hs : IsImageN m pa Rd C 4 1 4 a) (hd : IsImageN m pd Rd C 4 1 4 old) (hz : Rd * C ≤ 2147483647) :
    ∃ m' out, simple_mat_log log (some pa) (some pd) m = .ok ((), m') ∧ IsImageN m' pd Rd C 4 1 4 out ∧ OnlyPixels m m' pd ∧
      ∀ i j, i < Rd → j < C → f32.decode (out i j 0) = f32.conv (log (f64.conv (f32.decode (a i j 0)))) := by
  obtain ⟨sd, si, s1, s2⟩ := imgN_open hs
  obtain ⟨dd, di, d1, d2⟩ := imgN_open hd
  have run := log_run log (R := Rd) (C := C) s1 d1 s2 d2 rfl rfl rfl rfl rfl rfl (by omega) (by omega) hz
  obtain ⟨o1, o2⟩ := imgN_put (b := fun i j c => f32.encode (f32.conv (log (f64.conv (f32.decode (a i j c)))))) hd d1
    (fun _ _ _ _ _ _ => f32_encode_lt (good_conv _ _))
  refine ⟨_, _, ?_, o1, o2, fun i j _ _ => f32_dec_enc (good_conv _ _)⟩
  rw [run]
  refine congrArg (fun x => Except.ok ((), x)) (putN_congr m ?_)
  intro p hp
  obtain ⟨i, j, c, hi, hj, hc, rfl⟩ := img8_cover hp
  unfold logMix
  rw [if_pos (by omega), pxF_at _ hj hc, pxF_at _ hj hc]

/-- **C91 is false** of images with several channels: only the first `Rd * C` elements are converted, so that the last pixel of the
destination keeps its previous values. -/
theorem C91_channels (log : FV → FV) (hs : IsImageN m pa Rd C 4 ch 4 a) (hd : IsImageN m pd Rd C 4 ch 4 old) (hch : 2 ≤ ch)
    (hz : Rd * C ≤ 2147483647) :
    ∃ m' out, simple_mat_log log (some pa) (some pd) m = .ok ((), m') ∧ IsImageN m' pd Rd C 4 ch 4 out ∧
      out (Rd - 1) (C - 1) (ch - 1) = old (Rd - 1) (C - 1) (ch - 1) := by
  obtain ⟨sd, si, s1, s2⟩ := imgN_open hs
  obtain ⟨dd, di, d1, d2⟩ := imgN_open hd
  have pR := hd.1.posR
  have pC := hd.1.posC
  have n1 : Rd * C ≤ Rd * C * ch := Nat.le_mul_of_pos_right _ (by omega)
  have run := log_run log (R := Rd) (C := C) s1 d1 s2 d2 rfl rfl rfl rfl rfl rfl n1 n1 hz
  let out : Nat → Nat → Nat → Nat := fun i j c => logMix log (Rd * C) (pxF C ch a) (pxF C ch old) ((i * C + j) * ch + c)
  obtain ⟨o1, o2⟩ := imgN_put (b := out) hd d1 (by
    intro i j c hi hj hc
    show logMix _ _ _ _ _ < _
    unfold logMix
    split
    · exact f32_encode_lt (good_conv _ _)
    · exact d2.2 _ (img8_lt hi hj hc))
  refine ⟨_, out, ?_, o1, ?_⟩
  · rw [run]
    refine congrArg (fun x => Except.ok ((), x)) (putN_congr m ?_)
    intro p hp
    obtain ⟨i, j, c, hi, hj, hc, rfl⟩ := img8_cover hp
    rw [pxF_at _ hj hc]
  · show logMix _ _ _ _ _ = _
    unfold logMix
    have e1 : (Rd - 1) * C + (C - 1) + 1 = Rd * C := by
      obtain ⟨r, rfl⟩ : ∃ r, Rd = r + 1 := ⟨Rd - 1, by omega⟩
      rw [Nat.succ_mul, Nat.add_sub_cancel]; omega
    have pN : 0 < Rd * C := Nat.mul_pos pR pC
    rw [if_neg, pxF_at old (by omega) (by omega)]
    have e2 : ((Rd - 1) * C + (C - 1)) * ch + ch = Rd * C * ch := by rw [← e1]; ring
    have e3 : Rd * C * 2 ≤ Rd * C * ch := Nat.mul_le_mul_left _ hch
    omega

end

/-! ### The hypotheses can be met -/

/-- a new image of `float`s -/
theorem newImageN {m : Mem} {R C ch : Nat} (hR : 0 < R) (hC : 0 < C) (hch : 0 < ch) {a : Nat → Nat → Nat → Nat}
    (ha : ∀ i j c, i < R → j < C → c < ch → a i j c < 256 ^ 4) :
    IsImageN (m.newImage R C 4 ch 4 (imgBytes C ch 4 fun i j c t => leByte (a i j c) t)) (m.next + 1) R C 4 ch 4 a :=
  ⟨newImage_isImage rfl hR hC hch, ha⟩

/-- 1.5 in a 3 x 2 image with two channels, 2 in a 2 x 2 image, which is also the destination -/
example : ∃ m pa pb a b, AddArgs m pa pb pb 3 2 2 2 2 a b b ∧ FloatIs f32 (a 1 1 1) (3 / 2) ∧ FloatIs f32 (b 1 1 1) 2 ∧ f32.Rep (3 / 2 + 2) := by
  have w1 : (Mem.empty.newImage 3 2 4 2 4 (imgBytes 2 2 4 fun i j c t => leByte ((fun _ _ _ => 1069547520) i j c) t)).WF := newImage_WF empty_WF
  have i1 := newImageN (m := Mem.empty) (R := 3) (C := 2) (ch := 2) (by decide) (by decide) (by decide) (a := fun _ _ _ => 1069547520) (by intros; decide)
  have i2 := newImageN (m := Mem.empty.newImage 3 2 4 2 4 (imgBytes 2 2 4 fun i j c t => leByte ((fun _ _ _ => 1069547520) i j c) t)) (R := 2) (C := 2) (ch := 2)
    (by decide) (by decide) (by decide) (a := fun _ _ _ => 1073741824) (by intros; decide)
  refine ⟨_, _, _, _, _, ⟨⟨img_frame w1 i1.1 (newImage_frame _), i1.2⟩, i2, i2, by decide, by decide⟩, ⟨false, ?_⟩, ⟨false, ?_⟩, ?_⟩
  · decide +kernel
  · decide +kernel
  · have := rep_nat_div 1 (n := 7) (by decide) (by decide)
    norm_num at this ⊢
    exact this

/-- operands of widths 3 and 2, and a destination with one element -/
example : ∃ m pa pb pd a b d, IsImageN m pa 2 3 4 1 4 a ∧ IsImageN m pb 2 2 4 1 4 b ∧ IsImageN m pd 1 1 4 1 4 d := by
  have w1 : (Mem.empty.newImage 2 3 4 1 4 (imgBytes 3 1 4 fun i j c t => leByte ((fun _ _ _ => 1069547520) i j c) t)).WF := newImage_WF empty_WF
  have i1 := newImageN (m := Mem.empty) (R := 2) (C := 3) (ch := 1) (by decide) (by decide) (by decide) (a := fun _ _ _ => 1069547520) (by intros; decide)
  have i2 := newImageN (m := Mem.empty.newImage 2 3 4 1 4 (imgBytes 3 1 4 fun i j c t => leByte ((fun _ _ _ => 1069547520) i j c) t)) (R := 2) (C := 2) (ch := 1)
    (by decide) (by decide) (by decide) (a := fun _ _ _ => 1073741824) (by intros; decide)
  have w2 : ((Mem.empty.newImage 2 3 4 1 4 (imgBytes 3 1 4 fun i j c t => leByte ((fun _ _ _ => 1069547520) i j c) t)).newImage 2 2 4 1 4
    (imgBytes 2 1 4 fun i j c t => leByte ((fun _ _ _ => 1073741824) i j c) t)).WF := newImage_WF w1
  have i3 := newImageN (m := (Mem.empty.newImage 2 3 4 1 4 (imgBytes 3 1 4 fun i j c t => leByte ((fun _ _ _ => 1069547520) i j c) t)).newImage 2 2 4 1 4
    (imgBytes 2 1 4 fun i j c t => leByte ((fun _ _ _ => 1073741824) i j c) t)) (R := 1) (C := 1) (ch := 1)
    (by decide) (by decide) (by decide) (a := fun _ _ _ => 1073741824) (by intros; decide)
  exact ⟨_, _, _, _, _, _, _, ⟨img_frame w2 (img_frame w1 i1.1 (newImage_frame _)) (newImage_frame _), i1.2⟩,
    ⟨img_frame w2 i2.1 (newImage_frame _), i2.2⟩, i3⟩

end HyperCV
