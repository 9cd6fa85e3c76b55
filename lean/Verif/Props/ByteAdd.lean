/- C117: the addition of byte images. -/
import Verif.Proof.ByteAdd
import Verif.Props.FloatAdd

namespace HyperCV
open Spec

/-- three byte images with the same number of channels and the same width; the destination has at least as many rows as the common part of
the two operands.  The images may share their pixels. -/
structure Spec.ByteAddArgs (m : Mem) (pa pb pd R1 R2 Rd C ch : Nat) (a b old : Nat → Nat → Nat → UInt8) : Prop where
  left : IsImage8 m pa R1 C ch a
  right : IsImage8 m pb R2 C ch b
  dst : IsImage8 m pd Rd C ch old
  rows : min R1 R2 ≤ Rd
  size : Rd * C * ch ≤ 2147483647

section
variable {m : Mem} {pa pb pd R1 R2 Rd C C1 C2 ch : Nat} {a b old : Nat → Nat → Nat → UInt8}

/-- **C117**, for images of one width: in the rows common to both operands every channel of every pixel of the destination becomes the sum
of the two values modulo 256, which is the sum itself when it is at most 255; the other rows of the destination, and everything else, are
unchanged.  The destination may be one of the operands.
Missing for the full property: sums over 255 (`C117_refuted_wrap`), operands of different widths (`C117_refuted_widths`), destinations that
are too small (`C117_refuted_small`) and images of other types (`C117_refuted_type`). -/
theorem C117_addition_partial (h : ByteAddArgs m pa pb pd R1 R2 Rd C ch a b old) :
    ∃ m' out, simple_mat_addition_uchar (some pa) (some pb) (some pd) m = .ok ((), m') ∧ IsImage8 m' pd Rd C ch out ∧ OnlyPixels m m' pd ∧
      (∀ i j c, i < R1 → i < R2 → j < C → c < ch → (out i j c).toNat = ((a i j c).toNat + (b i j c).toNat) % 256 ∧
        ((a i j c).toNat + (b i j c).toNat ≤ 255 → (out i j c).toNat = (a i j c).toNat + (b i j c).toNat)) ∧
      ∀ i j c, i < Rd → ¬ (i < R1 ∧ i < R2) → j < C → c < ch → out i j c = old i j c := by
  obtain ⟨ad, a0, a1, a2, _, a3, a4⟩ := img8_open h.left
  obtain ⟨bd, b0, b1, b2, _, b3, b4⟩ := img8_open h.right
  obtain ⟨dd, d0, d1, d2, _, d3, d4⟩ := img8_open h.dst
  have hr := h.rows
  have hz := h.size
  have n1 : min R1 R2 * C * ch ≤ R1 * C * ch := Nat.mul_le_mul_right _ (Nat.mul_le_mul_right _ (Nat.min_le_left _ _))
  have n2 : min R1 R2 * C * ch ≤ R2 * C * ch := Nat.mul_le_mul_right _ (Nat.mul_le_mul_right _ (Nat.min_le_right _ _))
  have n3 : min R1 R2 * C * ch ≤ Rd * C * ch := Nat.mul_le_mul_right _ (Nat.mul_le_mul_right _ hr)
  have run := add_uchar_run (R1 := R1) (R2 := R2) (C1 := C) (C2 := C) (ch := ch) a0 b0 d0 a4 b4 d4 a1 a2 a3 b1 b2 b3
    (by rw [Nat.min_self]; exact n1) (by rw [Nat.min_self]; exact n2) (by rw [Nat.min_self]; exact n3) (by rw [Nat.min_self]; omega)
  rw [Nat.min_self] at run
  obtain ⟨o1, o2⟩ := img8_put (px' := fun i j c => if i < min R1 R2 then a i j c + b i j c else old i j c) h.dst d0 (by
    intro i j c hi hj hc
    show addMix8 (min R1 R2 * C * ch) (imgBytes C ch 1 fun i j c _ => a i j c) (imgBytes C ch 1 fun i j c _ => b i j c)
      (imgBytes C ch 1 fun i j c _ => old i j c) _ = _
    unfold addMix8
    rw [imgBytes_at8 hj hc, imgBytes_at8 hj hc, imgBytes_at8 hj hc]
    by_cases e : i < min R1 R2
    · rw [if_pos e, if_pos ((pxF_min hj hc).2 e)]
    · rw [if_neg e, if_neg (fun h => e ((pxF_min hj hc).1 h))])
  refine ⟨_, _, run, o1, o2, ?_, ?_⟩
  · intro i j c h1 h2 _ _
    beta_reduce
    rw [if_pos (by omega), UInt8.toNat_add]
    exact ⟨rfl, fun h => by omega⟩
  · intro i j c _ h2 _ _
    exact if_neg (by omega)

/-- **C117 is false** of sums over 255: they wrap instead of stopping at 255, so that the sum is smaller than both values. -/
theorem C117_refuted_wrap (h : ByteAddArgs m pa pb pd R1 R2 Rd C ch a b old) :
    ∃ m' out, simple_mat_addition_uchar (some pa) (some pb) (some pd) m = .ok ((), m') ∧ IsImage8 m' pd Rd C ch out ∧
      ∀ i j c, i < R1 → i < R2 → j < C → c < ch → 256 ≤ (a i j c).toNat + (b i j c).toNat → out i j c < a i j c ∧ out i j c < b i j c := by
  obtain ⟨m', out, r1, r2, _, r3, _⟩ := C117_addition_partial h
  refine ⟨m', out, r1, r2, fun i j c h1 h2 h3 h4 h5 => ?_⟩
  have := (r3 i j c h1 h2 h3 h4).1
  have l1 := (a i j c).toNat_lt
  have l2 := (b i j c).toNat_lt
  rw [UInt8.lt_iff_toNat_lt, UInt8.lt_iff_toNat_lt]
  omega

/-- **C117 is false** of operands of different widths: all images are read and written with the row length of the narrower operand.  If the
left operand is wider than the right one, pixel (1, 0) of the destination is computed from pixel (0, `C2`) of the left operand. -/
theorem C117_refuted_widths (ha : IsImage8 m pa R1 C1 ch a) (hb : IsImage8 m pb R2 C2 ch b) (hd : IsImage8 m pd Rd C2 ch old)
    (hC : C2 < C1) (h1 : 2 ≤ R1) (h2 : 2 ≤ R2) (hr : min R1 R2 ≤ Rd) (hz : Rd * C2 * ch ≤ 2147483647) :
    ∃ m' out, simple_mat_addition_uchar (some pa) (some pb) (some pd) m = .ok ((), m') ∧ IsImage8 m' pd Rd C2 ch out ∧
      ∀ c, c < ch → out 1 0 c = a 0 C2 c + b 1 0 c := by
  obtain ⟨ad, a0, a1, a2, _, a3, a4⟩ := img8_open ha
  obtain ⟨bd, b0, b1, b2, _, b3, b4⟩ := img8_open hb
  obtain ⟨dd, d0, d1, d2, _, d3, d4⟩ := img8_open hd
  have pC := hb.posC
  have n1 : min R1 R2 * C2 * ch ≤ R1 * C1 * ch := Nat.mul_le_mul_right _ (Nat.mul_le_mul (Nat.min_le_left _ _) hC.le)
  have n2 : min R1 R2 * C2 * ch ≤ R2 * C2 * ch := Nat.mul_le_mul_right _ (Nat.mul_le_mul_right _ (Nat.min_le_right _ _))
  have n3 : min R1 R2 * C2 * ch ≤ Rd * C2 * ch := Nat.mul_le_mul_right _ (Nat.mul_le_mul_right _ hr)
  have e : min C1 C2 = C2 := by omega
  have run := add_uchar_run (R1 := R1) (R2 := R2) (C1 := C1) (C2 := C2) (ch := ch) a0 b0 d0 a4 b4 d4 a1 a2 a3 b1 b2 b3
    (by rw [e]; exact n1) (by rw [e]; exact n2) (by rw [e]; exact n3) (by rw [e]; omega)
  rw [e] at run
  obtain ⟨o1, o2⟩ := img8_put (px' := fun i j c => addMix8 (min R1 R2 * C2 * ch) (imgBytes C1 ch 1 fun i j c _ => a i j c)
    (imgBytes C2 ch 1 fun i j c _ => b i j c) (imgBytes C2 ch 1 fun i j c _ => old i j c) ((i * C2 + j) * ch + c)) hd d0 (fun _ _ _ _ _ _ => rfl)
  refine ⟨_, _, run, o1, ?_⟩
  intro c hc
  show addMix8 _ _ _ _ _ = _
  unfold addMix8
  rw [if_pos ((pxF_min pC hc).2 (by omega)), imgBytes_at8 pC hc, show (1 * C2 + 0) * ch + c = (0 * C1 + C2) * ch + c by ring, imgBytes_at8 hC hc]

/-- **C117 is false** of destinations with fewer elements than the common part: this is not detected, and memory after the pixels of the
destination is written. -/
theorem C117_refuted_small {Cd dch : Nat} (ha : IsImage8 m pa R1 C1 ch a) (hb : IsImage8 m pb R2 C2 ch b) (hd : IsImage8 m pd Rd Cd dch old)
    (hs : Rd * Cd * dch < min R1 R2 * min C1 C2 * ch) (hz : min R1 R2 * min C1 C2 * ch ≤ 2147483647) :
    simple_mat_addition_uchar (some pa) (some pb) (some pd) m = .error (.ub .oob) := by
  obtain ⟨ad, a0, a1, a2, _, a3, a4⟩ := img8_open ha
  obtain ⟨bd, b0, b1, b2, _, b3, b4⟩ := img8_open hb
  obtain ⟨dd, d0, d1, d2, _, d3, d4⟩ := img8_open hd
  have n1 : min R1 R2 * min C1 C2 * ch ≤ R1 * C1 * ch := Nat.mul_le_mul_right _ (Nat.mul_le_mul (Nat.min_le_left _ _) (Nat.min_le_left _ _))
  have n2 : min R1 R2 * min C1 C2 * ch ≤ R2 * C2 * ch := Nat.mul_le_mul_right _ (Nat.mul_le_mul (Nat.min_le_right _ _) (Nat.min_le_right _ _))
  exact add_uchar_small a0 b0 d0 ⟨_, a4⟩ ⟨_, b4⟩ ⟨_, d4⟩ a1 a2 a3 b1 b2 b3 n1 n2 hs hz

/-- **C117 is false** of images of other types: the type is not tested.  For images of one size whose elements have `E` bytes, the first
`R * C * ch` bytes of the storage are added one by one: with `E` > 1 the last pixel of the destination keeps its old bytes, and byte `t`
of the first element is the sum modulo 256 of the two bytes `t`, without the carry between the bytes. -/
theorem C117_refuted_type {R E : Nat} {dt : Int} {a b old : Nat → Nat → Nat → Nat → UInt8} (ha : IsImage m pa R C dt ch E a)
    (hb : IsImage m pb R C dt ch E b) (hd : IsImage m pd R C dt ch E old) (hE : 1 < E) (hz : R * C * ch ≤ 2147483647) :
    ∃ m' out, simple_mat_addition_uchar (some pa) (some pb) (some pd) m = .ok ((), m') ∧ IsImage m' pd R C dt ch E out ∧
      (∀ t, t < E → t < R * C * ch → out 0 0 0 t = a 0 0 0 t + b 0 0 0 t) ∧
      out (R - 1) (C - 1) (ch - 1) (E - 1) = old (R - 1) (C - 1) (ch - 1) (E - 1) := by
  obtain ⟨ad, a0, a1, a2, _, a3, _, a4⟩ := img_open ha
  obtain ⟨bd, b0, b1, b2, _, b3, _, b4⟩ := img_open hb
  obtain ⟨dd, d0, d1, d2, _, d3, _, d4⟩ := img_open hd
  have pR := ha.posR
  have pC := ha.posC
  have pc := ha.posCh
  have n1 : R * C * ch ≤ R * C * ch * E := Nat.le_mul_of_pos_right _ (by omega)
  have run := add_uchar_run (R1 := R) (R2 := R) (C1 := C) (C2 := C) (ch := ch) a0 b0 d0 a4 b4 d4 a1 a2 a3 b1 b2 b3
    (by rw [Nat.min_self, Nat.min_self]; exact n1) (by rw [Nat.min_self, Nat.min_self]; exact n1) (by rw [Nat.min_self, Nat.min_self]; exact n1)
    (by rw [Nat.min_self, Nat.min_self]; omega)
  rw [Nat.min_self, Nat.min_self] at run
  obtain ⟨o1, o2⟩ := img_put (px' := fun i j c t => addMix8 (R * C * ch) (imgBytes C ch E a) (imgBytes C ch E b) (imgBytes C ch E old)
    (((i * C + j) * ch + c) * E + t)) hd d0 (fun _ _ _ _ _ _ _ _ => rfl)
  refine ⟨_, _, run, o1, ?_, ?_⟩
  · intro t ht hlt
    show addMix8 _ _ _ _ _ = _
    unfold addMix8
    rw [imgBytes_at pC pc ht, imgBytes_at pC pc ht, if_pos (by simpa using hlt)]
  · show addMix8 _ _ _ _ _ = _
    unfold addMix8
    rw [imgBytes_at (by omega) (by omega) (by omega), imgBytes_at (C := C) (by omega) (by omega) (by omega),
      imgBytes_at (C := C) (by omega) (by omega) (by omega), if_neg]
    have e1 : (R - 1) * C + (C - 1) + 1 = R * C := by
      obtain ⟨r, rfl⟩ : ∃ r, R = r + 1 := ⟨R - 1, by omega⟩
      rw [Nat.succ_mul, Nat.add_sub_cancel]; omega
    have e2 : ((R - 1) * C + (C - 1)) * ch + (ch - 1) + 1 = R * C * ch := by
      rw [← e1, Nat.succ_mul]; omega
    have e3 : (((R - 1) * C + (C - 1)) * ch + (ch - 1)) * E + (E - 1) + 1 = R * C * ch * E := by
      rw [← e2, Nat.succ_mul]; omega
    have p1 : 0 < R * C * ch := Nat.mul_pos (Nat.mul_pos pR pC) pc
    have e4 : R * C * ch * 2 ≤ R * C * ch * E := Nat.mul_le_mul_left _ hE
    omega

end

/-! ### The hypotheses can be met -/

/-- 200 in a 3 x 2 image with two channels, 100 in a 2 x 2 image, which is also the destination; the sums are over 255 -/
example : ∃ m pa pb, ByteAddArgs m pa pb pb 3 2 2 2 2 (fun _ _ _ => 200) (fun _ _ _ => 100) (fun _ _ _ => 100) := by
  have i1 : IsImage8 (Mem.empty.newImage 3 2 1 2 1 (imgBytes 2 2 1 fun _ _ _ _ => 200)) (Mem.empty.next + 1) 3 2 2 (fun _ _ _ => 200) :=
    newImage_isImage rfl (by decide) (by decide) (by decide)
  have i2 : IsImage8 ((Mem.empty.newImage 3 2 1 2 1 (imgBytes 2 2 1 fun _ _ _ _ => 200)).newImage 2 2 1 2 1 (imgBytes 2 2 1 fun _ _ _ _ => 100))
      ((Mem.empty.newImage 3 2 1 2 1 (imgBytes 2 2 1 fun _ _ _ _ => 200)).next + 1) 2 2 2 (fun _ _ _ => 100) :=
    newImage_isImage rfl (by decide) (by decide) (by decide)
  exact ⟨_, _, _, img_frame (newImage_WF empty_WF) i1 (newImage_frame _), i2, i2, by decide, by decide⟩

/-- byte operands of widths 3 and 2 and a destination with one element -/
example : ∃ m pa pb pd, IsImage8 m pa 2 3 1 (fun _ _ _ => 5) ∧ IsImage8 m pb 2 2 1 (fun _ _ _ => 6) ∧ IsImage8 m pd 1 1 1 (fun _ _ _ => 7) := by
  have i1 : IsImage8 (Mem.empty.newImage 2 3 1 1 1 (imgBytes 3 1 1 fun _ _ _ _ => 5)) _ 2 3 1 (fun _ _ _ => 5) :=
    newImage_isImage rfl (by decide) (by decide) (by decide)
  have w1 : (Mem.empty.newImage 2 3 1 1 1 (imgBytes 3 1 1 fun _ _ _ _ => 5)).WF := newImage_WF empty_WF
  have i2 : IsImage8 ((Mem.empty.newImage 2 3 1 1 1 (imgBytes 3 1 1 fun _ _ _ _ => 5)).newImage 2 2 1 1 1 (imgBytes 2 1 1 fun _ _ _ _ => 6)) _ 2 2 1
      (fun _ _ _ => 6) := newImage_isImage rfl (by decide) (by decide) (by decide)
  have w2 : ((Mem.empty.newImage 2 3 1 1 1 (imgBytes 3 1 1 fun _ _ _ _ => 5)).newImage 2 2 1 1 1 (imgBytes 2 1 1 fun _ _ _ _ => 6)).WF := newImage_WF w1
  have i3 : IsImage8 (((Mem.empty.newImage 2 3 1 1 1 (imgBytes 3 1 1 fun _ _ _ _ => 5)).newImage 2 2 1 1 1 (imgBytes 2 1 1 fun _ _ _ _ => 6)).newImage
      1 1 1 1 1 (imgBytes 1 1 1 fun _ _ _ _ => 7)) _ 1 1 1 (fun _ _ _ => 7) := newImage_isImage rfl (by decide) (by decide) (by decide)
  exact ⟨_, _, _, _, img_frame w2 (img_frame w1 i1 (newImage_frame _)) (newImage_frame _), img_frame w2 i2 (newImage_frame _), i3⟩

end HyperCV
