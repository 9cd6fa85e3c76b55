/- C31, C32, C59, C60: BMP files. -/
import Verif.Proof.Bmp
import Verif.Props.Image

namespace HyperCV
open Spec

/-! ### C31 -/

/-- **C31**, colour: reading back the file written for a 3-channel byte image returns an image with the size and
the pixels the image had before the write, whatever the contents of uninitialised memory and whatever the memory
`m2` in which the file is read.  Nothing else is left allocated by the read. -/
theorem C31_roundtrip {m : Mem} (hm : m.WF) {p R C : Nat} {px : Nat → Nat → Nat → UInt8} (h : IsImage8 m p R C 3 px)
    (hC : 24 * C ≤ 2147483647) (hN : R * bmpStride C ≤ 2147483551) :
    ∃ file m1, smwrite_bmp (some p) m = .ok (file, m1) ∧ ∀ m2 : Mem, m2.WF →
      ∃ q m3, smread_bmp file m2 = .ok (some q, m3) ∧ IsImage8 m3 q R C 3 px ∧ FreshImg m2 m3 q ∧ Frame m2 m3 ∧ m3.WF ∧
        ∀ x, ¬ OwnsImg m3 q x → m3.blk x = m2.blk x ∧ m3.hm x = m2.hm x ∧ m3.sm x = m2.sm x := by
  obtain ⟨file, m1, h1, h2, -, -⟩ := smwrite_run hm h hC hN
  refine ⟨file, m1, h1, ?_⟩
  intro m2 hm2
  obtain ⟨m3, r1, r2, r3, r4, r5, r6⟩ := smread_run hm2 h.posR h.posC hC hN h2
  exact ⟨_, m3, r1, img8_congr r2 (fun i j c hi _ hc => bmpFlip_flip hi hc), r3, r4, r5, r6⟩

/-- **C31**, grey: reading back the file written for a 1-channel byte image returns the image replicated over
three channels. -/
theorem C31_roundtrip_gray {m : Mem} (hm : m.WF) {p R C : Nat} {px : Nat → Nat → Nat → UInt8}
    (h : IsImage8 m p R C 1 px) (hC : 24 * C ≤ 2147483647) (hN : R * bmpStride C ≤ 2147483551) :
    ∃ file m1, smwrite_bmp (some p) m = .ok (file, m1) ∧ ∀ m2 : Mem, m2.WF →
      ∃ q m3, smread_bmp file m2 = .ok (some q, m3) ∧ IsImage8 m3 q R C 3 (fun i j _ => px i j 0) ∧
        FreshImg m2 m3 q ∧ Frame m2 m3 ∧ m3.WF := by
  obtain ⟨file, m1, h1, h2, -⟩ := smwrite_gray_run hm h hC hN
  refine ⟨file, m1, h1, ?_⟩
  intro m2 hm2
  obtain ⟨m3, r1, r2, r3, r4, r5, r6⟩ := smread_run hm2 h.posR h.posC hC hN h2
  refine ⟨_, m3, r1, img8_congr r2 (fun i j c hi _ hc => ?_), r3, r4, r5⟩
  rw [bmpFlip_flip hi hc]

example : (demoImgs 3).WF ∧ IsImage8 (demoImgs 3) 1 2 3 3 (fun i j c => demoPx i j c 0) ∧ 24 * 3 ≤ 2147483647 ∧
    2 * bmpStride 3 ≤ 2147483551 ∧ bmpStride 3 ≠ 3 * 3 :=
  ⟨demoImgs_WF 3, demoImgs_src (by decide), by decide, by decide, by decide⟩

example : (demoImgs 1).WF ∧ IsImage8 (demoImgs 1) 1 2 3 1 (fun i j c => demoPx i j c 0) ∧ 24 * 3 ≤ 2147483647 ∧
    2 * bmpStride 3 ≤ 2147483551 :=
  ⟨demoImgs_WF 1, demoImgs_src (by decide), by decide, by decide⟩

/-! ### C32 -/

/-- **C32** (partial): for an image with three channels and an even number of rows the file is a BMP file with the
rows bottom-up and the colours in the order blue, green, red; only the pixels of the image are modified by the
write.  Missing: odd heights and the preservation of the image, see `C32_refuted_order`, `C32_refuted_source`. -/
theorem C32_even_partial {m : Mem} (hm : m.WF) {p R C : Nat} {px : Nat → Nat → Nat → UInt8}
    (h : IsImage8 m p R C 3 px) (hC : 24 * C ≤ 2147483647) (hN : R * bmpStride C ≤ 2147483551) (heven : R % 2 = 0) :
    ∃ file m1, smwrite_bmp (some p) m = .ok (file, m1) ∧ IsBmp24 file R C (bottomUpBgr R px) ∧ OnlyPixels m m1 p := by
  obtain ⟨file, m1, h1, h2, -, h4⟩ := smwrite_run hm h hC hN
  refine ⟨file, m1, h1, ?_, h4⟩
  have e : bmpFlip R px = bottomUpBgr R px := by
    funext r j k
    unfold bmpFlip bottomUpBgr
    rw [if_pos (by omega)]
  rw [← e]; exact h2

example : (demoImgs 3).WF ∧ IsImage8 (demoImgs 3) 1 2 3 3 (fun i j c => demoPx i j c 0) ∧ 2 % 2 = 0 :=
  ⟨demoImgs_WF 3, demoImgs_src (by decide), rfl⟩

/-- **C32** for 1-channel images, of any height: the file is the BMP file of the replicated image and no existing
object is modified. -/
theorem C32_gray {m : Mem} (hm : m.WF) {p R C : Nat} {px : Nat → Nat → Nat → UInt8}
    (h : IsImage8 m p R C 1 px) (hC : 24 * C ≤ 2147483647) (hN : R * bmpStride C ≤ 2147483551) :
    ∃ file m1, smwrite_bmp (some p) m = .ok (file, m1) ∧ IsBmp24 file R C (bottomUpBgr R (fun i j _ => px i j 0)) ∧
      Frame m m1 ∧ IsImage8 m1 p R C 1 px := by
  obtain ⟨file, m1, h1, h2, h3, -, -, -⟩ := smwrite_gray_run hm h hC hN
  refine ⟨file, m1, h1, ?_, h3, img_frame hm h h3⟩
  have hp := h2.pixel
  refine { h2 with pixel := ?_ }
  intro r j k hr hj hk
  rw [hp r j k hr hj hk]
  unfold bmpFlip bottomUpBgr
  split
  · rfl
  · beta_reduce
    rw [show R - 1 - r = r by omega]

/-- what a write does to a 3-channel image: its rows are exchanged and its channels reversed (except for the middle
row of an odd height) -/
theorem C32_source_after_partial {m : Mem} (hm : m.WF) {p R C : Nat} {px : Nat → Nat → Nat → UInt8}
    (h : IsImage8 m p R C 3 px) (hC : 24 * C ≤ 2147483647) (hN : R * bmpStride C ≤ 2147483551) :
    ∃ file m1, smwrite_bmp (some p) m = .ok (file, m1) ∧ OnlyPixels m m1 p ∧ IsImage8 m1 p R C 3
      (fun i j c => if i < R / 2 ∨ R - R / 2 ≤ i then px (R - 1 - i) j (2 - c) else px i j c) := by
  obtain ⟨file, m1, h1, -, h3, h4⟩ := smwrite_run hm h hC hN
  exact ⟨file, m1, h1, h4, h3⟩

/-- **C32 is false**: writing any 3-channel image whose first red and last blue corner values differ modifies the
image. -/
theorem C32_refuted_source {m : Mem} (hm : m.WF) {p R C : Nat} {px : Nat → Nat → Nat → UInt8}
    (h : IsImage8 m p R C 3 px) (hC : 24 * C ≤ 2147483647) (hN : R * bmpStride C ≤ 2147483551) (hR : 2 ≤ R)
    (hne : px 0 0 0 ≠ px (R - 1) 0 2) :
    ∃ file m1, smwrite_bmp (some p) m = .ok (file, m1) ∧ ¬ IsImage8 m1 p R C 3 px := by
  obtain ⟨file, m1, h1, -, h3, -⟩ := smwrite_run hm h hC hN
  refine ⟨file, m1, h1, fun h4 => hne ?_⟩
  have := img_unique h4 h3 0 0 0 0 (by omega) h.posC (by decide) (by decide)
  simp only [bmpFlip] at this
  rw [if_pos (by omega)] at this
  exact this

example : ∃ file m1, smwrite_bmp (some 1) (demoImgs 3) = .ok (file, m1) ∧
    ¬ IsImage8 m1 1 2 3 3 (fun i j c => demoPx i j c 0) :=
  C32_refuted_source (demoImgs_WF 3) (demoImgs_src (by decide)) (by decide) (by decide) (by decide) (by decide)

/-- **C32 is false**: for an odd height the middle row is written in the order red, green, blue. -/
theorem C32_refuted_order {m : Mem} (hm : m.WF) {p R C : Nat} {px : Nat → Nat → Nat → UInt8}
    (h : IsImage8 m p R C 3 px) (hC : 24 * C ≤ 2147483647) (hN : R * bmpStride C ≤ 2147483551) (hR : R % 2 = 1)
    (hne : px (R / 2) 0 0 ≠ px (R / 2) 0 2) :
    ∃ file m1, smwrite_bmp (some p) m = .ok (file, m1) ∧ ¬ IsBmp24 file R C (bottomUpBgr R px) := by
  obtain ⟨file, m1, h1, h2, -, -⟩ := smwrite_run hm h hC hN
  refine ⟨file, m1, h1, fun h4 => hne ?_⟩
  have a := h2.pixel (R / 2) 0 0 (by omega) h.posC (by decide)
  have b := h4.pixel (R / 2) 0 0 (by omega) h.posC (by decide)
  rw [a] at b
  simp only [bmpFlip, bottomUpBgr, Option.some.injEq] at b
  rw [if_neg (by omega), show R - 1 - R / 2 = R / 2 by omega] at b
  exact b

/-- a 1 x 2 colour image -/
def demoOdd : Mem := Mem.empty.newImage 1 2 1 3 1 (imgBytes 2 3 1 demoPx)

example : ∃ file m1, smwrite_bmp (some 1) demoOdd = .ok (file, m1) ∧
    ¬ IsBmp24 file 1 2 (bottomUpBgr 1 (fun i j c => demoPx i j c 0)) :=
  C32_refuted_order (newImage_WF empty_WF) (img_congr (newImage_isImage (m := Mem.empty) (px := demoPx) rfl (by decide)
    (by decide) (by decide)) (fun i j c t _ _ _ ht => by
      have : t = 0 := by omega
      subst this; rfl)) (by decide) (by decide) (by decide) (by decide)

/-! ### C59 -/

/-- **C59** (partial): writing a 3-channel image leaves nothing allocated. -/
theorem C59_write_partial {m : Mem} (hm : m.WF) {p R C : Nat} {px : Nat → Nat → Nat → UInt8}
    (h : IsImage8 m p R C 3 px) (hC : 24 * C ≤ 2147483647) (hN : R * bmpStride C ≤ 2147483551) :
    ∃ file m1, smwrite_bmp (some p) m = .ok (file, m1) ∧ ∀ x, m.next ≤ x → m1.blk x = none ∧ m1.sm x = none ∧
      m1.hm x = none := by
  obtain ⟨file, m1, h1, -, -, h4⟩ := smwrite_run hm h hC hN
  refine ⟨file, m1, h1, ?_⟩
  intro x hx
  obtain ⟨a1, a2, a3⟩ := hm x hx
  have : ¬ PixelBlock m p x := by
    rintro ⟨hdr, q1, rfl⟩
    obtain ⟨hdr', q2, _, _, _, _, q7⟩ := img8_open h
    rw [q1] at q2
    cases q2
    have := q7.lt_next hm
    omega
  rw [h4.2.2.2 x this, h4.1, h4.2.1]
  exact ⟨a1, a3, a2⟩

/-- **C59 is false**: every write of a 1-channel image leaves a new 3-channel image allocated to which the caller
has no pointer. -/
theorem C59_refuted {m : Mem} (hm : m.WF) {p R C : Nat} {px : Nat → Nat → Nat → UInt8}
    (h : IsImage8 m p R C 1 px) (hC : 24 * C ≤ 2147483647) (hN : R * bmpStride C ≤ 2147483551) :
    ∃ file m1, smwrite_bmp (some p) m = .ok (file, m1) ∧ ∃ q px', m.next ≤ q ∧ IsImage8 m1 q R C 3 px' := by
  obtain ⟨file, m1, h1, -, -, -, -, h7⟩ := smwrite_gray_run hm h hC hN
  exact ⟨file, m1, h1, _, _, Nat.le_succ _, h7⟩

/-! ### C60 -/

/-- **C60** (partial): reading any uncompressed 24-bit file with an even number of rows returns the image it
describes.  Missing: odd heights (`C60_refuted_odd`) and other bit depths (`C60_refuted_8bit`). -/
theorem C60_read24_partial {m : Mem} (hm : m.WF) {file : List UInt8} {R C : Nat} {px : Nat → Nat → Nat → UInt8}
    (hR : 0 < R) (hC0 : 0 < C) (hC : 24 * C ≤ 2147483647) (hN : R * bmpStride C ≤ 2147483551) (heven : R % 2 = 0)
    (h : IsBmp24 file R C (bottomUpBgr R px)) : NewImage8 m (smread_bmp file m) R C 3 px := by
  obtain ⟨m', r1, r2, r3, r4, r5, -⟩ := smread_run hm hR hC0 hC hN h
  refine ⟨_, m', r1, img8_congr r2 ?_, r3, r4, r5⟩
  intro i j c hi hj hc
  unfold bmpFlip bottomUpBgr
  rw [if_pos (by omega), show R - 1 - (R - 1 - i) = i by omega, show 2 - (2 - c) = c by omega]

/-- there are such files: the ones written by `smwrite_bmp` -/
example : ∃ file, IsBmp24 file 2 3 (bottomUpBgr 2 (fun i j c => demoPx i j c 0)) := by
  obtain ⟨file, _, _, h, _⟩ := C32_even_partial (demoImgs_WF 3) (demoImgs_src (ch := 3) (by decide)) (by decide) (by decide) rfl
  exact ⟨file, h⟩

/-- **C60 is false**: the middle row of an odd number of rows comes out with red and blue exchanged. -/
theorem C60_refuted_odd {m : Mem} (hm : m.WF) {file : List UInt8} {R C : Nat} {px : Nat → Nat → Nat → UInt8}
    (hR : R % 2 = 1) (hC0 : 0 < C) (hC : 24 * C ≤ 2147483647) (hN : R * bmpStride C ≤ 2147483551)
    (h : IsBmp24 file R C (bottomUpBgr R px)) (hne : px (R / 2) 0 0 ≠ px (R / 2) 0 2) :
    ∃ q m', smread_bmp file m = .ok (some q, m') ∧ ¬ IsImage8 m' q R C 3 px := by
  obtain ⟨m', r1, r2, r3, r4, r5, -⟩ := smread_run hm (by omega) hC0 hC hN h
  refine ⟨_, m', r1, fun h4 => hne ?_⟩
  have := img_unique h4 r2 (R / 2) 0 0 0 (by omega) hC0 (by decide) (by decide)
  simp only [bmpFlip, bottomUpBgr] at this
  rw [if_neg (by omega), show R - 1 - R / 2 = R / 2 by omega] at this
  exact this

/-- **C60 is false**: reading a file with 8 bits per pixel, of at least 2 x 2 pixels, always accesses memory outside
the pixel buffer. -/
theorem C60_refuted_8bit {m : Mem} {file : List UInt8} {R C : Nat} (hlen : 54 ≤ file.length)
    (hw : FieldLE file 18 4 C) (hh : FieldLE file 22 4 R) (hb : FieldLE file 28 2 8) (hR : 2 ≤ R) (hC : 2 ≤ C)
    (hN : R * (3 * C + 3) ≤ 2147483647) (h8 : 8 * C ≤ 2147483647) :
    smread_bmp file m = .error (.ub .oob) :=
  smread8_oob hlen hw hh hb hR hC hN h8

/-- the headers of a 4 x 2 image with 8 bits per pixel -/
def demoHdr8 : List UInt8 :=
  [0x42, 0x4D, 62, 4, 0, 0, 0, 0, 0, 0, 54, 4, 0, 0, 40, 0, 0, 0, 4, 0, 0, 0, 2, 0, 0, 0, 1, 0, 8, 0] ++
  List.replicate 1056 0

example : 54 ≤ demoHdr8.length ∧ FieldLE demoHdr8 18 4 4 ∧ FieldLE demoHdr8 22 4 2 ∧ FieldLE demoHdr8 28 2 8 := by
  refine ⟨by decide +kernel, ⟨by decide, ?_⟩, ⟨by decide, ?_⟩, ⟨by decide, ?_⟩⟩ <;> decide +kernel

end HyperCV
