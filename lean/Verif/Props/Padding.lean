/- C22: padding. -/
import Verif.Proof.Padding
import Verif.Props.Image

namespace HyperCV
open Spec

/-- how an image is continued outside: by one of the documented extensions, or by a constant -/
inductive Border where
  | ext (e : Extension)
  | const

/-- the border code passed to `hypercv_copy_make_border` (type.h:82-86) -/
def Border.code : Border → Int
  | ext e => e.code
  | const => 0

/-- the pixel at row `y`, column `x` (possibly outside) of the image `px` of size `R` x `C` continued by `b` -/
def Border.pixel (b : Border) (R C : Nat) (value : UInt8) (px : Nat → Nat → Nat → UInt8) (y x : Int) (c : Nat) :
    UInt8 :=
  match b with
  | ext e => px (e.index y R).toNat (e.index x C).toNat c
  | const => if 0 ≤ y ∧ y < R ∧ 0 ≤ x ∧ x < C then px y.toNat x.toNat c else value

theorem index_in (e : Extension) {p : Int} {len : Nat} (h0 : 0 ≤ p) (h1 : p < len) : e.index p len = p := by
  cases e with
  | replicate => simp [Extension.index]; omega
  | wrap => exact Int.emod_eq_of_lt h0 h1
  | reflect =>
    simp only [Extension.index]
    rw [Int.emod_eq_of_lt h0 (by omega), if_pos h1]
  | reflect101 =>
    simp only [Extension.index]
    by_cases h : (len:Int) = 1
    · rw [if_pos h]; omega
    · rw [if_neg h]
      rw [Int.emod_eq_of_lt h0 (by omega), if_pos h1]

theorem border_pixel_in (b : Border) {R C : Nat} {value : UInt8} {px : Nat → Nat → Nat → UInt8} {i j c : Nat}
    (hi : i < R) (hj : j < C) : b.pixel R C value px i j c = px i j c := by
  cases b with
  | ext e =>
    show px _ _ _ = _
    rw [index_in e (by omega) (by omega), index_in e (by omega) (by omega)]
    rfl
  | const =>
    show (if _ then _ else _) = _
    rw [if_pos (by omega)]; rfl

/-- **C22**, byte images: for every image, all margins and every border type the result is a fresh image
enlarged by the margins whose pixel (i, j) is the pixel (i - top, j - left) of the source continued by the
border rule; nothing else changes.
Missing from the full property: elements of several bytes, see `C22_refuted`. -/
theorem C22_pad_partial {m : Mem} (hm : m.WF) {sp R C ch top bottom left right : Nat}
    {px : Nat → Nat → Nat → UInt8} (b : Border) (value : UInt8) (hs : IsImage8 m sp R C ch px)
    (hN : (R + top + bottom) * (C + left + right) * ch ≤ 2147483551) :
    ∃ q m', hypercv_copy_make_border (some sp) top bottom left right b.code value m = .ok (some q, m') ∧
      IsImage8 m' q (R + top + bottom) (C + left + right) ch
        (fun i j c => b.pixel R C value px ((i:Int) - top) ((j:Int) - left) c) ∧
      FreshImg m m' q ∧ Frame m m' ∧ m'.WF := by
  have pR := hs.posR
  have pC := hs.posC
  by_cases hz : ((top:Int) = 0 ∧ (left:Int) = 0 ∧ (bottom:Int) = 0 ∧ (right:Int) = 0)
  · obtain ⟨z1, z2, z3, z4⟩ := hz
    obtain rfl : top = 0 := by omega
    obtain rfl : left = 0 := by omega
    obtain rfl : bottom = 0 := by omega
    obtain rfl : right = 0 := by omega
    have hc := copy_sm_ok hm hs (by simpa using hN)
    refine ⟨m.next + 1, m.newImage R C 1 ch 1 (imgBytes C ch 1 fun i j c _ => px i j c), ?_, ?_,
      newImage_fresh m, newImage_frame m, newImage_WF hm⟩
    · unfold hypercv_copy_make_border
      have c2 : decide (b.code = 2 ∨ b.code = 4 ∨ b.code = 1 ∨ b.code = 3 ∨ b.code = 0) = true := by
        cases b with
        | ext e => cases e <;> decide
        | const => decide
      rw [nonNull_some, c2]
      exact hc
    · refine img8_congr (newImage_isImage (m := m) (px := fun i j c _ => px i j c) rfl pR pC hs.posCh) ?_
      intro i j c hi hj hc
      have := border_pixel_in b (value := value) (px := px) (c := c) hi hj
      simpa using this.symm
  · cases b with
    | ext e =>
      refine ⟨_, _, pad_run hm e value hs hN hz, ?_, newImage_fresh m, newImage_frame m, newImage_WF hm⟩
      exact newImage_isImage rfl (by omega) (by omega) hs.posCh
    | const =>
      refine ⟨_, _, padc_run hm value hs hN hz, ?_, newImage_fresh m, newImage_frame m, newImage_WF hm⟩
      refine img8_congr (newImage_isImage (m := m)
        (px := fun i j c _ => padConst R C top left value px i j c) rfl (by omega) (by omega) hs.posCh) ?_
      intro i j c hi hj hc
      show padConst R C top left value px i j c = if _ then _ else _
      unfold padConst
      by_cases h : top ≤ i ∧ i < top + R ∧ left ≤ j ∧ j < left + C
      · rw [if_pos h, if_pos (by omega)]
        have e1 : ((i:Int) - top).toNat = i - top := by omega
        have e2 : ((j:Int) - left).toNat = j - left := by omega
        rw [e1, e2]
      · rw [if_neg h, if_neg (by omega)]

/-- **C22**: the interior of the padded image is the source. -/
theorem C22_interior (b : Border) {R C top left : Nat} {value : UInt8} {px : Nat → Nat → Nat → UInt8} {i j c : Nat}
    (hi : i < R) (hj : j < C) :
    b.pixel R C value px (((top + i : Nat) : Int) - top) (((left + j : Nat) : Int) - left) c = px i j c := by
  have e1 : (((top + i : Nat) : Int) - top) = i := by omega
  have e2 : (((left + j : Nat) : Int) - left) = j := by omega
  rw [e1, e2, border_pixel_in b hi hj]

example : (demoImgs 2).WF ∧ IsImage8 (demoImgs 2) 1 2 3 2 (fun i j c => demoPx i j c 0) ∧
    (2 + 1 + 4) * (3 + 2 + 7) * 2 ≤ 2147483551 :=
  ⟨demoImgs_WF 2, demoImgs_src (by decide), by decide⟩

/-- **C22**: negative margins and unknown border types are refused. -/
theorem C22_refused {m : Mem} {sp : Nat} {top bottom left right t : Int} {value : UInt8}
    (h : top < 0 ∨ bottom < 0 ∨ left < 0 ∨ right < 0 ∨ ¬ (0 ≤ t ∧ t ≤ 4)) :
    hypercv_copy_make_border (some sp) top bottom left right t value m = .error .exit := by
  unfold hypercv_copy_make_border
  rw [nonNull_some]
  by_cases h1 : left ≥ 0 ∧ right ≥ 0 ∧ top ≥ 0 ∧ bottom ≥ 0
  · have c1 : decide (left ≥ 0 ∧ right ≥ 0 ∧ top ≥ 0 ∧ bottom ≥ 0) = true := decide_eq_true h1
    have c2 : decide (t = 2 ∨ t = 4 ∨ t = 1 ∨ t = 3 ∨ t = 0) = false := decide_eq_false (by omega)
    rw [c1, c2]; rfl
  · rw [decide_eq_false h1]; rfl

/-- a 1x1 image of one 16-bit element `0x0201` -/
def demoWide : Mem := Mem.empty.newImage 1 1 2 1 2 (imgBytes 1 1 2 (fun _ _ _ t => UInt8.ofNat (t + 1)))

/-- **C22 refuted** for elements of more than one byte: only one byte per element is copied, so already the
interior of a padded 16-bit image differs from the source. -/
theorem C22_refuted : ¬ (∀ (m : Mem) (sp R C ch E : Nat) (dt : Int) (px : Nat → Nat → Nat → Nat → UInt8),
    m.WF → IsImage m sp R C dt ch E px → (R + 0 + 1) * (C + 0 + 0) * ch * E ≤ 2147483551 →
    ∃ q m' px', hypercv_copy_make_border (some sp) 0 1 0 0 1 0 m = .ok (some q, m') ∧
      IsImage m' q (R + 0 + 1) (C + 0 + 0) dt ch E px' ∧
      ∀ i j c t, i < R → j < C → c < ch → t < E → px' i j c t = px i j c t) := by
  intro h
  obtain ⟨q, m', px', h1, h2, h3⟩ := h demoWide 1 1 1 1 2 2 (fun _ _ _ t => UInt8.ofNat (t + 1))
    (newImage_WF empty_WF) (newImage_isImage rfl (by decide) (by decide) (by decide)) (by decide)
  have h4 : imgAfter (hypercv_copy_make_border (some 1) 0 1 0 0 1 0) demoWide = some [1, 1, 0, 0] := by
    decide +kernel
  have k4 := imgAfter_at h1 h2 h4 (i := 0) (j := 0) (c := 0) (t := 1) (by decide) (by decide) (by decide) (by decide)
  rw [h3 0 0 0 1 (by decide) (by decide) (by decide) (by decide)] at k4
  revert k4
  decide

/-! ### C54 -/

/-- **C54**: copying an image yields a fresh image with the same header fields and identical element bytes, for
every data type and channel count, whatever the heap contained; nothing else changes, so later changes to
either image do not affect the other. -/
theorem C54_image_copy {m : Mem} (hm : m.WF) {p R C ch E : Nat} {dt : Int} {px : Nat → Nat → Nat → Nat → UInt8}
    (h : IsImage m p R C dt ch E px) (hN : R * C * ch * E ≤ 2147483551) :
    ∃ q m', simple_mat_copy (some p) m = .ok (some q, m') ∧ IsImage m' q R C dt ch E px ∧
      IsImage m' p R C dt ch E px ∧ FreshImg m m' q ∧ Frame m m' ∧ SepPixels m' p q ∧ m'.WF := by
  refine ⟨_, _, copy_sm_ok hm h hN, newImage_isImage h.size h.posR h.posC h.posCh,
    img_frame hm h (newImage_frame m), newImage_fresh m, newImage_frame m, ?_, newImage_WF hm⟩
  obtain ⟨hdr, h1, -, -, -, -, -, h7⟩ := img_open h
  rintro x ⟨⟨a, a1, rfl⟩, ⟨b, b1, b2⟩⟩
  have hp := img_lt_next hm h
  rw [newImage_sm_old m (by omega), h1] at a1
  cases a1
  rw [newImage_sm] at b1
  cases b1
  have := h7.lt_next hm
  simp only [newSHdr] at b2
  omega

example : demoWide.WF ∧ IsImage demoWide 1 1 1 2 1 2 (fun _ _ _ t => UInt8.ofNat (t + 1)) ∧ 1 * 1 * 1 * 2 ≤ 2147483551 :=
  ⟨newImage_WF empty_WF, newImage_isImage rfl (by decide) (by decide) (by decide), by decide⟩

/-- **C54**: a NULL image is dereferenced. -/
theorem C54_null (m : Mem) : simple_mat_copy none m = .error (.ub .nullDeref) := rfl

end HyperCV
