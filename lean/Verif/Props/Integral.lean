/- C33: integral images. -/
import Verif.Proof.Integral
import Verif.Props.Image

namespace HyperCV
open Spec Finset

namespace Spec
/-- the sum of channel 0 over rows `r0 .. r1-1` and columns `c0 .. c1-1` -/
def rectSum (px : Nat → Nat → Nat → UInt8) (r0 r1 c0 c1 : Nat) : ℤ :=
  ∑ a ∈ Ico r0 r1, ∑ b ∈ Ico c0 c1, ((px a b 0).toNat : ℤ)

/-- a legal call: a one-channel byte image and a one-channel `int` image of the same size that do not share
their pixels; with at most 4194304 pixels no sum can leave the range of `int` -/
structure IntegralArgs (m : Mem) (sp dp R C : Nat) (px : Nat → Nat → Nat → UInt8) (old : Nat → Nat → Nat → Nat) : Prop where
  src : IsImage8 m sp R C 1 px
  dst : IsImageN m dp R C 3 1 4 old
  sep : SepPixels m sp dp
  size : R * C ≤ 4194304
end Spec

theorem integral_call {m : Mem} {sp dp R C : Nat} {px : Nat → Nat → Nat → UInt8} {old : Nat → Nat → Nat → Nat}
    (h : IntegralArgs m sp dp R C px old) :
    ∃ m', hypercv_integral (some sp) (some dp) m = .ok ((), m') ∧ IsImageN m' dp R C 3 1 4 (intB px) ∧ OnlyPixels m m' dp := by
  obtain ⟨sd, si, s1, s2⟩ := img8_lit h.src
  obtain ⟨dd, di, d1, d2⟩ := imgN_open h.dst
  have hput := imgN_put h.dst d1 (b := intB px) (fun i j c _ _ _ => bitsOf_lt 4 _)
  refine ⟨_, ?_, hput.1, hput.2⟩
  unfold hypercv_integral
  rw [nonNull_some, bind_ok (getS_ok s1),
    cassert_bind (by simp), cassert_bind (by simp)]
  show ((derefS (some dp)) >>= _) m = _
  rw [bind_ok (show derefS (some dp) m = _ from getS_ok d1), cassert_bind (by simp)]
  exact integral_run s2 d2 (sep_ne h.sep s1 d1) h.size

theorem intB_signed {px : Nat → Nat → Nat → UInt8} {R C i j c : Nat} (hi : i < R) (hj : j < C) (hN : R * C ≤ 4194304) :
    signed 4 (intB px i j c) = intF (fun a b => ((px a b 0).toNat : ℤ)) i j := by
  have hb : ∀ a b, (0:ℤ) ≤ ((px a b 0).toNat : ℤ) ∧ ((px a b 0).toNat : ℤ) ≤ 255 := by
    intro a b; have := (px a b 0).toNat_lt; omega
  have hNz : (R:ℤ) * C ≤ 4194304 := by exact_mod_cast hN
  have := intF_bounds hb hi hj
  exact bits_signed (by linarith [this.1]) (by linarith [this.2])

theorem rect_full (s : Nat → Nat → ℤ) (i j : Nat) :
    intF s i j + (∑ a ∈ range i, s a 0 + ∑ b ∈ range j, s 0 b) = ∑ a ∈ range (i+1), ∑ b ∈ range (j+1), s a b := by
  have e : ∀ a, ∑ b ∈ range (j+1), s a b = ∑ b ∈ range j, s a (b+1) + s a 0 := fun a => sum_range_succ' _ _
  rw [sum_range_succ', e 0]
  simp only [e]
  rw [sum_add_distrib]
  unfold intF
  have f1 : ∑ a ∈ range i, s (a+1) 0 + s 0 0 = ∑ a ∈ range i, s a 0 + s i 0 := by
    rw [← sum_range_succ' (fun a => s a 0), sum_range_succ]
  have f2 : ∑ b ∈ range j, s 0 (b+1) + s 0 0 = ∑ b ∈ range j, s 0 b + s 0 j := by
    rw [← sum_range_succ' (fun b => s 0 b), sum_range_succ]
  linarith

/-- **C33**, what the call computes: it returns normally, writes only the pixels of `dst`, and the value at
(`i`, `j`) is the rectangle sum over rows 0..`i` and columns 0..`j` short of the part of column 0 above row `i`
and the part of row 0 left of column `j`.
Missing from the full property: those two strips, see `C33_refuted`. -/
theorem C33_integral_partial {m : Mem} {sp dp R C : Nat} {px : Nat → Nat → Nat → UInt8} {old : Nat → Nat → Nat → Nat}
    (h : IntegralArgs m sp dp R C px old) :
    ∃ m' D, hypercv_integral (some sp) (some dp) m = .ok ((), m') ∧ IsImageN m' dp R C 3 1 4 D ∧ OnlyPixels m m' dp ∧
      ∀ i j, i < R → j < C → signed 4 (D i j 0) + (rectSum px 0 i 0 1 + rectSum px 0 1 0 j) = rectSum px 0 (i+1) 0 (j+1) := by
  obtain ⟨m', h1, h2, h3⟩ := integral_call h
  refine ⟨m', _, h1, h2, h3, ?_⟩
  intro i j hi hj
  rw [intB_signed hi hj h.size]
  unfold rectSum
  simp only [← range_eq_Ico, sum_range_one]
  exact rect_full _ i j

theorem rect_diff (s : Nat → Nat → ℤ) {a b i j : Nat} (ha : a ≤ i) (hb : b ≤ j) :
    intF s i j - intF s a j - intF s i b + intF s a b = ∑ r ∈ Ico (a+1) (i+1), ∑ c ∈ Ico (b+1) (j+1), s r c := by
  have e : ∀ r, ∑ c ∈ Ico (b+1) (j+1), s r c = ∑ c ∈ range j, s r (c+1) - ∑ c ∈ range b, s r (c+1) := by
    intro r
    rw [← sum_Ico_add' (fun c => s r c) b j 1, sum_Ico_eq_sub _ hb]
  simp only [e]
  rw [← sum_Ico_add' (fun r => ∑ c ∈ range j, s r (c+1) - ∑ c ∈ range b, s r (c+1)) a i 1, sum_Ico_eq_sub _ ha]
  simp only [sum_sub_distrib]
  unfold intF
  ring

/-- **C33**, four-corner difference: for every rectangle that does not touch row 0 or column 0 the difference of the
four corner values is exactly the sum of the source over it. -/
theorem C33_rectangle {m : Mem} {sp dp R C : Nat} {px : Nat → Nat → Nat → UInt8} {old : Nat → Nat → Nat → Nat}
    (h : IntegralArgs m sp dp R C px old) :
    ∃ m' D, hypercv_integral (some sp) (some dp) m = .ok ((), m') ∧ IsImageN m' dp R C 3 1 4 D ∧
      ∀ a i b j, a ≤ i → i < R → b ≤ j → j < C →
        signed 4 (D i j 0) - signed 4 (D a j 0) - signed 4 (D i b 0) + signed 4 (D a b 0)
          = rectSum px (a+1) (i+1) (b+1) (j+1) := by
  obtain ⟨m', h1, h2, h3⟩ := integral_call h
  refine ⟨m', _, h1, h2, ?_⟩
  intro a i b j ha hi hb hj
  rw [intB_signed hi hj h.size, intB_signed (i := a) (by omega) hj h.size, intB_signed (j := b) hi (by omega) h.size,
    intB_signed (i := a) (j := b) (by omega) (by omega) h.size]
  exact rect_diff _ ha hb

theorem rect_zero {px : Nat → Nat → Nat → UInt8} {r c : Nat} :
    rectSum px 0 r 0 1 + rectSum px 0 1 0 c = 0 ↔ (∀ a, a < r → px a 0 0 = 0) ∧ (∀ b, b < c → px 0 b 0 = 0) := by
  unfold rectSum
  simp only [← range_eq_Ico, sum_range_one]
  have z : ∀ x : UInt8, (x.toNat : ℤ) = 0 ↔ x = 0 := by
    intro x; constructor
    · intro h; exact UInt8.toNat_inj.mp (by exact_mod_cast h)
    · rintro rfl; rfl
  have n1 : 0 ≤ ∑ a ∈ range r, ((px a 0 0).toNat : ℤ) := sum_nonneg fun _ _ => by positivity
  have n2 : 0 ≤ ∑ b ∈ range c, ((px 0 b 0).toNat : ℤ) := sum_nonneg fun _ _ => by positivity
  constructor
  · intro h
    have z1 : ∑ a ∈ range r, ((px a 0 0).toNat : ℤ) = 0 := by linarith
    have z2 : ∑ b ∈ range c, ((px 0 b 0).toNat : ℤ) = 0 := by linarith
    rw [sum_eq_zero_iff_of_nonneg (fun _ _ => by positivity)] at z1 z2
    exact ⟨fun a ha => (z _).mp (z1 a (mem_range.mpr ha)), fun b hb => (z _).mp (z2 b (mem_range.mpr hb))⟩
  · rintro ⟨h1, h2⟩
    rw [sum_eq_zero (fun a ha => (z _).mpr (h1 a (mem_range.mp ha))),
      sum_eq_zero (fun b hb => (z _).mpr (h2 b (mem_range.mp hb)))]
    rfl

/-- C33 as stated is false: the value at (`i`, `j`) is the sum over rows 0..`i` and columns 0..`j` exactly when
column 0 is black above row `i` and row 0 is black left of column `j`. -/
theorem C33_refuted {m : Mem} {sp dp R C : Nat} {px : Nat → Nat → Nat → UInt8} {old : Nat → Nat → Nat → Nat}
    (h : IntegralArgs m sp dp R C px old) :
    ∃ m' D, hypercv_integral (some sp) (some dp) m = .ok ((), m') ∧ IsImageN m' dp R C 3 1 4 D ∧
      ∀ i j, i < R → j < C → (signed 4 (D i j 0) = rectSum px 0 (i+1) 0 (j+1) ↔
        (∀ a, a < i → px a 0 0 = 0) ∧ (∀ b, b < j → px 0 b 0 = 0)) := by
  obtain ⟨m', D, h1, h2, -, h3⟩ := C33_integral_partial h
  refine ⟨m', D, h1, h2, ?_⟩
  intro i j hi hj
  rw [← rect_zero, ← h3 i j hi hj]
  constructor <;> intro h <;> linarith

/-- Only byte images with one channel have an integral image: for all others the program ends. -/
theorem C33_other_images {m : Mem} {sp R C ch E : Nat} {dt : Int} {px : Nat → Nat → Nat → Nat → UInt8} (h : IsImage m sp R C dt ch E px)
    (hx : dt ≠ 1 ∨ ch ≠ 1) (dst : Option Nat) : hypercv_integral (some sp) dst m = .error .exit := by
  obtain ⟨hdr, f, h1, -, -, e1, e2, -, -, -⟩ := h.obj
  unfold hypercv_integral
  rw [nonNull_some, bind_ok (getS_ok h1)]
  by_cases hd : dt = 1
  · rw [cassert_bind (by rw [decide_eq_true_eq]; omega)]
    have : decide (hdr.channels = 1) = false := by rw [decide_eq_false_iff_not]; omega
    simp only [this]
    exact cassert_bind_false _ _
  · have : decide (hdr.data_type = 1) = false := by rw [decide_eq_false_iff_not]; omega
    simp only [this]
    exact cassert_bind_false _ _

/-- a colour image -/
example : ∃ m px, IsImage m 1 2 3 1 3 1 px := ⟨_, _, newImage_isImage (m := Mem.empty) (px := demoPx) rfl (by decide) (by decide) (by decide)⟩

/-- a 2 x 3 byte image at 1 and a 2 x 3 `int` image at 3 -/
def demoInt : Mem :=
  (Mem.empty.newImage 2 3 1 1 1 (imgBytes 3 1 1 demoPx)).newImage 2 3 3 1 4 (imgBytes 3 1 4 (fun _ _ _ t => leByte 77 t))

theorem demoInt_args : IntegralArgs demoInt 1 3 2 3 (fun i j c => demoPx i j c 0) (fun _ _ _ => 77) where
  src := by
    refine img_congr (img_frame (newImage_WF empty_WF)
      (newImage_isImage (m := Mem.empty) (px := demoPx) rfl (by decide) (by decide) (by decide)) (newImage_frame _)) ?_
    intro i j c t _ _ _ ht
    have : t = 0 := by omega
    subst this; rfl
  dst := ⟨newImage_isImage (m := Mem.empty.newImage 2 3 1 1 1 (imgBytes 3 1 1 demoPx)) rfl (by decide) (by decide) (by decide),
    fun _ _ _ _ _ _ => show 77 < 256 ^ 4 by decide⟩
  sep := by
    rintro h ⟨⟨a, h1, rfl⟩, ⟨b, h2, h3⟩⟩
    have h1' : some (newSHdr Mem.empty 2 3 1 1 1) = some a := h1
    have h2' : some (newSHdr (Mem.empty.newImage 2 3 1 1 1 (imgBytes 3 1 1 demoPx)) 2 3 3 1 4) = some b := h2
    cases h1'; cases h2'
    cases h3
  size := by decide

example : ∃ m sp dp R C px old, IntegralArgs m sp dp R C px old ∧ 1 < R ∧ 1 < C := ⟨_, _, _, _, _, _, _, demoInt_args, by decide, by decide⟩

end HyperCV
