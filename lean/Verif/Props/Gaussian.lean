/- C34: Gaussian filtering with the built-in kernels. -/
import Verif.Proof.Gaussian
import Verif.Props.Gradient
import Mathlib.Algebra.BigOperators.Field

namespace HyperCV
open Spec

namespace Spec
/-- the weights of the built-in Gaussian kernels -/
def gaussWeights : Nat → List ℚ
  | 1 => [1]
  | 3 => [1/4, 1/2, 1/4]
  | 5 => [1/16, 1/4, 3/8, 1/4, 1/16]
  | 7 => [1/32, 7/64, 7/32, 9/32, 7/32, 7/64, 1/32]
  | _ => []

/-- weight `b` of the kernel of `size` taps -/
def gaussWeight (size b : Nat) : ℚ := (gaussWeights size).getD b 0

/-- sizes with a built-in kernel -/
def BuiltIn (size : Nat) : Prop := size = 1 ∨ size = 3 ∨ size = 5 ∨ size = 7

/-- the weighted mean of the `w` x `h` neighbourhood of (`i`, `j`) in channel `c` of the image continued by `e` -/
def gaussMean (e : Extension) (R C : Nat) (px : Nat → Nat → Nat → UInt8) (w h i j c : Nat) : ℚ :=
  ∑ a ∈ Finset.range h, ∑ b ∈ Finset.range w, gaussWeight h a * gaussWeight w b *
    (px (e.index ((i:Int) + a - (h / 2 : Nat)) R).toNat (e.index ((j:Int) + b - (w / 2 : Nat)) C).toNat c).toNat

/-- existing memory is unchanged except for the pixels of image `p` (new storage may have been allocated) -/
def OldUnchangedBut (m m' : Mem) (p : Nat) : Prop :=
  m.next ≤ m'.next ∧ ∀ h, h < m.next →
    m'.hm h = m.hm h ∧ m'.sm h = m.sm h ∧ (¬ PixelBlock m p h → m'.blk h = m.blk h)
end Spec

theorem builtIn_half {w : Nat} (h : BuiltIn w) : ∃ k, k < 4 ∧ w = 2 * k + 1 ∧ ∀ b, gaussWeight w b = (gw k b : ℚ) / 64 := by
  have aux : ∀ (l : List ℚ) (l' : List Nat), l = l'.map (fun n : Nat => (n:ℚ) / 64) → ∀ b, l.getD b 0 = ((l'.getD b 0 : Nat) : ℚ) / 64 := by
    intro l l' e b
    rw [e]
    simp only [List.getD_eq_getElem?_getD, List.getElem?_map]
    cases l'[b]? <;> simp
  obtain rfl | rfl | rfl | rfl := h
  · exact ⟨0, by decide, rfl, aux _ _ (by norm_num [gaussWeights, gaussTab])⟩
  · exact ⟨1, by decide, rfl, aux _ _ (by norm_num [gaussWeights, gaussTab])⟩
  · exact ⟨2, by decide, rfl, aux _ _ (by norm_num [gaussWeights, gaussTab])⟩
  · exact ⟨3, by decide, rfl, aux _ _ (by norm_num [gaussWeights, gaussTab])⟩

/-- **C34**: the weights of each built-in kernel add up to exactly one. -/
theorem C34_weights_sum {w : Nat} (h : BuiltIn w) : ∑ b ∈ Finset.range w, gaussWeight w b = 1 := by
  obtain ⟨k, hk, rfl, hw⟩ := builtIn_half h
  rw [Finset.sum_congr rfl fun b _ => hw b, ← Finset.sum_div]
  have := gw_total hk
  have h2 : ((∑ b ∈ Finset.range (2 * k + 1), gw k b : Nat) : ℚ) = 64 := by rw [this]; norm_num
  push_cast at h2
  rw [h2]; norm_num

theorem weight_nonneg {w b : Nat} (h : BuiltIn w) : 0 ≤ gaussWeight w b := by
  obtain ⟨k, hk, rfl, hw⟩ := builtIn_half h
  rw [hw]; positivity

section
variable {m : Mem} {sp dp R C ch w h : Nat} {px old : Nat → Nat → Nat → UInt8} {exp : FV → FV}

/-- **C34**, the kernel built for size 1, 3, 5 or 7 and sigma 0 is a fresh image of one row of floats with exactly the
built-in weights. -/
theorem C34_kernel (hw : BuiltIn w) :
    ∃ (q : Nat) (m' : Mem) (bits : Nat → Nat), gaussian_kernel exp w (.fin false 0) 4 m = .ok (some q, m') ∧ FreshImg m m' q ∧ Frame m m' ∧
      IsImageN m' q 1 w 4 1 4 (fun _ b _ => bits b) ∧ ∀ b, b < w → f32.decode (bits b) = .fin false (gaussWeight w b) := by
  obtain ⟨k, hk, rfl, hg⟩ := builtIn_half hw
  refine ⟨m.next + 1, m.newKernel k, kbits k, gaussian_kernel_run hk, newImage_fresh m, newImage_frame m, ?_, ?_⟩
  · refine ⟨?_, fun i j c _ hj _ => kbits_lt k j hk hj⟩
    have := newImage_isImage (m := m) (R := 1) (C := 2 * k + 1) (ch := 1) (E := 4) (dt := 4)
      (px := fun _ b _ t => leByte (kbits k b) t) rfl (by omega) (by omega) (by omega)
    have e : m.newKernel k = m.newImage 1 (2 * k + 1) 4 1 4 (imgBytes (2 * k + 1) 1 4 fun _ b _ t => leByte (kbits k b) t) := by
      apply newImage_congr
      intro p hp
      obtain ⟨i, j, c, t, hi, hj, hc, ht, rfl⟩ := img_cover hp
      rw [imgBytes_at hj hc ht, encN_at _ ht]
      obtain rfl : i = 0 := by omega
      obtain rfl : c = 0 := by omega
      congr 2
      omega
    rw [e]
    exact this
  · intro b hb
    rw [kbits_dec hk hb, hg]

theorem colN_mean (e : Extension) {kw kh : Nat} (hw : ∀ b, gaussWeight (2 * kw + 1) b = (gw kw b : ℚ) / 64)
    (hh : ∀ b, gaussWeight (2 * kh + 1) b = (gw kh b : ℚ) / 64) (i j c : Nat) :
    (colN kw kh (fun p => (e.index p C).toNat) (fun p => (e.index p R).toNat) px i j c (2 * kh + 1) : ℚ) / 4096
      = gaussMean e R C px (2 * kw + 1) (2 * kh + 1) i j c := by
  unfold colN rowN gaussMean
  rw [show (2 * kw + 1) / 2 = kw by omega, show (2 * kh + 1) / 2 = kh by omega]
  push_cast
  rw [Finset.sum_div]
  refine Finset.sum_congr rfl fun a _ => ?_
  rw [Finset.mul_sum, Finset.sum_div]
  refine Finset.sum_congr rfl fun b _ => ?_
  rw [hw, hh]
  ring

/-- **C34**, what the filter computes: with sigmas that are not positive and a built-in size in each direction, every
element of `dst` becomes the weighted mean of the neighbourhood in the continued source, rounded once to the nearest
integer (ties to even).  The destination may be the source.  No previously existing memory other than the pixels of
`dst` changes. -/
theorem C34_gaussian (e : Extension) {sigma1 sigma2 : FV} (h1 : FV.lt (.fin false 0) sigma1 = false)
    (h2 : FV.lt (.fin false 0) sigma2 = false) (hw : BuiltIn w) (hh : BuiltIn h) (hch : ch = 1 ∨ ch = 3) (hm : m.WF)
    (hs : IsImage8 m sp R C ch px) (hd : IsImage8 m dp R C ch old) (hN : R * C * ch * 4 ≤ 2147483551) :
    ∃ m' out, hypercv_gaussian_blur exp (some sp) (some dp) w h sigma1 sigma2 e.code m = .ok ((), m') ∧
      IsImage8 m' dp R C ch out ∧ OldUnchangedBut m m' dp ∧
      ∀ i j c, i < R → j < C → c < ch → NearestEven (gaussMean e R C px w h i j c) (out i j c).toNat := by
  obtain ⟨kw, hkw, rfl, gW⟩ := builtIn_half hw
  obtain ⟨kh, hkh, rfl, gH⟩ := builtIn_half hh
  have pR := hs.posR
  have pC := hs.posC
  have pch := hs.posCh
  have hRC : R * C ≤ R * C * ch := Nat.le_mul_of_pos_right _ pch
  have hb := size_bounds pR pC (by omega)
  obtain ⟨sd, si, s1, s2⟩ := img8_lit hs
  obtain ⟨dd, di, d1, d2⟩ := img8_lit hd
  have ls := s2.lt_next hm
  have ld := d2.lt_next hm
  have lsp := img_lt_next hm hs
  have ldp := img_lt_next hm hd
  let gC : Int → Nat := fun p => (e.index p C).toNat
  let gR : Int → Nat := fun p => (e.index p R).toNat
  let out : Nat → Nat → Nat → UInt8 := fun i j c =>
    UInt8.ofNat (rne ((colN kw kh gC gR px i j c (2 * kh + 1) : ℚ) / 4096)).toNat
  have hout : ∀ i j c, ((out i j c).toNat : ℤ) = rne ((colN kw kh gC gR px i j c (2 * kh + 1) : ℚ) / 4096) := by
    intro i j c
    have hle := colN_le (g := gC) (g' := gR) (px := px) (i := i) (j := j) (c := c) hkw hkh (le_refl (2 * kh + 1))
    have hle' : (colN kw kh gC gR px i j c (2 * kh + 1) : ℚ) ≤ 1044480 := by exact_mod_cast hle
    have a1 : rne ((0:ℤ):ℚ) ≤ rne ((colN kw kh gC gR px i j c (2 * kh + 1) : ℚ) / 4096) :=
      rne_mono (by push_cast; positivity)
    have a2 : rne ((colN kw kh gC gR px i j c (2 * kh + 1) : ℚ) / 4096) ≤ rne ((255:ℤ):ℚ) :=
      rne_mono (by push_cast; linarith)
    rw [rne_int] at a1 a2
    show ((UInt8.ofNat _).toNat : ℤ) = _
    rw [UInt8.toNat_ofNat']
    omega
  -- the sequence of memories
  let m1 := m.newKernel kw
  let m2 := m1.newKernel kh
  let f0 : Nat → UInt8 := fun p => if p < R * C * 4 then 0 else m2.junk m2.next p
  let m3 := m2.newImage R C 4 ch 4 f0
  let m4 := m2.newImage R C 4 ch 4 (encN 4 (pxF C ch (tbits kw gC px)))
  let m5 := m4.put dd (R * C * ch) (imgBytes C ch 1 (fun i j c _ => out i j c))
  have n1 : m1.next = m.next + 2 := rfl
  have n2 : m2.next = m.next + 4 := rfl
  have n3 : m4.next = m.next + 6 := rfl
  have w1 : m1.WF := newImage_WF hm
  have w2 : m2.WF := newImage_WF w1
  have kx1 : m1.sm (m.next + 1) = some (newSHdr m 1 (2 * kw + 1) 4 1 4) := newImage_sm _ _ _ _ _ _ _
  have kx2 : HoldsN m1 m.next 4 (2 * kw + 1) (kbits kw) := newKernel_holds m hkw
  have ky1 : m2.sm (m1.next + 1) = some (newSHdr m1 1 (2 * kh + 1) 4 1 4) := newImage_sm _ _ _ _ _ _ _
  have ky2 : HoldsN m2 m1.next 4 (2 * kh + 1) (kbits kh) := newKernel_holds m1 hkh
  have kx1' : m2.sm (m.next + 1) = some (newSHdr m 1 (2 * kw + 1) 4 1 4) := by
    rw [← kx1]; exact newImage_sm_old m1 (by omega)
  have kx2' : HoldsN m2 m.next 4 (2 * kw + 1) (kbits kw) := ⟨newImage_holds_old w1 kx2.1, kx2.2⟩
  have s1' : m2.sm sp = some ⟨R, C, 1, ch, 1, sd, si⟩ := by
    rw [← s1]; exact (newImage_sm_old m1 (by omega)).trans (newImage_sm_old m (by omega))
  have d1' : m2.sm dp = some ⟨R, C, 1, ch, 1, dd, di⟩ := by
    rw [← d1]; exact (newImage_sm_old m1 (by omega)).trans (newImage_sm_old m (by omega))
  have s2' := newImage_holds_old (R := 1) (C := 2 * kh + 1) (dt := 4) (ch := 1) (E := 4) (f := encN 4 (kbits kh)) w1
    (newImage_holds_old (R := 1) (C := 2 * kw + 1) (dt := 4) (ch := 1) (E := 4) (f := encN 4 (kbits kw)) hm s2)
  have d2' := newImage_holds_old (R := 1) (C := 2 * kh + 1) (dt := 4) (ch := 1) (E := 4) (f := encN 4 (kbits kh)) w1
    (newImage_holds_old (R := 1) (C := 2 * kw + 1) (dt := 4) (ch := 1) (E := 4) (f := encN 4 (kbits kw)) hm d2)
  -- horizontal pass
  have hb4 : R * C * ch ≤ 2147483647 := by omega
  have rowpass : (forI 0 (R:Int) fun i => forI 0 (C:Int) fun j =>
      gaussRow ⟨R, C, 1, ch, 1, sd, si⟩ (newSHdr m2 R C 4 ch 4) m.next ((2 * kw + 1 : Nat) : Int) e.code i j) m3 = .ok ((), m4) := by
    have hf := nest2 (n1 := R) (n2 := C) (body := fun i j => gaussRow ⟨R, C, 1, ch, 1, sd, si⟩ (newSHdr m2 R C 4 ch 4) m.next
        ((2 * kw + 1 : Nat) : Int) e.code i j) (m := m3) (d := m2.next) (N := R * C * ch * 4)
      (new := encN 4 (pxF C ch (tbits kw gC px))) (fun i j hi hj =>
        gaussRow_run hkw (newImage_holds_old w2 s2') ⟨newImage_holds_old w2 kx2'.1, kx2'.2⟩ hb4 (by omega)
          (tap_ext e pC (by omega) (by omega)) hi hj (by omega) (by omega) rfl rfl rfl rfl rfl)
    refine (hf.total ?_ (newImage_data m2 R C 4 ch 4 f0)).trans ?_
    · intro p hp
      obtain ⟨i, j, c, t, hi, hj, hc, ht, rfl⟩ := img_cover hp
      exact ⟨i, hi, j, hj, c, hc, by omega, by omega⟩
    · rw [newImage_put]
  -- vertical pass
  have ht4 : HoldsP m4 m2.next 4 R C ch (tbits kw gC px) :=
    ⟨newImage_data _ _ _ _ _ _ _, FitsP.pxF fun i j c _ _ _ => tbits_lt hkw⟩
  have ky4 : HoldsN m4 m1.next 4 (2 * kh + 1) (kbits kh) := ⟨newImage_holds_old w2 ky2.1, ky2.2⟩
  have d4 := newImage_holds_old (R := R) (C := C) (dt := 4) (ch := ch) (E := 4) (f := encN 4 (pxF C ch (tbits kw gC px))) w2 d2'
  have colpass : (forI 0 (C:Int) fun i => forI 0 (R:Int) fun j =>
      gaussCol ⟨R, C, 1, ch, 1, sd, si⟩ (newSHdr m2 R C 4 ch 4) ⟨R, C, 1, ch, 1, dd, di⟩ m1.next ((2 * kh + 1 : Nat) : Int) e.code i j) m4
        = .ok ((), m5) := by
    have hf := nest2 (n1 := C) (n2 := R) (body := fun i j => gaussCol ⟨R, C, 1, ch, 1, sd, si⟩ (newSHdr m2 R C 4 ch 4)
        ⟨R, C, 1, ch, 1, dd, di⟩ m1.next ((2 * kh + 1 : Nat) : Int) e.code i j) (m := m4) (d := dd) (N := R * C * ch)
      (new := imgBytes C ch 1 (fun i j c _ => out i j c)) (fun j i hj hi =>
        gaussCol_run hkw hkh ht4 ky4 hb4 (by omega)
          (tap_ext e pR (by omega) (by omega)) hi hj (by omega) (by omega) rfl rfl rfl rfl rfl rfl (fun c _ => hout i j c))
    refine hf.total ?_ d4
    intro p hp
    obtain ⟨i, j, c, hi, hj, hc, rfl⟩ := img8_cover hp
    exact ⟨j, hj, i, hi, c, hc, rfl⟩
  have d1'' : m4.sm dp = some ⟨R, C, 1, ch, 1, dd, di⟩ := by
    rw [← d1']; exact newImage_sm_old m2 (by omega)
  have hd4 : IsImage8 m4 dp R C ch old := by
    have := img_frame hm hd (m' := m4) (by
      intro x hx
      have a1 := newImage_frame m (R := 1) (C := 2 * kw + 1) (dt := 4) (ch := 1) (E := 4) (f := encN 4 (kbits kw)) x hx
      have a2 := newImage_frame m1 (R := 1) (C := 2 * kh + 1) (dt := 4) (ch := 1) (E := 4) (f := encN 4 (kbits kh)) x (by omega)
      have a3 := newImage_frame m2 (R := R) (C := C) (dt := 4) (ch := ch) (E := 4) (f := encN 4 (pxF C ch (tbits kw gC px))) x (by omega)
      exact ⟨a3.1.trans (a2.1.trans a1.1), a3.2.1.trans (a2.2.1.trans a1.2.1), a3.2.2.trans (a2.2.2.trans a1.2.2)⟩)
    exact this
  obtain ⟨o1, o2⟩ := img8_put (px' := out) (new := imgBytes C ch 1 (fun i j c _ => out i j c)) hd4 d1''
    (fun i j c _ hj hc => imgBytes_at8 hj hc)
  refine ⟨m5, out, ?_, o1, ⟨?_, ?_⟩, ?_⟩
  · have c1 := gaussian_kernel_run (exp := exp) (m := m) hkw
    have c2 := gaussian_kernel_run (exp := exp) (m := m1) hkh
    have c3 : create_simple_mat (R:Int) (C:Int) 4 (ch:Int) m2 = .ok (some (m2.next + 1), m3) :=
      create_sm_ok pR pC pch rfl hN
    unfold hypercv_gaussian_blur
    rw [nonNull_some, cassert_bind (by rw [decide_eq_true_eq]; omega), cassert_bind (by cases e <;> decide)]
    simp only [h1, Bool.false_eq_true, if_false]
    have hsg : (if FV.lt (.fin false 0) (if FV.le sigma2 (.fin false 0) then sigma1 else sigma2) then
        (if FV.le sigma2 (.fin false 0) then sigma1 else sigma2) else FV.fin false 0) = .fin false 0 := by
      cases FV.le sigma2 (.fin false 0) <;> simp [h1, h2]
    rw [hsg]
    refine (bind_ok c1).trans ((bind_ok c2).trans ?_)
    unfold hypercv_gaussian_blur_with_kernel
    rw [bind_ok (show derefS (some (m.next + 1)) m2 = _ from getS_ok kx1'), bind_ok (show derefS (some (m1.next + 1)) m2 = _ from getS_ok ky1),
      nonNull_some, cassert_bind (by rw [decide_eq_true_eq]; show (0:Int) ≤ ((2 * kw + 1 : Nat) : Int); omega),
      cassert_bind (by rw [decide_eq_true_eq]; show (0:Int) ≤ ((2 * kh + 1 : Nat) : Int); omega), cassert_bind (by cases e <;> decide),
      bind_ok (getS_ok s1'), cassert_bind (by rw [decide_eq_true_eq]; show (ch:Int) = 1 ∨ (ch:Int) = 3; omega)]
    refine (bind_ok (show (pure (some dp) : M (Option Nat)) m2 = .ok (some dp, m2) from rfl)).trans ?_
    rw [bind_ok (show derefS (some dp) m2 = _ from getS_ok d1'), bind_ok c3,
      bind_ok (show derefS (some (m2.next + 1)) m3 = _ from getS_ok (newImage_sm _ _ _ _ _ _ _))]
    exact (bind_ok rowpass).trans colpass
  · show m.next ≤ m.next + 6
    omega
  · intro x hx
    have a1 := newImage_frame m (R := 1) (C := 2 * kw + 1) (dt := 4) (ch := 1) (E := 4) (f := encN 4 (kbits kw)) x hx
    have a2 := newImage_frame m1 (R := 1) (C := 2 * kh + 1) (dt := 4) (ch := 1) (E := 4) (f := encN 4 (kbits kh)) x (by omega)
    have a3 := newImage_frame m2 (R := R) (C := C) (dt := 4) (ch := ch) (E := 4) (f := encN 4 (pxF C ch (tbits kw gC px))) x (by omega)
    refine ⟨a3.2.1.trans (a2.2.1.trans a1.2.1), a3.2.2.trans (a2.2.2.trans a1.2.2), ?_⟩
    intro hp
    have hne : x ≠ dd := fun he => hp ⟨_, d1, he⟩
    exact (put_blk_ne m4 _ _ hne).trans (a3.1.trans (a2.1.trans a1.1))
  · intro i j c _ _ _
    have := rne_spec ((colN kw kh gC gR px i j c (2 * kh + 1) : ℚ) / 4096)
    rw [← hout, colN_mean e gW gH] at this
    exact this

/-- weighted means lie between bounds of the image -/
theorem mean_between (e : Extension) (hw : BuiltIn w) (hh : BuiltIn h) (hR : 0 < R) (hC : 0 < C)
    (hb : R ≤ 2147483600 ∧ C ≤ 2147483600) {c lo hi : Nat}
    (hp : ∀ i j, i < R → j < C → lo ≤ (px i j c).toNat ∧ (px i j c).toNat ≤ hi) {i j : Nat} (hi' : i < R) (hj' : j < C) :
    (lo:ℚ) ≤ gaussMean e R C px w h i j c ∧ gaussMean e R C px w h i j c ≤ hi := by
  have key : ∀ B : ℚ, ∑ a ∈ Finset.range h, ∑ b ∈ Finset.range w, gaussWeight h a * gaussWeight w b * B = B := by
    intro B
    have : ∀ a, ∑ b ∈ Finset.range w, gaussWeight h a * gaussWeight w b * B = gaussWeight h a * B := by
      intro a
      rw [← Finset.sum_mul, ← Finset.mul_sum, C34_weights_sum hw, mul_one]
    rw [Finset.sum_congr rfl fun a _ => this a, ← Finset.sum_mul, C34_weights_sum hh, one_mul]
  have hs : ∀ a b, a < h → b < w →
      lo ≤ (px (e.index ((i:Int) + a - (h / 2 : Nat)) R).toNat (e.index ((j:Int) + b - (w / 2 : Nat)) C).toNat c).toNat ∧
      (px (e.index ((i:Int) + a - (h / 2 : Nat)) R).toNat (e.index ((j:Int) + b - (w / 2 : Nat)) C).toNat c).toNat ≤ hi := by
    intro a b ha hb'
    have h1 := (tap_ext e (len := R) (k := 3) hR (by omega) (by omega) ((i:Int) + a - (h / 2 : Nat)) (by
      unfold BuiltIn at hh; omega) (by unfold BuiltIn at hh; omega)).2
    have h2 := (tap_ext e (len := C) (k := 3) hC (by omega) (by omega) ((j:Int) + b - (w / 2 : Nat)) (by
      unfold BuiltIn at hw; omega) (by unfold BuiltIn at hw; omega)).2
    exact hp _ _ h1 h2
  unfold gaussMean
  constructor
  · rw [← key lo]
    refine Finset.sum_le_sum fun a ha => Finset.sum_le_sum fun b hb' => ?_
    refine mul_le_mul_of_nonneg_left ?_ (mul_nonneg (weight_nonneg hh) (weight_nonneg hw))
    exact_mod_cast (hs a b (Finset.mem_range.mp ha) (Finset.mem_range.mp hb')).1
  · rw [← key hi]
    refine Finset.sum_le_sum fun a ha => Finset.sum_le_sum fun b hb' => ?_
    refine mul_le_mul_of_nonneg_left ?_ (mul_nonneg (weight_nonneg hh) (weight_nonneg hw))
    exact_mod_cast (hs a b (Finset.mem_range.mp ha) (Finset.mem_range.mp hb')).2

theorem nearest_between {q : ℚ} {n lo hi : ℤ} (h : NearestEven q n) (h1 : (lo:ℚ) ≤ q) (h2 : q ≤ hi) : lo ≤ n ∧ n ≤ hi := by
  have := abs_le.mp h.1
  constructor
  · by_contra hc
    have : (n:ℚ) ≤ lo - 1 := by
      have : n ≤ lo - 1 := by omega
      exact_mod_cast this
    linarith
  · by_contra hc
    have : (hi:ℚ) + 1 ≤ n := by
      have : hi + 1 ≤ n := by omega
      exact_mod_cast this
    linarith

/-- **C34**: in every channel, every output lies between any lower and any upper bound of the input's channel. -/
theorem C34_range (e : Extension) {sigma1 sigma2 : FV} (h1 : FV.lt (.fin false 0) sigma1 = false)
    (h2 : FV.lt (.fin false 0) sigma2 = false) (hw : BuiltIn w) (hh : BuiltIn h) (hch : ch = 1 ∨ ch = 3) (hm : m.WF)
    (hs : IsImage8 m sp R C ch px) (hd : IsImage8 m dp R C ch old) (hN : R * C * ch * 4 ≤ 2147483551)
    {lo hi : Nat → Nat} (hp : ∀ i j c, i < R → j < C → c < ch → lo c ≤ (px i j c).toNat ∧ (px i j c).toNat ≤ hi c) :
    ∃ m' out, hypercv_gaussian_blur exp (some sp) (some dp) w h sigma1 sigma2 e.code m = .ok ((), m') ∧
      IsImage8 m' dp R C ch out ∧ OldUnchangedBut m m' dp ∧
      ∀ i j c, i < R → j < C → c < ch → lo c ≤ (out i j c).toNat ∧ (out i j c).toNat ≤ hi c := by
  obtain ⟨m', out, r1, r2, r3, r4⟩ := C34_gaussian (exp := exp) e h1 h2 hw hh hch hm hs hd hN
  refine ⟨m', out, r1, r2, r3, ?_⟩
  intro i j c hi' hj' hc
  have hRC : R * C ≤ R * C * ch := Nat.le_mul_of_pos_right _ hs.posCh
  obtain ⟨a1, a2⟩ := mean_between (c := c) e hw hh hs.posR hs.posC (size_bounds hs.posR hs.posC (by omega))
    (fun i j hi hj => hp i j c hi hj hc) hi' hj'
  have := nearest_between (lo := lo c) (hi := hi c) (r4 i j c hi' hj' hc) (by exact_mod_cast a1) (by exact_mod_cast a2)
  omega

/-- **C34**: an image that is constant in each channel is mapped to itself. -/
theorem C34_constant (e : Extension) {sigma1 sigma2 : FV} (h1 : FV.lt (.fin false 0) sigma1 = false)
    (h2 : FV.lt (.fin false 0) sigma2 = false) (hw : BuiltIn w) (hh : BuiltIn h) (hch : ch = 1 ∨ ch = 3) (hm : m.WF)
    {v : Nat → UInt8} (hs : IsImage8 m sp R C ch (fun _ _ c => v c)) (hd : IsImage8 m dp R C ch old)
    (hN : R * C * ch * 4 ≤ 2147483551) :
    ∃ m', hypercv_gaussian_blur exp (some sp) (some dp) w h sigma1 sigma2 e.code m = .ok ((), m') ∧
      IsImage8 m' dp R C ch (fun _ _ c => v c) ∧ OldUnchangedBut m m' dp := by
  obtain ⟨m', out, r1, r2, r3, r4⟩ := C34_range (exp := exp) e h1 h2 hw hh hch hm hs hd hN
    (lo := fun c => (v c).toNat) (hi := fun c => (v c).toNat) (fun _ _ _ _ _ _ => ⟨le_refl _, le_refl _⟩)
  refine ⟨m', r1, img8_congr r2 ?_, r3⟩
  intro i j c hi hj hc
  have := r4 i j c hi hj hc
  apply UInt8.toNat_inj.mp
  omega

/-- The channel count matters: anything but one or three channels ends the program, so C34 cannot be extended to them. -/
theorem C34_other_channels (e : Extension) (hw : BuiltIn w) (hh : BuiltIn h) (hch : ch ≠ 1 ∧ ch ≠ 3) (hm : m.WF)
    (hs : IsImage8 m sp R C ch px) (dst : Option Nat) :
    hypercv_gaussian_blur exp (some sp) dst w h (.fin false 0) (.fin false 0) e.code m = .error .exit := by
  obtain ⟨kw, hkw, rfl, gW⟩ := builtIn_half hw
  obtain ⟨kh, hkh, rfl, gH⟩ := builtIn_half hh
  obtain ⟨sd, si, s1, s2⟩ := img8_lit hs
  have lsp := img_lt_next hm hs
  have c1 := gaussian_kernel_run (exp := exp) (m := m) hkw
  have c2 := gaussian_kernel_run (exp := exp) (m := m.newKernel kw) hkh
  unfold hypercv_gaussian_blur
  rw [nonNull_some, cassert_bind (by rw [decide_eq_true_eq]; omega), cassert_bind (by cases e <;> decide)]
  have z1 : FV.lt (.fin false 0) (.fin false 0) = false := by decide +kernel
  simp only [z1, Bool.false_eq_true, if_false, ite_self]
  refine (bind_ok c1).trans ((bind_ok c2).trans ?_)
  unfold hypercv_gaussian_blur_with_kernel
  have n1 : (m.newKernel kw).next = m.next + 2 := rfl
  have kx1 : ((m.newKernel kw).newKernel kh).sm (m.next + 1) = some (newSHdr m 1 (2 * kw + 1) 4 1 4) :=
    (newImage_sm_old _ (by omega)).trans (newImage_sm _ _ _ _ _ _ _)
  have ky1 : ((m.newKernel kw).newKernel kh).sm ((m.newKernel kw).next + 1) = some (newSHdr (m.newKernel kw) 1 (2 * kh + 1) 4 1 4) :=
    newImage_sm _ _ _ _ _ _ _
  have s1' : ((m.newKernel kw).newKernel kh).sm sp = some ⟨R, C, 1, ch, 1, sd, si⟩ := by
    rw [← s1]; exact (newImage_sm_old _ (by omega)).trans (newImage_sm_old m (by omega))
  rw [bind_ok (show derefS (some (m.next + 1)) _ = _ from getS_ok kx1), bind_ok (show derefS (some ((m.newKernel kw).next + 1)) _ = _ from getS_ok ky1),
    nonNull_some, cassert_bind (by rw [decide_eq_true_eq]; show (0:Int) ≤ ((2 * kw + 1 : Nat) : Int); omega),
      cassert_bind (by rw [decide_eq_true_eq]; show (0:Int) ≤ ((2 * kh + 1 : Nat) : Int); omega), cassert_bind (by cases e <;> decide),
    bind_ok (getS_ok s1')]
  have : decide ((ch:Int) = 1 ∨ (ch:Int) = 3) = false := by rw [decide_eq_false_iff_not]; omega
  simp only [this]
  exact cassert_bind_false _ _

end

example : ∃ m sp dp R C px old, m.WF ∧ IsImage8 m sp R C 3 px ∧ IsImage8 m dp R C 3 old ∧ R * C * 3 * 4 ≤ 2147483551 ∧ 1 < R * C ∧
    BuiltIn 5 ∧ FV.lt (.fin false 0) (.fin false 0) = false :=
  ⟨demoImgs 3, 1, 3, 2, 3, _, _, demoImgs_WF 3, demoImgs_src (by decide), demoImgs_dst (by decide), by decide, by decide,
    by unfold BuiltIn; omega, by decide +kernel⟩

end HyperCV
