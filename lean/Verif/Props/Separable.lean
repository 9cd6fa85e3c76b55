/- C66: separable filter with kernels of the caller. -/
import Verif.Proof.Separable

namespace HyperCV
open Spec

namespace Spec
/-- valid arguments of the separable filter: a source image `sp` with pixels `px`, a destination `dp` of the same size (possibly
the source itself) and two kernels `xp`, `yp` of `w` and `h` `float`s with bit patterns `kx` and `ky`, which do not share memory with the destination -/
structure SepArgs (m : Mem) (sp dp xp yp R C ch w h : Nat) (px old : Nat → Nat → Nat → UInt8) (kx ky : Nat → Nat) : Prop where
  wf : m.WF
  src : IsImage8 m sp R C ch px
  dst : IsImage8 m dp R C ch old
  kerX : IsImageN m xp 1 w 4 1 4 (fun _ b _ => kx b)
  kerY : IsImageN m yp 1 h 4 1 4 (fun _ b _ => ky b)
  sepY : SepPixels m yp dp
  chan : ch = 1 ∨ ch = 3
  size : R * C * ch * 4 ≤ 2147483551
  wide : C + w ≤ 2147483647
  high : R + h ≤ 2147483647
end Spec

section
variable {m : Mem} {sp dp xp yp R C ch w h : Nat} {px old : Nat → Nat → Nat → UInt8} {kx ky : Nat → Nat}

theorem kernel_holds {m : Mem} {d w : Nat} {k : Nat → Nat} (hh : HoldsP m d 4 1 w 1 (fun _ b _ => k b)) : HoldsN m d 4 w k := by
  have := hh
  unfold HoldsP at this
  have e : 1 * w * 1 = w := by omega
  rw [e] at this
  have key : ∀ i, i < w → pxF w 1 (fun _ b _ => k b) i = k i := by
    intro i hi
    have := pxF_at (C := w) (ch := 1) (i := 0) (j := i) (c := 0) (fun _ b _ => k b) hi (by decide)
    simpa using this
  exact ⟨this.1.congr (encN_congr key), fun i hi => by rw [← key i hi]; exact this.2 i hi⟩

theorem sat_nearest {v : FV} {q : ℚ} (h : (clampByte v).Is q) : NearestEven q ((saturate_cast_float2uchar (clampByte v)).toNat : ℤ) := by
  have h1 : 0 ≤ q ∧ q ≤ 255 := by
    obtain ⟨s, hs⟩ := h
    cases v with
    | nan => simp [clampByte] at hs
    | inf s' =>
      cases s' <;> simp [clampByte] at hs <;> obtain ⟨-, rfl⟩ := hs <;> norm_num
    | fin s' q' =>
      unfold clampByte at hs
      dsimp only at hs
      split at hs
      · injection hs with _ h2; subst h2; norm_num
      · split at hs
        · injection hs with _ h2; subst h2; norm_num
        · injection hs with _ h2; subst h2; constructor <;> linarith
  rw [saturate_fin h]
  have a1 : rne ((0:ℤ):ℚ) ≤ rne q := rne_mono (by push_cast; exact h1.1)
  have a2 : rne q ≤ rne ((255:ℤ):ℚ) := rne_mono (by push_cast; exact h1.2)
  rw [rne_int] at a1 a2
  have : clamp 0 255 (rne q) = rne q := by unfold clamp; rw [if_neg (by omega), if_neg (by omega)]
  rw [this]
  exact rne_spec q

/-- **C66**: the separable filter replaces each element of the destination by the vertical sum of horizontal sums, each limited to
0..255, computed in `float` and rounded to the nearest integer (even on ties), for all kernels.  No previously existing
memory other than the pixels of `dst` changes.  Elements for which the sum is not a number are not described. -/
theorem C66_separable (e : Extension) (a : SepArgs m sp dp xp yp R C ch w h px old kx ky) :
    ∃ m' out, hypercv_gaussian_blur_with_kernel (some sp) (some dp) (some xp) (some yp) e.code m = .ok ((), m') ∧
      IsImage8 m' dp R C ch out ∧ OldUnchangedBut m m' dp ∧
      ∀ i j c q, i < R → j < C → c < ch → (sepFloat e R C w h kx ky px i j c).Is q → NearestEven q (out i j c).toNat := by
  obtain ⟨hm, hs, hd, hx, hy, hsep, hch, hN, hw, hh⟩ := a
  have pR := hs.posR
  have pC := hs.posC
  have pch := hs.posCh
  have hRC : R * C ≤ R * C * ch := Nat.le_mul_of_pos_right _ pch
  have hb := size_bounds pR pC (by omega)
  obtain ⟨sd, si, s1, s2⟩ := img8_lit hs
  obtain ⟨dd, di, d1, d2⟩ := img8_lit hd
  obtain ⟨xd, xi, x1, x2⟩ := imgN_open hx
  obtain ⟨yd, yi, y1, y2⟩ := imgN_open hy
  have ls := s2.lt_next hm
  have ld := d2.lt_next hm
  have lx := x2.1.lt_next hm
  have ly := y2.1.lt_next hm
  have hne := sep_ne hsep y1 d1
  have x3 := kernel_holds x2
  have y3 := kernel_holds y2
  let gC : Int → Nat := fun p => (e.index p C).toNat
  let gR : Int → Nat := fun p => (e.index p R).toNat
  let out : Nat → Nat → Nat → UInt8 := fun i j c => saturate_cast_float2uchar (clampByte (colF w h kx ky gC gR px i j c h))
  let f0 : Nat → UInt8 := fun p => if p < R * C * 4 then 0 else m.junk m.next p
  let m3 := m.newImage R C 4 ch 4 f0
  let m4 := m.newImage R C 4 ch 4 (encN 4 (pxF C ch (tbitsF w kx gC px)))
  let m5 := m4.put dd (R * C * ch) (imgBytes C ch 1 (fun i j c _ => out i j c))
  have hb4 : R * C * ch ≤ 2147483647 := by omega
  have rowpass : (forI 0 (R:Int) fun i => forI 0 (C:Int) fun j =>
      gaussRow ⟨R, C, 1, ch, 1, sd, si⟩ (newSHdr m R C 4 ch 4) xd (w : Int) e.code i j) m3 = .ok ((), m4) := by
    have hf := nest2 (n1 := R) (n2 := C) (body := fun i j => gaussRow ⟨R, C, 1, ch, 1, sd, si⟩ (newSHdr m R C 4 ch 4) xd
        (w : Int) e.code i j) (m := m3) (d := m.next) (N := R * C * ch * 4)
      (new := encN 4 (pxF C ch (tbitsF w kx gC px))) (fun i j hi hj =>
        gaussRow_any (newImage_holds_old hm s2) ⟨newImage_holds_old hm x3.1, x3.2⟩ hb4 hw
          (tap_ext e pC (by omega) (by omega)) hi hj (by omega) (by omega) rfl rfl rfl rfl rfl)
    refine (hf.total ?_ (newImage_data m R C 4 ch 4 f0)).trans ?_
    · intro p hp
      obtain ⟨i, j, c, t, hi, hj, hc, ht, rfl⟩ := img_cover hp
      exact ⟨i, hi, j, hj, c, hc, by omega, by omega⟩
    · rw [newImage_put]
  have ht4 : HoldsP m4 m.next 4 R C ch (tbitsF w kx gC px) :=
    ⟨newImage_data _ _ _ _ _ _ _, FitsP.pxF fun i j c _ _ _ => tbitsF_lt⟩
  have ky4 : HoldsN m4 yd 4 h ky := ⟨newImage_holds_old hm y3.1, y3.2⟩
  have d4 := newImage_holds_old (R := R) (C := C) (dt := 4) (ch := ch) (E := 4) (f := encN 4 (pxF C ch (tbitsF w kx gC px))) hm d2
  have colpass : (forI 0 (C:Int) fun i => forI 0 (R:Int) fun j =>
      gaussCol ⟨R, C, 1, ch, 1, sd, si⟩ (newSHdr m R C 4 ch 4) ⟨R, C, 1, ch, 1, dd, di⟩ yd (h : Int) e.code i j) m4
        = .ok ((), m5) := by
    have hf := nest2 (n1 := C) (n2 := R) (body := fun i j => gaussCol ⟨R, C, 1, ch, 1, sd, si⟩ (newSHdr m R C 4 ch 4)
        ⟨R, C, 1, ch, 1, dd, di⟩ yd (h : Int) e.code i j) (m := m4) (d := dd) (N := R * C * ch)
      (new := imgBytes C ch 1 (fun i j c _ => out i j c)) (fun j i hj hi =>
        gaussCol_any ht4 ky4 hb4 hh (tap_ext e pR (by omega) (by omega)) hi hj (by omega) (by omega) rfl rfl rfl rfl rfl rfl)
    refine hf.total ?_ d4
    intro p hp
    obtain ⟨i, j, c, hi, hj, hc, rfl⟩ := img8_cover hp
    exact ⟨j, hj, i, hi, c, hc, rfl⟩
  have ldp := img_lt_next hm hd
  have d1' : m4.sm dp = some ⟨R, C, 1, ch, 1, dd, di⟩ := by
    rw [← d1]; exact newImage_sm_old m (by omega)
  have hd4 : IsImage8 m4 dp R C ch old := img_frame hm hd (m' := m4) (newImage_frame m)
  obtain ⟨o1, o2⟩ := img8_put (px' := out) (new := imgBytes C ch 1 (fun i j c _ => out i j c)) hd4 d1'
    (fun i j c _ hj hc => imgBytes_at8 hj hc)
  refine ⟨m5, out, ?_, o1, ⟨?_, ?_⟩, ?_⟩
  · have c3 : create_simple_mat (R:Int) (C:Int) 4 (ch:Int) m = .ok (some (m.next + 1), m3) :=
      create_sm_ok pR pC pch rfl hN
    have d3 : m3.sm dp = some ⟨R, C, 1, ch, 1, dd, di⟩ := by
      rw [← d1]; exact newImage_sm_old m (by omega)
    unfold hypercv_gaussian_blur_with_kernel
    rw [bind_ok (show derefS (some xp) m = _ from getS_ok x1), bind_ok (show derefS (some yp) m = _ from getS_ok y1),
      nonNull_some, cassert_bind (by rw [decide_eq_true_eq]; exact Int.natCast_nonneg w),
      cassert_bind (by rw [decide_eq_true_eq]; exact Int.natCast_nonneg h), cassert_bind (by cases e <;> decide),
      bind_ok (getS_ok s1), cassert_bind (by rw [decide_eq_true_eq]; show (ch:Int) = 1 ∨ (ch:Int) = 3; omega)]
    refine (bind_ok (show (pure (some dp) : M (Option Nat)) m = .ok (some dp, m) from rfl)).trans ?_
    rw [bind_ok (show derefS (some dp) m = _ from getS_ok d1), bind_ok c3,
      bind_ok (show derefS (some (m.next + 1)) m3 = _ from getS_ok (newImage_sm _ _ _ _ _ _ _))]
    exact (bind_ok rowpass).trans colpass
  · show m.next ≤ m.next + 2
    omega
  · intro x hx
    have a1 := newImage_frame m (R := R) (C := C) (dt := 4) (ch := ch) (E := 4) (f := encN 4 (pxF C ch (tbitsF w kx gC px))) x hx
    refine ⟨a1.2.1, a1.2.2, ?_⟩
    intro hp
    have hne : x ≠ dd := fun he => hp ⟨_, d1, he⟩
    exact (put_blk_ne m4 _ _ hne).trans a1.1
  · intro i j c q _ _ _ hq
    exact sat_nearest hq

/-- **C66**, example of what follows: a horizontal kernel with the single weight -1 makes the image black, because negative sums
are limited to 0 before the vertical pass. -/
theorem C66_negative (e : Extension) (hx : FloatIs f32 (kx 0) (-1)) (hy : FloatIs f32 (ky 0) 1)
    (a : SepArgs m sp dp xp yp R C ch 1 1 px old kx ky) :
    ∃ m', hypercv_gaussian_blur_with_kernel (some sp) (some dp) (some xp) (some yp) e.code m = .ok ((), m') ∧
      IsImage8 m' dp R C ch (fun _ _ _ => 0) := by
  obtain ⟨m', out, r1, r2, r3, r4⟩ := C66_separable e a
  refine ⟨m', r1, img_congr r2 ?_⟩
  intro i j c _ hi hj hc _
  have hrow : ∀ i, (rowFloat e C 1 kx px i j c).Is 0 := by
    intro i
    unfold rowFloat sumFloat
    obtain ⟨s, hs⟩ := hx
    rw [show List.range 1 = [0] from rfl]
    simp only [List.foldl_cons, List.foldl_nil, hs]
    obtain ⟨n, hn⟩ : ∃ n : Nat, n = (px i (e.index ((j:Int) + (0:Nat) - (1 / 2 : Nat)) C).toNat c).toNat := ⟨_, rfl⟩
    have hlt : n < 256 := by rw [hn]; exact UInt8.toNat_lt _
    rw [← hn]
    have i1 : (f32.ofInt (n:ℤ)).Is ((n:ℤ):ℚ) := is_ofInt (rep32_int (by rw [abs_of_nonneg (by omega)]; omega))
    have i2 := is_mul (F := f32) (a := .fin s (-1)) ⟨s, rfl⟩ i1 (by
      have := rep32_int (n := -(n:ℤ)) (by rw [abs_neg, abs_of_nonneg (by omega)]; omega)
      convert this using 1; push_cast; ring)
    have i3 := is_add (F := f32) (a := .fin false 0) (x := 0) ⟨false, rfl⟩ i2 (by
      have := rep32_int (n := -(n:ℤ)) (by rw [abs_neg, abs_of_nonneg (by omega)]; omega)
      convert this using 1; push_cast; ring)
    obtain ⟨s', h'⟩ := i3
    rw [h']
    unfold clampByte
    dsimp only
    split
    · exact ⟨_, rfl⟩
    · rename_i h1
      have : (n:ℚ) = 0 := by push_cast at h1; have : (0:ℚ) ≤ n := by positivity
                             linarith
      rw [if_neg (by push_cast; rw [this]; norm_num)]
      push_cast
      rw [this]
      exact ⟨s', by norm_num⟩
  have hcol : (sepFloat e R C 1 1 kx ky px i j c).Is 0 := by
    unfold sepFloat sumFloat
    obtain ⟨s, hs⟩ := hy
    rw [show List.range 1 = [0] from rfl]
    simp only [List.foldl_cons, List.foldl_nil, hs]
    have i2 := is_mul (F := f32) (a := .fin s 1) ⟨s, rfl⟩ (hrow (e.index ((i:Int) + (0:Nat) - (1 / 2 : Nat)) R).toNat) (by simpa using rep_zero f32)
    have i3 := is_add (F := f32) (a := .fin false 0) (x := 0) ⟨false, rfl⟩ i2 (by simpa using rep_zero f32)
    obtain ⟨s', h'⟩ := i3
    rw [h']
    norm_num [clampByte]
    exact ⟨s', rfl⟩
  have := r4 i j c 0 hi hj hc hcol
  have h0 : NearestEven (0:ℚ) 0 := by unfold NearestEven; norm_num
  have e0 := (rne_of_nearest this).symm.trans (rne_of_nearest h0)
  apply UInt8.toNat_inj.mp
  exact_mod_cast e0

end

/-- a 2 x 3 image at 1, which is also the destination, and the kernels [-1] at 3 and [1] at 5 -/
example : ∃ m sp dp xp yp R C px old kx ky, SepArgs m sp dp xp yp R C 1 1 1 px old kx ky ∧ FloatIs f32 (kx 0) (-1) ∧ FloatIs f32 (ky 0) 1 ∧ px 1 2 0 ≠ 0 := by
  have g1 : f32.Good (.fin false 1) := ⟨by have := rep1 (n := 1) (by decide); exact_mod_cast this, fun _ => by norm_num⟩
  have g2 : f32.Good (.fin true (-1)) := ⟨by have := rep_neg (rep1 (n := 1) (by decide)); exact_mod_cast this, fun _ => by norm_num⟩
  let m1 := Mem.empty.newImage 2 3 1 1 1 (imgBytes 3 1 1 demoPx)
  let m2 := m1.newImage 1 1 4 1 4 (imgBytes 1 1 4 fun _ _ _ t => leByte (f32.encode (.fin true (-1))) t)
  let m3 := m2.newImage 1 1 4 1 4 (imgBytes 1 1 4 fun _ _ _ t => leByte (f32.encode (.fin false 1)) t)
  have w1 : m1.WF := newImage_WF empty_WF
  have w2 : m2.WF := newImage_WF w1
  have hi : IsImage8 m3 1 2 3 1 (fun i j c => demoPx i j c 0) := by
    refine img_congr (img_frame w2 (img_frame w1 (newImage_isImage (m := Mem.empty) (px := demoPx) rfl (by decide) (by decide) (by decide)) (newImage_frame _)) (newImage_frame _)) ?_
    intro i j c t _ _ _ ht
    obtain rfl : t = 0 := by omega
    rfl
  refine ⟨m3, 1, 1, 3, 5, 2, 3, _, _, fun _ => f32.encode (.fin true (-1)), fun _ => f32.encode (.fin false 1),
    ⟨newImage_WF w2, hi, hi, ⟨img_frame w2 (newImage_isImage (m := m1) rfl (by decide) (by decide) (by decide)) (newImage_frame _), fun _ _ _ _ _ _ => f32_encode_lt g2⟩,
      ⟨newImage_isImage (m := m2) rfl (by decide) (by decide) (by decide), fun _ _ _ _ _ _ => f32_encode_lt g1⟩, ?_, Or.inl rfl, by decide, by decide, by decide⟩,
    ⟨true, f32_dec_enc g2⟩, ⟨false, f32_dec_enc g1⟩, by decide⟩
  rintro h ⟨⟨a, h1, rfl⟩, ⟨b, h2, h3⟩⟩
  have h1' : some (newSHdr m2 1 1 4 1 4) = some a := h1
  have h2' : some (newSHdr Mem.empty 2 3 1 1 1) = some b := h2
  cases h1'; cases h2'
  cases h3

end HyperCV
