/- C35: filter2D; C62: median and mean filter. -/
import Verif.Proof.Filter2D
import Verif.Props.Gradient
import Mathlib.Algebra.BigOperators.Field

namespace HyperCV
open Spec

namespace Spec
/-- the sample of channel `c` under tap (`x`, `y`) of a `kr` x `kc` kernel centred on (`i`, `j`), in the image continued by `e` -/
def tapPx (e : Extension) (R C kr kc : Nat) (px : Nat → Nat → Nat → UInt8) (i j c x y : Nat) : ℤ :=
  (px (e.index ((i:Int) + x - (kr / 2 : Nat)) R).toNat (e.index ((j:Int) + y - (kc / 2 : Nat)) C).toNat c).toNat

/-- the correlation computed in `float`, one tap after the other, starting from `v` -/
def corrFloat (e : Extension) (R C kr kc : Nat) (px : Nat → Nat → Nat → UInt8) (K : Nat → Nat → Nat) (i j c : Nat) (v : FV) : FV :=
  (List.range kr).foldl (fun v x => (List.range kc).foldl (fun v y =>
    f32.add v (f32.mul (f32.decode (K x y)) (f32.ofInt (tapPx e R C kr kc px i j c x y)))) v) v

/-- the exact correlation with the kernel `K` -/
def corr (e : Extension) (R C kr kc : Nat) (px : Nat → Nat → Nat → UInt8) (K : Nat → Nat → ℚ) (i j c : Nat) : ℚ :=
  ∑ x ∈ Finset.range kr, ∑ y ∈ Finset.range kc, K x y * tapPx e R C kr kc px i j c x y

/-- valid arguments of filter2D: a byte image `sp` with pixels `px`, a `float` image `dp` with elements `old` of the same size
and channel count, and a `kr` x `kc` array `kd` of `float`s, all in separate memory -/
structure FilterArgs (m : Mem) (sp dp kd R C ch kr kc : Nat) (px : Nat → Nat → Nat → UInt8) (old : Nat → Nat → Nat → Nat)
    (K : Nat → Nat → Nat) : Prop where
  src : IsImage8 m sp R C ch px
  dst : IsImageN m dp R C 4 ch 4 old
  ker : IsMat m kd 4 kr kc K
  sep : SepPixels m sp dp
  ksep : ¬ PixelBlock m dp kd
  chan : ch = 1 ∨ ch = 3
  kr_pos : 0 < kr
  kc_pos : 0 < kc
  size : R * C * ch ≤ 2147483600
  ksize : kr * kc ≤ 2147483647
  hr : R + kr ≤ 2147483647
  hc : C + kc ≤ 2147483647
end Spec

section
variable {m : Mem} {sp dp kd R C ch kr kc : Nat} {px : Nat → Nat → Nat → UInt8} {old : Nat → Nat → Nat → Nat} {K : Nat → Nat → Nat}

/-- the call in the terms of the proof -/
def corrOf (e : Extension) (R C kr kc : Nat) (px : Nat → Nat → Nat → UInt8) (K : Nat → Nat → Nat) : Corr :=
  ⟨fun t => K (t / kc) (t % kc), kr, kc, fun p => (e.index p R).toNat, fun p => (e.index p C).toNat, px⟩

theorem term_eq (e : Extension) {i j c x y : Nat} (hy : y < kc) :
    (corrOf e R C kr kc px K).term i j c (x * kc + y) = f32.mul (f32.decode (K x y)) (f32.ofInt (tapPx e R C kr kc px i j c x y)) := by
  unfold Corr.term corrOf tapPx
  simp only []
  rw [mix_div hy, mix_mod hy]

theorem acc_fold (e : Extension) (i j c : Nat) :
    f32.decode ((corrOf e R C kr kc px K).acc old i j c (kr * kc)) = corrFloat e R C kr kc px K i j c (f32.decode (old i j c)) := by
  have inner : ∀ x n, n ≤ kc → f32.decode ((corrOf e R C kr kc px K).acc old i j c (x * kc + n))
      = (List.range n).foldl (fun v y => f32.add v (f32.mul (f32.decode (K x y)) (f32.ofInt (tapPx e R C kr kc px i j c x y))))
        (f32.decode ((corrOf e R C kr kc px K).acc old i j c (x * kc))) := by
    intro x n
    induction n with
    | zero => intro _; rfl
    | succ n ih =>
      intro hn
      rw [List.range_succ, List.foldl_append, ← ih (by omega)]
      show f32.decode (f32.encode (f32.add (f32.decode (Corr.acc _ old i j c (x * kc + n))) (Corr.term _ i j c (x * kc + n)))) = _
      rw [f32_dec_enc (good_add _ _ _), term_eq e (by omega)]
      rfl
  have outer : ∀ n, f32.decode ((corrOf e R C kr kc px K).acc old i j c (n * kc))
      = (List.range n).foldl (fun v x => (List.range kc).foldl (fun v y =>
        f32.add v (f32.mul (f32.decode (K x y)) (f32.ofInt (tapPx e R C kr kc px i j c x y)))) v) (f32.decode (old i j c)) := by
    intro n
    induction n with
    | zero => rw [Nat.zero_mul]; rfl
    | succ n ih =>
      rw [List.range_succ, List.foldl_append, ← ih, Nat.succ_mul, inner n kc (le_refl _)]
      rfl
  exact outer kr

/-- **C35**, what filter2D computes: every element of the destination becomes the `float` correlation accumulated on top of its
previous value; nothing else changes. -/
theorem C35_filter2D (e : Extension) (h : FilterArgs m sp dp kd R C ch kr kc px old K) :
    ∃ m' out, hypercv_filter2D (some sp) (some dp) (some kd) kr kc e.code m = .ok ((), m') ∧ IsImageN m' dp R C 4 ch 4 out ∧
      OnlyPixels m m' dp ∧ ∀ i j c, i < R → j < C → c < ch →
        f32.decode (out i j c) = corrFloat e R C kr kc px K i j c (f32.decode (old i j c)) := by
  have pR := h.src.posR
  have pC := h.src.posC
  have pch := h.src.posCh
  have hRC : R * C ≤ R * C * ch := Nat.le_mul_of_pos_right _ pch
  have hsz := h.size
  have hb := size_bounds pR pC (by omega)
  have k1 := h.hr
  have k2 := h.hc
  obtain ⟨sd, si, s1, s2⟩ := img8_lit h.src
  obtain ⟨dd, di, d1, d2⟩ := imgN_open h.dst
  have hne1 := sep_ne h.sep s1 d1
  have hne2 : kd ≠ dd := fun he => h.ksep ⟨_, d1, he⟩
  have hk := isArray_iff.mp h.ker
  let a := corrOf e R C kr kc px K
  have run := filter_run (bt := e.code) (a := a) (s := ⟨R, C, 1, ch, 1, sd, si⟩) (d := ⟨R, C, 4, ch, (4:Nat), dd, di⟩) (le_refl _) s2 hk d2 hne1 hne2
    h.chan (by omega) h.ksize h.hr h.hc (tap_ext e pR (by omega) (by show kr / 2 + R ≤ _; omega)) (tap_ext e pC (by omega) (by show kc / 2 + C ≤ _; omega)) rfl rfl rfl rfl rfl
  obtain ⟨o1, o2⟩ := imgN_put (b := fun i j c => a.acc old i j c (kr * kc)) h.dst d1
    (fun i j c hi hj hc => Corr.acc_lt (d2.fits i j c hi hj hc))
  refine ⟨_, _, ?_, o1, o2, fun i j c _ _ _ => acc_fold e i j c⟩
  unfold hypercv_filter2D
  rw [nonNull_some, nonNull_some, nonNull_some, bind_ok (getS_ok d1)]
  refine (bind_ok (setS_self d1)).trans ?_
  rw [bind_ok (getS_ok s1), bind_ok (getS_ok d1)]
  exact run

theorem psum_le_total {a b : Nat} {t : Nat → Nat → ℤ} (h0 : ∀ x y, 0 ≤ t x y) {x y : Nat} (hx : x < a) (hy : y ≤ b) :
    psum b t x y ≤ ∑ u ∈ Finset.range a, ∑ v ∈ Finset.range b, t u v := by
  have e1 : psum b t x y ≤ ∑ u ∈ Finset.range (x+1), ∑ v ∈ Finset.range b, t u v := by
    unfold psum
    rw [Finset.sum_range_succ]
    exact Int.add_le_add_left (Finset.sum_le_sum_of_subset_of_nonneg (Finset.range_mono hy) fun v _ _ => h0 x v) _
  refine le_trans e1 ?_
  exact Finset.sum_le_sum_of_subset_of_nonneg (Finset.range_mono hx) fun u _ _ => Finset.sum_nonneg fun v _ => h0 u v

theorem abs_psum_le {b : Nat} {t : Nat → Nat → ℤ} (x y : Nat) : |psum b t x y| ≤ psum b (fun u v => |t u v|) x y := by
  unfold psum
  refine le_trans (abs_add_le _ _) (add_le_add ?_ (Finset.abs_sum_le_sum_abs _ _))
  exact le_trans (Finset.abs_sum_le_sum_abs _ _) (Finset.sum_le_sum fun u _ => Finset.abs_sum_le_sum_abs _ _)

theorem tapPx_bounds (e : Extension) (i j c x y : Nat) : 0 ≤ tapPx e R C kr kc px i j c x y ∧ tapPx e R C kr kc px i j c x y ≤ 255 := by
  unfold tapPx
  have := (px (e.index ((i:Int) + x - (kr / 2 : Nat)) R).toNat (e.index ((j:Int) + y - (kc / 2 : Nat)) C).toNat c).toNat_lt
  omega

theorem corrFloat_exact (e : Extension) {i j c s : Nat} {k : Nat → Nat → ℤ} {o : ℤ} {v : FV} (hs : s ≤ 100)
    (hK : ∀ x y, x < kr → y < kc → FloatIs f32 (K x y) (k x y / 2 ^ s)) (hv : v.Is ((o:ℚ) / 2 ^ s))
    (hbound : |o| + 255 * ∑ x ∈ Finset.range kr, ∑ y ∈ Finset.range kc, |k x y| ≤ 2 ^ 24) :
    (corrFloat e R C kr kc px K i j c v).Is ((o:ℚ) / 2 ^ s + corr e R C kr kc px (fun x y => k x y / 2 ^ s) i j c) := by
  let T : Nat → Nat → ℤ := fun x y => k x y * tapPx e R C kr kc px i j c x y
  have hT : ∀ x y, |T x y| ≤ 255 * |k x y| := by
    intro x y
    have := tapPx_bounds (R := R) (C := C) (kr := kr) (kc := kc) (px := px) e i j c x y
    show |k x y * _| ≤ _
    rw [abs_mul, abs_of_nonneg this.1, mul_comm]
    exact mul_le_mul_of_nonneg_right this.2 (abs_nonneg _)
  have hB : ∀ x y, x < kr → y ≤ kc → |o + psum kc T x y| ≤ 2 ^ 24 := by
    intro x y hx hy
    refine le_trans (abs_add_le _ _) (le_trans (Int.add_le_add_left ?_ _) hbound)
    refine le_trans (abs_psum_le x y) ?_
    refine le_trans (psum_le_total (a := kr) (fun x y => abs_nonneg _) hx hy) ?_
    rw [Finset.mul_sum]
    refine Finset.sum_le_sum fun u _ => ?_
    rw [Finset.mul_sum]
    exact Finset.sum_le_sum fun v _ => hT u v
  have hT1 : ∀ x y, x < kr → y < kc → |T x y| ≤ 2 ^ 24 := by
    intro x y hx hy
    have h1 : |T x y| ≤ ∑ u ∈ Finset.range kr, ∑ v ∈ Finset.range kc, |T u v| := by
      refine le_trans ?_ (Finset.single_le_sum (f := fun u => ∑ v ∈ Finset.range kc, |T u v|)
        (fun u _ => Finset.sum_nonneg fun v _ => abs_nonneg _) (Finset.mem_range.mpr hx))
      exact Finset.single_le_sum (f := fun v => |T x v|) (fun v _ => abs_nonneg _) (Finset.mem_range.mpr hy)
    have h2 : ∑ u ∈ Finset.range kr, ∑ v ∈ Finset.range kc, |T u v| ≤ 255 * ∑ x ∈ Finset.range kr, ∑ y ∈ Finset.range kc, |k x y| := by
      rw [Finset.mul_sum]
      refine Finset.sum_le_sum fun u _ => ?_
      rw [Finset.mul_sum]
      exact Finset.sum_le_sum fun v _ => hT u v
    have := abs_nonneg o
    linarith
  have step : ∀ x y w, x < kr → y < kc → w.Is (((o + psum kc T x y : ℤ) : ℚ) / 2 ^ s) →
      (f32.add w (f32.mul (f32.decode (K x y)) (f32.ofInt (tapPx e R C kr kc px i j c x y)))).Is (((o + psum kc T x (y+1) : ℤ) : ℚ) / 2 ^ s) := by
    intro x y w hx hy hw
    have hp : (f32.ofInt (tapPx e R C kr kc px i j c x y)).Is (tapPx e R C kr kc px i j c x y) :=
      is_ofInt (rep32_int (by
        have := tapPx_bounds (R := R) (C := C) (kr := kr) (kc := kc) (px := px) e i j c x y
        rw [abs_of_nonneg this.1]; omega))
    have e1 : ((k x y : ℚ) / 2 ^ s) * (tapPx e R C kr kc px i j c x y : ℚ) = ((T x y : ℤ) : ℚ) / 2 ^ s := by
      show _ = ((k x y * tapPx e R C kr kc px i j c x y : ℤ) : ℚ) / 2 ^ s
      push_cast; ring
    have hm := is_mul (F := f32) (hK x y hx hy) hp (by rw [e1]; exact rep_dyadic _ _ (hT1 x y hx hy) hs)
    rw [e1] at hm
    have e2 : (((o + psum kc T x y : ℤ) : ℚ) / 2 ^ s) + ((T x y : ℤ) : ℚ) / 2 ^ s = ((o + psum kc T x (y+1) : ℤ) : ℚ) / 2 ^ s := by
      rw [psum_step, ← add_div]
      congr 1
      norm_cast
      ring
    have ha := is_add (F := f32) hw hm (by rw [e2]; exact rep_dyadic _ _ (hB x (y+1) hx hy) hs)
    rwa [e2] at ha
  have inner : ∀ x n w, x < kr → n ≤ kc → w.Is (((o + psum kc T x 0 : ℤ) : ℚ) / 2 ^ s) →
      ((List.range n).foldl (fun v y => f32.add v (f32.mul (f32.decode (K x y)) (f32.ofInt (tapPx e R C kr kc px i j c x y)))) w).Is
        (((o + psum kc T x n : ℤ) : ℚ) / 2 ^ s) := by
    intro x n w hx
    induction n with
    | zero => intro _ hw; exact hw
    | succ n ih =>
      intro hn hw
      rw [List.range_succ, List.foldl_append]
      exact step x n _ hx (by omega) (ih (by omega) hw)
  have outer : ∀ n, n ≤ kr → ((List.range n).foldl (fun v x => (List.range kc).foldl (fun v y =>
      f32.add v (f32.mul (f32.decode (K x y)) (f32.ofInt (tapPx e R C kr kc px i j c x y)))) v) v).Is
        (((o + psum kc T n 0 : ℤ) : ℚ) / 2 ^ s) := by
    intro n
    induction n with
    | zero => intro _; rw [psum_zero, add_zero]; exact hv
    | succ n ih =>
      intro hn
      rw [List.range_succ, List.foldl_append, psum_row]
      exact inner n kc _ (by omega) (le_refl _) (ih (by omega))
  have := outer kr (le_refl _)
  rw [psum_end] at this
  have e3 : (o:ℚ) / 2 ^ s + corr e R C kr kc px (fun x y => k x y / 2 ^ s) i j c
      = ((o + ∑ x ∈ Finset.range kr, ∑ y ∈ Finset.range kc, T x y : ℤ) : ℚ) / 2 ^ s := by
    unfold corr
    push_cast
    rw [add_div]
    congr 1
    rw [Finset.sum_div]
    refine Finset.sum_congr rfl fun x _ => ?_
    rw [Finset.sum_div]
    refine Finset.sum_congr rfl fun y _ => ?_
    show _ = ((k x y * tapPx e R C kr kc px i j c x y : ℤ) : ℚ) / 2 ^ s
    push_cast; ring
  rw [e3]
  exact this

/-- The kernel has the dyadic values `k x y / 2 ^ s`, the destination the values `o i j c / 2 ^ s`, and they are small enough for
`float` arithmetic to be exact. -/
structure Spec.ExactFilter (R C ch kr kc s : Nat) (old : Nat → Nat → Nat → Nat) (K : Nat → Nat → Nat) (k : Nat → Nat → ℤ)
    (o : Nat → Nat → Nat → ℤ) : Prop where
  scale : s ≤ 100
  kernel : ∀ x y, x < kr → y < kc → FloatIs f32 (K x y) (k x y / 2 ^ s)
  prev : ∀ i j c, i < R → j < C → c < ch → FloatIs f32 (old i j c) (o i j c / 2 ^ s)
  bound : ∀ i j c, i < R → j < C → c < ch → |o i j c| + 255 * ∑ x ∈ Finset.range kr, ∑ y ∈ Finset.range kc, |k x y| ≤ 2 ^ 24

/-- **C35**, the exact result: the previous value plus the correlation. -/
theorem C35_exact (e : Extension) (h : FilterArgs m sp dp kd R C ch kr kc px old K) {s : Nat} {k : Nat → Nat → ℤ}
    {o : Nat → Nat → Nat → ℤ} (hx : ExactFilter R C ch kr kc s old K k o) :
    ∃ m' out, hypercv_filter2D (some sp) (some dp) (some kd) kr kc e.code m = .ok ((), m') ∧ IsImageN m' dp R C 4 ch 4 out ∧
      OnlyPixels m m' dp ∧ ∀ i j c, i < R → j < C → c < ch →
        FloatIs f32 (out i j c) (o i j c / 2 ^ s + corr e R C kr kc px (fun x y => k x y / 2 ^ s) i j c) := by
  obtain ⟨m', out, r1, r2, r3, r4⟩ := C35_filter2D e h
  refine ⟨m', out, r1, r2, r3, ?_⟩
  intro i j c hi hj hc
  unfold FloatIs
  rw [r4 i j c hi hj hc]
  exact corrFloat_exact e hx.scale hx.kernel (hx.prev i j c hi hj hc) (hx.bound i j c hi hj hc)

/-- **C35**, restricted to destinations that are zero before the call (and to exact arithmetic): the result is the correlation
with the kernel.  What is missing is proved false below. -/
theorem C35_correlation_partial (e : Extension) (h : FilterArgs m sp dp kd R C ch kr kc px old K) {s : Nat} {k : Nat → Nat → ℤ}
    (hx : ExactFilter R C ch kr kc s old K k (fun _ _ _ => 0)) :
    ∃ m' out, hypercv_filter2D (some sp) (some dp) (some kd) kr kc e.code m = .ok ((), m') ∧ IsImageN m' dp R C 4 ch 4 out ∧
      OnlyPixels m m' dp ∧ ∀ i j c, i < R → j < C → c < ch →
        FloatIs f32 (out i j c) (corr e R C kr kc px (fun x y => k x y / 2 ^ s) i j c) := by
  obtain ⟨m', out, r1, r2, r3, r4⟩ := C35_exact e h hx
  refine ⟨m', out, r1, r2, r3, ?_⟩
  intro i j c hi hj hc
  have := r4 i j c hi hj hc
  rwa [Int.cast_zero, zero_div, zero_add] at this

/-- C35 is false: wherever the destination was not zero, the result is not the correlation. -/
theorem C35_refuted_previous (e : Extension) (h : FilterArgs m sp dp kd R C ch kr kc px old K) {s : Nat} {k : Nat → Nat → ℤ}
    {o : Nat → Nat → Nat → ℤ} (hx : ExactFilter R C ch kr kc s old K k o) :
    ∃ m' out, hypercv_filter2D (some sp) (some dp) (some kd) kr kc e.code m = .ok ((), m') ∧ IsImageN m' dp R C 4 ch 4 out ∧
      ∀ i j c, i < R → j < C → c < ch → o i j c ≠ 0 →
        ¬ FloatIs f32 (out i j c) (corr e R C kr kc px (fun x y => k x y / 2 ^ s) i j c) := by
  obtain ⟨m', out, r1, r2, r3, r4⟩ := C35_exact e h hx
  refine ⟨m', out, r1, r2, ?_⟩
  intro i j c hi hj hc h0 hf
  obtain ⟨b1, e1⟩ := r4 i j c hi hj hc
  obtain ⟨b2, e2⟩ := hf
  rw [e1] at e2
  injection e2 with _ e3
  have hz : (o i j c : ℚ) / 2 ^ s = 0 := by linarith
  rcases div_eq_zero_iff.mp hz with h1 | h1
  · exact h0 (by exact_mod_cast h1)
  · exact absurd h1 (by positivity)

/-- C35 is false for byte destinations: the check of the destination's type is an assignment, so a byte image is accepted, written
as if it held `float`s, and overrun. -/
theorem C35_refuted_bytes (e : Extension) {dpx : Nat → Nat → Nat → UInt8} (hs : IsImage8 m sp R C ch px) (hd : IsImage8 m dp R C ch dpx)
    (hker : IsMat m kd 4 kr kc K) (sep : SepPixels m sp dp) (ksep : ¬ PixelBlock m dp kd) (hch : ch = 1 ∨ ch = 3)
    (hkr : 0 < kr) (hkc : 0 < kc) (hsz : R * C * ch ≤ 2147483600) (hks : kr * kc ≤ 2147483647) (hr : R + kr ≤ 2147483647)
    (hc : C + kc ≤ 2147483647) :
    hypercv_filter2D (some sp) (some dp) (some kd) kr kc e.code m = .error (.ub .oob) := by
  have pR := hs.posR
  have pC := hs.posC
  have pch := hs.posCh
  have hRC : R * C ≤ R * C * ch := Nat.le_mul_of_pos_right _ pch
  have hb := size_bounds pR pC (by omega)
  have hpos : 0 < R * C * ch := Nat.mul_pos (Nat.mul_pos pR pC) pch
  obtain ⟨sd, si, s1, s2⟩ := img8_lit hs
  obtain ⟨dd, di, d1, d2⟩ := img8_lit hd
  have hne1 := sep_ne sep s1 d1
  have hne2 : kd ≠ dd := fun he => ksep ⟨_, d1, he⟩
  have hne3 : sp ≠ dp := by
    rintro rfl
    exact sep sd ⟨⟨_, s1, rfl⟩, ⟨_, s1, rfl⟩⟩
  have hk := isArray_iff.mp hker
  unfold hypercv_filter2D
  rw [nonNull_some, nonNull_some, nonNull_some, bind_ok (getS_ok d1)]
  refine (bind_ok (setS_ok d1)).trans ?_
  have s1' : (m.withS dp ⟨R, C, 4, ch, 1, dd, di⟩).sm sp = some ⟨R, C, 1, ch, 1, sd, si⟩ := (withS_sm_ne _ _ hne3).trans s1
  rw [bind_ok (getS_ok s1'), bind_ok (getS_ok (withS_sm_self _ _ _))]
  refine filter_small (a := corrOf e R C kr kc px K) (N := R * C * ch) (sd := sd) (dd := dd) (kd := kd) hne1 hne2 hch (by omega) hks hr hc pR pC hkr hkc
    (tap_ext e pR (by omega) (by show kr / 2 + R ≤ _; omega)) (tap_ext e pC (by omega) (by show kc / 2 + C ≤ _; omega)) (by omega) rfl rfl rfl rfl rfl ?_
  exact ⟨s2, hk, _, d2⟩

/-- **C62**: neither the median filter nor the mean filter ever returns. -/
theorem C62_blur_never_returns (src dst : Option Nat) (size : Int) (m : Mem) :
    (∃ e, hypercv_medianblur src dst size m = .error e) ∧ (∃ e, hypercv_meanblur src dst size m = .error e) ∧
      (∀ p, src = some p → hypercv_medianblur src dst size m = .error .exit ∧ hypercv_meanblur src dst size m = .error .exit) := by
  unfold hypercv_medianblur hypercv_meanblur
  cases src with
  | none =>
    refine ⟨?_, ⟨.ub .nullDeref, rfl⟩, fun p hp => by cases hp⟩
    by_cases h : Int.tmod size 2 = 1
    · refine ⟨.ub .nullDeref, ?_⟩
      rw [cassert_bind (by simp), cassert_bind (by simpa using h)]
      rfl
    · refine ⟨.exit, ?_⟩
      rw [cassert_bind (by simp)]
      have : decide (Int.tmod size 2 = 1) = false := by simpa using h
      simp only [this]
      rfl
  | some p => exact ⟨⟨.exit, rfl⟩, ⟨.exit, rfl⟩, fun q hq => ⟨rfl, rfl⟩⟩

end

/-- a byte image (handle 1), a zero float image (handle 3) and a 1 x 3 kernel 1 2 1 (block 4) -/
def demoFilter : Mem :=
  ((Mem.empty.newImage 2 3 1 1 1 (imgBytes 3 1 1 demoPx)).newImage 2 3 4 1 4 (imgBytes 3 1 4 fun _ _ _ t => leByte (f32.encode (.fin false 0)) t)).grow
    (1 * 3 * 4) (encN 4 fun t => f32.encode (.fin false (if t = 1 then 2 else 1)))

example : ∃ m sp dp kd R C kr kc px old K k, FilterArgs m sp dp kd R C 1 kr kc px old K ∧
    ExactFilter R C 1 kr kc 0 old K k (fun _ _ _ => 0) ∧ 1 < R * C ∧ 1 < kr * kc := by
  have w1 : (Mem.empty.newImage 2 3 1 1 1 (imgBytes 3 1 1 demoPx)).WF := newImage_WF empty_WF
  have w2 : ((Mem.empty.newImage 2 3 1 1 1 (imgBytes 3 1 1 demoPx)).newImage 2 3 4 1 4 (imgBytes 3 1 4 fun _ _ _ t => leByte (f32.encode (.fin false 0)) t)).WF :=
    newImage_WF w1
  have r1 : f32.Good (.fin false 1) := ⟨by have := rep1 (n := 1) (by decide); exact_mod_cast this, fun _ => by norm_num⟩
  have r2 : f32.Good (.fin false 2) := ⟨by have := rep1 (n := 2) (by decide); exact_mod_cast this, fun _ => by norm_num⟩
  have r0 : f32.Good (.fin false 0) := ⟨rep_zero _, fun h => absurd rfl h⟩
  have g : ∀ t : Nat, f32.Good (.fin false (if t = 1 then 2 else 1)) := by intro t; split <;> assumption
  refine ⟨demoFilter, 1, 3, 4, 2, 3, 1, 3, fun i j c => demoPx i j c 0, fun _ _ _ => f32.encode (.fin false 0),
    fun _ y => f32.encode (.fin false (if y = 1 then 2 else 1)), fun _ y => if y = 1 then 2 else 1, ⟨?_, ?_, ?_, ?_, ?_, Or.inl rfl, by decide, by decide, by decide, by decide, by decide, by decide⟩,
    ⟨by decide, ?_, ?_, ?_⟩, by decide, by decide⟩
  · refine img_congr (img_frame w2 (img_frame w1 (newImage_isImage (m := Mem.empty) (px := demoPx) rfl (by decide) (by decide) (by decide)) (newImage_frame _)) ?_) ?_
    · intro h hh
      exact ⟨grow_blk_ne _ _ _ (by omega), rfl, rfl⟩
    · intro i j c t _ _ _ ht
      obtain rfl : t = 0 := by omega
      rfl
  · refine ⟨img_frame w2 (newImage_isImage (m := Mem.empty.newImage 2 3 1 1 1 (imgBytes 3 1 1 demoPx)) rfl (by decide) (by decide) (by decide)) ?_, ?_⟩
    · intro h hh
      exact ⟨grow_blk_ne _ _ _ (by omega), rfl, rfl⟩
    · intro i j c _ _ _
      exact f32_encode_lt r0
  · apply isArray_iff.mpr
    refine ⟨?_, fun t _ => f32_encode_lt (g _)⟩
    have h := grow_holds ((Mem.empty.newImage 2 3 1 1 1 (imgBytes 3 1 1 demoPx)).newImage 2 3 4 1 4 (imgBytes 3 1 4 fun _ _ _ t => leByte (f32.encode (.fin false 0)) t)) (1 * 3 * 4)
      (encN 4 fun t => f32.encode (.fin false (if t = 1 then 2 else 1)))
    refine Holds.congr h ?_
    refine encN_congr (n := 3) (w := 4) ?_
    intro t ht
    have : t % 3 = t := Nat.mod_eq_of_lt ht
    beta_reduce
    rw [this]
  · rintro h ⟨⟨a, h1, rfl⟩, ⟨b, h2, h3⟩⟩
    have h1' : some (newSHdr Mem.empty 2 3 1 1 1) = some a := h1
    have h2' : some (newSHdr (Mem.empty.newImage 2 3 1 1 1 (imgBytes 3 1 1 demoPx)) 2 3 4 1 4) = some b := h2
    cases h1'; cases h2'
    revert h3; decide
  · rintro ⟨b, h2, h3⟩
    have h2' : some (newSHdr (Mem.empty.newImage 2 3 1 1 1 (imgBytes 3 1 1 demoPx)) 2 3 4 1 4) = some b := h2
    cases h2'
    revert h3; decide
  · intro x y _ _
    refine ⟨false, (f32_dec_enc (g y)).trans ?_⟩
    split <;> norm_num
  · intro i j c _ _ _
    refine ⟨false, (f32_dec_enc r0).trans ?_⟩
    norm_num
  · intro i j c _ _ _
    decide

end HyperCV
