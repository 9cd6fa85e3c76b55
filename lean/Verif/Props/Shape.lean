/- Shape matching: C99 (Hu's seven moment invariants of an image) and C100 (the similarity of two shapes). -/
import Verif.Proof.ShapeMove
import Verif.Proof.Math
import Verif.Props.Decomp

namespace HyperCV
open Spec Finset

/-- grey values of a one-channel image -/
abbrev level (px : Nat → Nat → Nat → UInt8) (j i : Nat) : Nat := (px j i 0).toNat

theorem img_mass {R C : Nat} {px : Nat → Nat → Nat → UInt8} : mass R C (grey C (imgBytes C 1 1 fun i j c _ => px i j c)) = mass R C (level px) :=
  (mass_congr fun _ _ _ hi => grey_img hi).1

theorem img_moment {R C : Nat} {px : Nat → Nat → Nat → UInt8} : moment R C (grey C (imgBytes C 1 1 fun i j c _ => px i j c)) = moment R C (level px) :=
  moment_congr fun _ _ _ hi => grey_img hi

theorem level_mass {R C : Nat} {px : Nat → Nat → Nat → UInt8} (hR : R ≤ 512) (hC : C ≤ 512) : mass R C (level px) ≤ 67108864 :=
  mass_le hR hC fun j i => by have := UInt8.toNat_lt (px j i 0); unfold level; omega

/-! ### C99: the seven values -/

/-- **C99**, the part that holds: for every one-channel byte image of at most 512 x 512 pixels that is not black, the seven values stored are finite and are Hu's
invariants of the image (with moments about the pixel nearest to the centre of mass) up to `2^-38` of their magnitude; nothing else is modified. -/
theorem C99_hu_partial {pow : FV → FV → FV} (hp : GoodPow pow) {m : Mem} {p hu R C : Nat} {px : Nat → Nat → Nat → UInt8} {f : Nat → UInt8} (hi : IsImage8 m p R C 1 px)
    (hR : R ≤ 512) (hC : C ≤ 512) (hn : 0 < mass R C (level px)) (hh : Bytes m hu 56 f) :
    ∃ m' a, calc_hu_moment pow (some hu) (some p) m = .ok ((), m') ∧ IsArray m' hu 8 7 a ∧
      (∀ k, k < 7 → ∃ z : ℚ, (f64.decode (a k)).Is z ∧
        |(z:ℝ) - huOf (eta R C (level px)) k| ≤ huScale (size2 R C (level px)) (size3 R C (level px)) k / 2 ^ 38) ∧
      m'.sm = m.sm ∧ m'.hm = m.hm ∧ m'.next = m.next ∧ ∀ h, h ≠ hu → m'.blk h = m.blk h := by
  have hm := level_mass (px := px) hR hC
  obtain ⟨s, w, i, r⟩ := hu_run (pow := pow) hR hC (shape_img hi) (by rw [img_mass]; exact hn)
  rw [img_mass, img_moment] at i
  refine ⟨_, _, r m p (shape_img hi) hu f (bytes_iff.1 hh), isArray_iff.2 (holdsN_putN _ fun _ _ => f64_encode_lt (good_hu _ _)), ?_, rfl, rfl, rfl, ?_⟩
  · intro k _
    obtain ⟨z, z1, -, z2, -⟩ := hu_err hp hR hC hn hm i i k
    refine ⟨z, ?_, z2⟩
    rw [f64_dec_enc (good_hu _ _)]
    exact z1
  · intro h hne
    simp [Mem.putN, Mem.put, Mem.setBlk, hne]

/-- **C99 is false** of a black image: the centre of mass is a division of zero by zero, and its conversion to an integer is undefined. -/
theorem C99_black_undefined {pow : FV → FV → FV} {m : Mem} {p R C : Nat} {px : Nat → Nat → Nat → UInt8} (hi : IsImage8 m p R C 1 px) (hR : R ≤ 512) (hC : C ≤ 512)
    (h0 : ∀ j i, j < R → i < C → px j i 0 = 0) (hu : Nat) : calc_hu_moment pow (some hu) (some p) m = .error (.ub .fpConv) := by
  obtain ⟨ch, sd, inl, N, g, a1, c1, c2, c3⟩ := (shape_img hi).obj
  have a2 : ∀ x : Nat, x < R * C → load sd (x:Int) m = .ok (imgBytes C 1 1 (fun i j c _ => px i j c) x, m) := fun x hx => by rw [load_ok c1 (by omega), c3 x hx]
  obtain ⟨s, f1, -, f2, f3, f4⟩ := huFirst_run hR hC a2 a2
  have hz : ∀ j i, j < R → i < C → grey C (imgBytes C 1 1 fun i j c _ => px i j c) j i = (fun _ _ => 0 : Nat → Nat → Nat) j i := fun j i hj hi => by
    rw [grey_img hi, h0 j i hj hi]; rfl
  obtain ⟨e1, e2, -⟩ := mass_congr hz
  rw [e2] at f2
  rw [e1] at f4
  obtain ⟨s1, f2⟩ := f2
  obtain ⟨s2, f4⟩ := f4
  have es : ev (CI.lit (C:Int) * CI.lit (get_elemsize 1)) = pure (C:Int) := by
    show ev (CI.lit (C:Int) * CI.lit 1) = _
    rw [CI.mul_ok (by constructor <;> omega), Int.mul_one]
    rfl
  show (getS p >>= _) m = _
  rw [bind_ok (getS_ok a1)]
  show (ev (CI.lit (C:Int) * CI.lit (get_elemsize 1)) >>= _) m = _
  rw [es]
  show (huFirst sd R C C >>= _) m = _
  rw [bind_ok f1]
  have e : huCentre s.s10 s.s00 = fail (.ub .fpConv) := by
    unfold huCentre
    rw [f2, f4]
    simp [massX, mass, Fmt.div, Fmt.add, FV.trunc]
  rw [e]
  rfl

/-- **C99 is false** of a call without an array: the values are written to a new block of 56 bytes that the caller cannot reach. -/
theorem C99_null_lost {pow : FV → FV → FV} {m : Mem} (hm : m.WF) {p R C : Nat} {px : Nat → Nat → Nat → UInt8} (hi : IsImage8 m p R C 1 px)
    (hR : R ≤ 512) (hC : C ≤ 512) (hn : 0 < mass R C (level px)) :
    ∃ m', calc_hu_moment pow none (some p) m = .ok ((), m') ∧ m'.sm = m.sm ∧ m'.hm = m.hm ∧ (∀ h, h < m.next → m'.blk h = m.blk h) ∧
      m.blk m.next = none ∧ ∃ g, Bytes m' m.next 56 g := by
  obtain ⟨s, w, i, r⟩ := hu_run (pow := pow) hR hC (shape_img hi) (by rw [img_mass]; exact hn)
  have r' := r (m.grow 56 (m.junk m.next)) p ((shape_img hi).grow hm) m.next _ (grow_holds m 56 _)
  refine ⟨(m.grow 56 (m.junk m.next)).putN m.next 8 7 fun k => f64.encode (huValues (huNormalise pow s w) k), ?_, rfl, rfl, ?_, wf_free hm _ (le_refl _), _,
    bytes_iff.2 (holds_put _ _ _ _)⟩
  · rw [← r']
    rfl
  · intro h hlt
    have hne : h ≠ m.next := by omega
    simp [Mem.putN, Mem.put, Mem.setBlk, Mem.grow, hne]

/-- **C99 is false** of images of more than one channel: only the first `R * C` bytes are looked at.  Two images of `ch` channels that agree in the first `r` of at
most `ch * r` rows get the same seven values, whatever the other rows contain. -/
theorem C99_channels_ignored {pow : FV → FV → FV} {m m' : Mem} {p p' hu hu' R C ch r : Nat} {px px' : Nat → Nat → Nat → UInt8} {f f' : Nat → UInt8}
    (hi : IsImage8 m p R C ch px) (hi' : IsImage8 m' p' R C ch px') (hR : R ≤ 512) (hC : C ≤ 512) (hr : R ≤ ch * r)
    (same : ∀ i j c, i < r → j < C → c < ch → px i j c = px' i j c) (hn : ∃ i j c, j < C ∧ c < ch ∧ (i * C + j) * ch + c < R * C ∧ px i j c ≠ 0)
    (hh : Bytes m hu 56 f) (hh' : Bytes m' hu' 56 f') :
    ∃ a m1 m1', calc_hu_moment pow (some hu) (some p) m = .ok ((), m1) ∧ calc_hu_moment pow (some hu') (some p') m' = .ok ((), m1') ∧
      IsArray m1 hu 8 7 a ∧ IsArray m1' hu' 8 7 a := by
  have hC0 := hi.posC
  have hch := hi.posCh
  set b := imgBytes C ch 1 fun i j c _ => px i j c with hb
  have h1 : ShapeAt m p R C b := shape_img hi
  have h2 : ShapeAt m' p' R C b := by
    obtain ⟨ch', data, inl, N, g, a1, a2, a3, a4⟩ := (shape_img hi').obj
    refine ⟨ch', data, inl, N, g, a1, a2, a3, ?_⟩
    intro x hx
    rw [a4 x hx, hb]
    unfold imgBytes
    rw [Nat.div_one]
    refine (same _ _ _ ?_ (Nat.mod_lt _ hC0) (Nat.mod_lt _ hch)).symm
    rw [Nat.div_div_eq_div_mul, Nat.div_lt_iff_lt_mul (by positivity)]
    calc x < R * C := hx
      _ ≤ ch * r * C := Nat.mul_le_mul_right _ hr
      _ = r * (ch * C) := by ring
  have hn' : 0 < mass R C (grey C b) := by
    obtain ⟨i, j, c, hj, hc, hlt, hne⟩ := hn
    set x := (i * C + j) * ch + c with hx
    have e : b x = px i j c := imgBytes_at8 hj hc
    have hy : x / C < R := (Nat.div_lt_iff_lt_mul hC0).2 hlt
    have hg : grey C b (x / C) (x % C) ≠ 0 := by
      unfold grey
      rw [Nat.div_add_mod', e]
      intro h
      exact hne (UInt8.toNat_inj.1 h)
    unfold mass
    refine lt_of_lt_of_le (Nat.pos_of_ne_zero hg) (le_trans ?_ (single_le_sum (fun _ _ => Nat.zero_le _) (mem_range.2 hy)))
    exact single_le_sum (f := fun i => grey C b (x / C) i) (fun _ _ => Nat.zero_le _) (mem_range.2 (Nat.mod_lt _ hC0))
  obtain ⟨s, w, -, r⟩ := hu_run (pow := pow) hR hC h1 hn'
  exact ⟨_, _, _, r m p h1 hu f (bytes_iff.1 hh), r m' p' h2 hu' f' (bytes_iff.1 hh'), isArray_iff.2 (holdsN_putN _ fun _ _ => f64_encode_lt (good_hu _ _)),
    isArray_iff.2 (holdsN_putN _ fun _ _ => f64_encode_lt (good_hu _ _))⟩

/-- a row of four pixels -/
def rowPx (_ i _ : Nat) : UInt8 := if i = 0 then 5 else if i = 3 then 1 else 0

theorem eta_row {f : Nat → Nat → Nat} {M : Int} (h0 : mass 1 4 f = 6) (h30 : moment 1 4 f 3 0 = M) (h03 : moment 1 4 f 0 3 = 0) (h12 : moment 1 4 f 1 2 = 0)
    (h21 : moment 1 4 f 2 1 = 0) (hM : |M| ≤ 27) : huOf (eta 1 4 f) 2 = (M:ℝ) ^ 2 / 7776 ∧ huScale (size2 1 4 f) (size3 1 4 f) 2 ≤ 1 := by
  have s6 : Real.sqrt 6 ^ 2 = 6 := Real.sq_sqrt (by norm_num)
  have s2 : (2:ℝ) ≤ Real.sqrt 6 := Real.le_sqrt_of_sq_le (by norm_num)
  have s3 : (8:ℝ) ≤ Real.sqrt 6 ^ 3 := by
    calc (8:ℝ) = 2 ^ 3 := by norm_num
      _ ≤ _ := pow_le_pow_left₀ (by norm_num) s2 3
  have e30 : eta 1 4 f 3 0 = M / (6 * Real.sqrt 6 ^ 3) := by unfold eta; rw [h0, h30]; norm_num
  have e03 : eta 1 4 f 0 3 = 0 := by unfold eta; rw [h03]; simp
  have e12 : eta 1 4 f 1 2 = 0 := by unfold eta; rw [h12]; simp
  have e21 : eta 1 4 f 2 1 = 0 := by unfold eta; rw [h21]; simp
  have s9 : (Real.sqrt 6 ^ 3) ^ 2 = 216 := by
    rw [← pow_mul, show 3 * 2 = 2 * 3 from rfl, pow_mul, s6]; norm_num
  constructor
  · simp only [huOf]
    rw [e30, e03, e12, e21, mul_zero, sub_zero, sub_zero, div_pow, mul_pow, s9]
    norm_num
  · have h1 : |eta 1 4 f 3 0| ≤ 1 := by
      rw [e30, abs_div, abs_of_pos (show (0:ℝ) < 6 * Real.sqrt 6 ^ 3 by positivity), div_le_one (by positivity)]
      have : |(M:ℝ)| ≤ 27 := by exact_mod_cast hM
      linarith
    have h2 : size3 1 4 f ≤ 1 := by
      unfold size3
      rw [e03, e12, e21, abs_zero]
      exact max_le (by norm_num) (max_le (max_le h1 (by norm_num)) (by norm_num))
    have h3 : 0 ≤ size3 1 4 f := le_trans (by positivity) (le_max_left _ _)
    show size3 1 4 f ^ 2 ≤ 1
    nlinarith

/-- **C99 is false** of rotated shapes: the centre is rounded to a pixel, halves towards the larger coordinate, so that an image and the same image turned upside down
get different values.  The third value of the row `5 0 0 1` is less than 0.002, that of the row `1 0 0 5` is more than 0.09. -/
theorem C99_half_turn {pow : FV → FV → FV} (hp : GoodPow pow) {m m' : Mem} {p p' hu hu' : Nat} {f f' : Nat → UInt8} (hi : IsImage8 m p 1 4 1 rowPx)
    (hi' : IsImage8 m' p' 1 4 1 fun j i c => rowPx (0 - j) (3 - i) c) (hh : Bytes m hu 56 f) (hh' : Bytes m' hu' 56 f') :
    ∃ m1 m1' a a', calc_hu_moment pow (some hu) (some p) m = .ok ((), m1) ∧ calc_hu_moment pow (some hu') (some p') m' = .ok ((), m1') ∧
      IsArray m1 hu 8 7 a ∧ IsArray m1' hu' 8 7 a' ∧
      ∃ z z' : ℚ, (f64.decode (a 2)).Is z ∧ (f64.decode (a' 2)).Is z' ∧ z < 2 / 1000 ∧ 9 / 100 < z' := by
  obtain ⟨m1, a, r1, i1, v1, -⟩ := C99_hu_partial hp hi (by decide) (by decide) (by decide +kernel) hh
  obtain ⟨m1', a', r1', i1', v1', -⟩ := C99_hu_partial hp hi' (by decide) (by decide) (by decide +kernel) hh'
  obtain ⟨z, z1, z2⟩ := v1 2 (by decide)
  obtain ⟨z', z1', z2'⟩ := v1' 2 (by decide)
  obtain ⟨e, b⟩ := eta_row (f := level rowPx) (M := 3) (by decide +kernel) (by decide +kernel) (by decide +kernel) (by decide +kernel) (by decide +kernel) (by decide)
  obtain ⟨e', b'⟩ := eta_row (f := level fun j i c => rowPx (0 - j) (3 - i) c) (M := -27) (by decide +kernel) (by decide +kernel) (by decide +kernel) (by decide +kernel)
    (by decide +kernel) (by decide)
  rw [e] at z2
  rw [e'] at z2'
  have h1 := (abs_le.1 (le_trans z2 (div_le_div_of_nonneg_right b (by positivity)))).2
  have h2 := (abs_le.1 (le_trans z2' (div_le_div_of_nonneg_right b' (by positivity)))).1
  refine ⟨m1, m1', a, a', r1, r1', i1, i1', z, z', z1, z1', ?_, ?_⟩
  · have : (z:ℝ) < ((2 / 1000 : ℚ) : ℝ) := by push_cast at h1 ⊢; norm_num at h1 ⊢; linarith
    exact_mod_cast this
  · have : ((9 / 100 : ℚ) : ℝ) < z' := by push_cast at h2 ⊢; norm_num at h2 ⊢; linarith
    exact_mod_cast this

/-- a library function that meets the assumption -/
theorem goodPow_exists : ∃ pow, GoodPow pow := by
  classical
  have near : ∀ q : ℚ, ∃ p : ℚ, 0 < q → |(p:ℝ) - (q:ℝ) ^ 2 * Real.sqrt q| ≤ (q:ℝ) ^ 2 * Real.sqrt q / 2 ^ 50 := by
    intro q
    by_cases hq : 0 < q
    · have hq' : (0:ℝ) < q := by exact_mod_cast hq
      have hpos : 0 < (q:ℝ) ^ 2 * Real.sqrt q / 2 ^ 50 := by
        have := Real.sqrt_pos.2 hq'
        positivity
      obtain ⟨p, p1, p2⟩ := exists_rat_btwn (show (q:ℝ) ^ 2 * Real.sqrt q < (q:ℝ) ^ 2 * Real.sqrt q + (q:ℝ) ^ 2 * Real.sqrt q / 2 ^ 50 by linarith)
      refine ⟨p, fun _ => ?_⟩
      rw [abs_of_nonneg (by linarith)]
      linarith
    · exact ⟨0, fun h => absurd h hq⟩
  choose g hg using near
  refine ⟨fun v e => match v with
    | .fin _ q => if e = .fin false 2 then .fin false (q ^ 2) else .fin false (g q)
    | _ => .nan, ?_, ?_⟩
  · intro n hn _
    refine ⟨(n:ℚ) ^ 2, ?_, ?_⟩
    · rintro v ⟨s, rfl⟩
      exact ⟨false, by simp⟩
    · push_cast
      rw [sub_self, abs_zero]
      positivity
  · intro n hn _
    refine ⟨g n, ?_, ?_⟩
    · rintro v ⟨s, rfl⟩
      refine ⟨false, ?_⟩
      have : FV.fin false (5 / 2) ≠ FV.fin false 2 := by
        intro h
        injection h with _ h
        norm_num at h
      simp only [if_neg this]
    · have := hg n (by exact_mod_cast hn)
      exact_mod_cast this

/-- two images and an array of 56 bytes -/
theorem two_shapes {R C ch R' C' ch' : Nat} (px py : Nat → Nat → Nat → UInt8) (hR : 0 < R) (hC : 0 < C) (hch : 0 < ch) (hR' : 0 < R') (hC' : 0 < C') (hch' : 0 < ch') :
    ∃ (m : Mem) (hu : Nat) (f : Nat → UInt8), m.WF ∧ IsImage8 m 1 R C ch px ∧ IsImage8 m 3 R' C' ch' py ∧ Bytes m hu 56 f := by
  have w1 : (Mem.empty.newImage R C 1 ch 1 (imgBytes C ch 1 fun i j c _ => px i j c)).WF := newImage_WF empty_WF
  have i1 := newImage_isImage (m := Mem.empty) (R := R) (C := C) (dt := 1) (ch := ch) (E := 1) (px := fun i j c _ => px i j c) rfl hR hC hch
  set m1 := Mem.empty.newImage R C 1 ch 1 (imgBytes C ch 1 fun i j c _ => px i j c) with h1
  have w2 : (m1.newImage R' C' 1 ch' 1 (imgBytes C' ch' 1 fun i j c _ => py i j c)).WF := newImage_WF w1
  have i2 := newImage_isImage (m := m1) (R := R') (C := C') (dt := 1) (ch := ch') (E := 1) (px := fun i j c _ => py i j c) rfl hR' hC' hch'
  have i1' := img_frame w1 i1 (newImage_frame m1 (R := R') (C := C') (dt := 1) (ch := ch') (E := 1) (f := imgBytes C' ch' 1 fun i j c _ => py i j c))
  set m2 := m1.newImage R' C' 1 ch' 1 (imgBytes C' ch' 1 fun i j c _ => py i j c) with h2
  have fr : Frame m2 (m2.grow 56 fun _ => 0) := by
    intro h hlt
    refine ⟨grow_blk_ne _ _ _ (by omega), rfl, rfl⟩
  exact ⟨m2.grow 56 fun _ => 0, m2.next, fun _ => 0, grow_WF w2 _ _, img_frame w2 i1' fr, img_frame w2 i2 fr, bytes_iff.2 (grow_holds _ _ _)⟩

/-- an image, the same image upside down, an array for the values, a function `pow` -/
example : ∃ (pow : FV → FV → FV) (m : Mem) (hu : Nat) (f : Nat → UInt8), GoodPow pow ∧ IsImage8 m 1 1 4 1 rowPx ∧
    (IsImage8 m 3 1 4 1 fun j i c => rowPx (0 - j) (3 - i) c) ∧ Bytes m hu 56 f ∧ 0 < mass 1 4 (level rowPx) := by
  obtain ⟨pow, hp⟩ := goodPow_exists
  obtain ⟨m, hu, f, -, h1, h2, h3⟩ := two_shapes rowPx (fun j i c => rowPx (0 - j) (3 - i) c) (R := 1) (C := 4) (ch := 1) (R' := 1) (C' := 4) (ch' := 1)
    (by decide) (by decide) (by decide) (by decide) (by decide) (by decide)
  exact ⟨pow, m, hu, f, hp, h1, h2, h3, by decide +kernel⟩

/-- two images of two channels that differ in the second row only -/
example : ∃ (m : Mem) (hu : Nat) (f : Nat → UInt8), (IsImage8 m 1 2 5 2 fun i _ _ => if i = 0 then 7 else 0) ∧ (IsImage8 m 3 2 5 2 fun i j _ => if i = 0 then 7 else UInt8.ofNat j) ∧
    Bytes m hu 56 f ∧ 2 ≤ 2 * 1 := by
  obtain ⟨m, hu, f, -, h1, h2, h3⟩ := two_shapes (fun i _ _ => if i = 0 then 7 else 0) (fun i j _ => if i = 0 then 7 else UInt8.ofNat j) (R := 2) (C := 5) (ch := 2) (R' := 2)
    (C' := 5) (ch' := 2) (by decide) (by decide) (by decide) (by decide) (by decide) (by decide)
  exact ⟨m, hu, f, h1, h2, h3, by decide⟩

/-! ### C100: the similarity -/

variable {m : Mem} {p q R C R' C' : Nat} {px py : Nat → Nat → Nat → UInt8}

/-- the memory after a comparison: two blocks of 56 bytes more than before, everything else as before -/
def TwoMore (m m' : Mem) : Prop :=
  m'.sm = m.sm ∧ m'.hm = m.hm ∧ (∀ h, h < m.next → m'.blk h = m.blk h) ∧ ∃ h1 h2 g1 g2, h1 ≠ h2 ∧ m.blk h1 = none ∧ m.blk h2 = none ∧ Bytes m' h1 56 g1 ∧ Bytes m' h2 56 g2

theorem twoMore (hm : m.WF) (A B : Nat → FV) : TwoMore m (m.matched A B) := by
  refine ⟨rfl, rfl, ?_, m.next, m.next + 1, _, _, by omega, wf_free hm _ (le_refl _), wf_free hm _ (by omega),
    bytes_iff.2 ((holds_put _ _ _ _).put_ne (by omega)), bytes_iff.2 (holds_put _ _ _ _)⟩
  intro h hlt
  have h1 : h ≠ m.next := by omega
  have h2 : h ≠ m.next + 1 := by omega
  simp [Mem.matched, Mem.putN, Mem.put, Mem.setBlk, Mem.grow, h1, h2]

/-- **C100**, first part: the similarity of two images of at most 512 x 512 pixels, neither of them black, is the same in both orders, for every library function
`pow`.  It is not a number, minus infinity, or a number that is at most one. -/
theorem C100_symmetric_partial {pow : FV → FV → FV} (hm : m.WF) (hi : IsImage8 m p R C 1 px) (hi' : IsImage8 m q R' C' 1 py) (hR : R ≤ 512) (hC : C ≤ 512) (hR' : R' ≤ 512)
    (hC' : C' ≤ 512) (hn : 0 < mass R C (level px)) (hn' : 0 < mass R' C' (level py)) :
    ∃ v m1 m2, hypercv_match_shapes pow (some p) (some q) m = .ok (v, m1) ∧ hypercv_match_shapes pow (some q) (some p) m = .ok (v, m2) ∧
      (v = .nan ∨ v = .inf true ∨ ∃ z : ℚ, v.Is z ∧ z ≤ 1) := by
  obtain ⟨s, w, s', w', -, -, r1, r2⟩ := match_run (pow := pow) hm hR hC hR' hC' (shape_img hi) (shape_img hi') (by rw [img_mass]; exact hn) (by rw [img_mass]; exact hn')
  rw [simVal_comm] at r2
  exact ⟨_, _, _, r1, r2, simVal_le _ _⟩

/-- **C100**, second part: the same shape drawn at two places, on two black grounds of at most 512 x 512 pixels, has the similarity one, if it has more than one pixel. -/
theorem C100_moved_partial {pow : FV → FV → FV} (hp : GoodPow pow) (hm : m.WF) {R0 C0 dy dx dy' dx' : Nat} {f : Nat → Nat → Nat} (hi : IsImage8 m p R C 1 px)
    (hi' : IsImage8 m q R' C' 1 py) (hR : R ≤ 512) (hC : C ≤ 512) (hR' : R' ≤ 512) (hC' : C' ≤ 512) (hf : Spread R0 C0 f)
    (h1 : Placed R0 C0 f R C (level px) dy dx) (h2 : Placed R0 C0 f R' C' (level py) dy' dx') :
    ∃ v m1, hypercv_match_shapes pow (some p) (some q) m = .ok (v, m1) ∧ v.Is 1 := by
  have hn := spread_mass hf
  have e1 := mass_placed h1
  have e2 := mass_placed h2
  obtain ⟨s, w, s', w', i1, i2, r1, -⟩ := match_run (pow := pow) hm hR hC hR' hC' (shape_img hi) (shape_img hi') (by rw [img_mass, e1]; exact hn) (by rw [img_mass, e2]; exact hn)
  rw [img_mass, img_moment] at i1 i2
  rw [e1, show moment R C (level px) = moment R0 C0 f from funext fun p => funext fun q => moment_placed h1 hn p q] at i1
  rw [e2, show moment R' C' (level py) = moment R0 C0 f from funext fun p => funext fun q => moment_placed h2 hn p q] at i2
  have hb : mass R0 C0 f ≤ 67108864 := by rw [← e1]; exact level_mass hR hC
  have hR0 : R0 ≤ 512 := by have := h1.1; omega
  have hC0 : C0 ≤ 512 := by have := h1.2.1; omega
  have rU := rng_size2 hR0 hC0 hn hb
  have rV := rng_size3 hR0 hC0 hn hb
  refine ⟨_, _, r1, sim_one ?_⟩
  intro k _
  obtain ⟨z, z1, z1', z2, z3⟩ := hu_err hp hR0 hC0 hn hb i1 i2 k
  refine ⟨z, z1, z1', ?_, ?_⟩
  · have h : |(z:ℝ)| ≤ 2 ^ 400 := by
      refine le_trans z3 (le_trans (mul_le_mul_of_nonneg_right (huScale_le rU rV k) (by positivity)) ?_)
      rw [← pow_add]
      exact pow_le_pow_right₀ (by norm_num) (by norm_num)
    exact_mod_cast h
  · rintro rfl
    have hs := size2_le hf hb
    have h80 : (1:ℝ) / 2 ^ 80 ≤ size2 R0 C0 f := le_max_left _ _
    have z2' : |(z:ℝ) - huOf (eta R0 C0 f) 0| ≤ size2 R0 C0 f / 2 ^ 38 := z2
    have h3 := (abs_le.1 z2').1
    have h4 : (2:ℝ) ^ (-100 : ℤ) ≤ z := by
      have h5 : (2:ℝ) ^ (-100 : ℤ) ≤ 1 / 2 ^ 81 := by
        rw [one_div, ← zpow_natCast, ← zpow_neg]
        exact zpow_le_zpow_right₀ (by norm_num) (by norm_num)
      have h6 : (1:ℝ) / 2 ^ 81 = 1 / 2 ^ 80 / 2 := by rw [pow_succ 2 80]; field_simp
      have h7 : size2 R0 C0 f / 2 ^ 38 ≤ size2 R0 C0 f / 2 := div_le_div_of_nonneg_left (le_trans (by positivity) h80) (by norm_num) (by norm_num)
      generalize (2:ℝ) ^ (-100 : ℤ) = X at h5 ⊢
      generalize (1:ℝ) / 2 ^ 81 = Y at h5 h6
      generalize (1:ℝ) / 2 ^ 80 = Z at h6 h80
      generalize size2 R0 C0 f / 2 ^ 38 = W at h3 h7
      linarith
    have h8 : ((2:ℝ) ^ (-100 : ℤ)) = (((2:ℚ) ^ (-100 : ℤ) : ℚ) : ℝ) := by push_cast; rfl
    rw [h8] at h4
    exact_mod_cast h4

/-- an image that has more than one pixel and is not black has the similarity one with itself -/
theorem C100_self_partial {pow : FV → FV → FV} (hp : GoodPow pow) (hm : m.WF) (hi : IsImage8 m p R C 1 px) (hR : R ≤ 512) (hC : C ≤ 512) (hf : Spread R C (level px)) :
    ∃ v m1, hypercv_match_shapes pow (some p) (some p) m = .ok (v, m1) ∧ v.Is 1 :=
  C100_moved_partial hp hm hi hi hR hC hR hC hf (placed_self _ _ _) (placed_self _ _ _)

/-- **C100 is false** of shapes of one pixel: the similarity of two of them, for example of an image with itself, is not a number. -/
theorem C100_one_pixel_nan {pow : FV → FV → FV} (hp : GoodPow pow) (hm : m.WF) (hi : IsImage8 m p R C 1 px) (hi' : IsImage8 m q R' C' 1 py) (hR : R ≤ 512) (hC : C ≤ 512)
    (hR' : R' ≤ 512) (hC' : C' ≤ 512) {y x y' x' : Nat} (hy : y < R) (hx : x < C) (h1 : px y x 0 ≠ 0) (h0 : ∀ j i, j < R → i < C → (j ≠ y ∨ i ≠ x) → px j i 0 = 0)
    (hy' : y' < R') (hx' : x' < C') (h1' : py y' x' 0 ≠ 0) (h0' : ∀ j i, j < R' → i < C' → (j ≠ y' ∨ i ≠ x') → py j i 0 = 0) :
    ∃ m1, hypercv_match_shapes pow (some p) (some q) m = .ok (.nan, m1) := by
  obtain ⟨n1, k1⟩ := one_pixel (f := level px) hy hx (fun h => h1 (UInt8.toNat_inj.1 h)) (fun j i hj hi h => by unfold level; rw [h0 j i hj hi h]; rfl)
  obtain ⟨n2, k2⟩ := one_pixel (f := level py) hy' hx' (fun h => h1' (UInt8.toNat_inj.1 h)) (fun j i hj hi h => by unfold level; rw [h0' j i hj hi h]; rfl)
  obtain ⟨s, w, s', w', i1, i2, r1, -⟩ := match_run (pow := pow) hm hR hC hR' hC' (shape_img hi) (shape_img hi') (by rw [img_mass]; exact n1) (by rw [img_mass]; exact n2)
  rw [img_mass, img_moment] at i1 i2
  have zero : ∀ {R C : Nat} {f : Nat → Nat → Nat} {s : FV} {w : HuMoments}, HuIs s w (mass R C f) (moment R C f) → 0 < mass R C f → mass R C f ≤ 67108864 →
      (∀ p q, 0 < p + q → moment R C f p q = 0) → ∀ k, (huValues (huNormalise pow s w) k).Is 0 := by
    intro R C f s w i n b k0 k
    obtain ⟨P, p1, p2⟩ := hp.two _ n b
    obtain ⟨Q, q1, q2⟩ := hp.half _ n b
    have hn0 : (0:ℝ) < mass R C f := by exact_mod_cast n
    have s0 : 0 < Real.sqrt (mass R C f) := Real.sqrt_pos.2 hn0
    have nz : ∀ {P : ℚ} {W : ℝ}, 0 < W → |(P:ℝ) - W| ≤ W / 2 ^ 50 → P ≠ 0 := by
      intro P W hW h hP
      rw [hP, Rat.cast_zero, zero_sub, abs_neg, abs_of_pos hW] at h
      have : W / 2 ^ 50 < W := div_lt_self hW (by norm_num)
      linarith
    have P0 := nz (by positivity) p2
    have Q0 := nz (by positivity) q2
    have z : ∀ {a : FV} {p q : Nat}, 0 < p + q → a.Is ((moment R C f p q : Int) : ℚ) → a.Is 0 := by
      intro a p q h ha
      rw [k0 p q h] at ha
      exact_mod_cast ha
    exact hu_zero (z_div (z (by decide) i.i11) (p1 _ i.i00) P0) (z_div (z (by decide) i.i20) (p1 _ i.i00) P0) (z_div (z (by decide) i.i02) (p1 _ i.i00) P0)
      (z_div (z (by decide) i.i03) (q1 _ i.i00) Q0) (z_div (z (by decide) i.i30) (q1 _ i.i00) Q0) (z_div (z (by decide) i.i12) (q1 _ i.i00) Q0)
      (z_div (z (by decide) i.i21) (q1 _ i.i00) Q0) k
  have e := sim_nan (zero i1 n1 (level_mass hR hC) k1) (zero i2 n2 (level_mass hR' hC') k2)
  rw [e] at r1
  exact ⟨_, r1⟩

/-- **C100 is false** of the memory: every comparison leaves two blocks of 56 bytes allocated that nobody can release. -/
theorem C100_leak {pow : FV → FV → FV} (hm : m.WF) (hi : IsImage8 m p R C 1 px) (hi' : IsImage8 m q R' C' 1 py) (hR : R ≤ 512) (hC : C ≤ 512) (hR' : R' ≤ 512)
    (hC' : C' ≤ 512) (hn : 0 < mass R C (level px)) (hn' : 0 < mass R' C' (level py)) :
    ∃ v m1, hypercv_match_shapes pow (some p) (some q) m = .ok (v, m1) ∧ TwoMore m m1 := by
  obtain ⟨s, w, s', w', -, -, r1, -⟩ := match_run (pow := pow) hm hR hC hR' hC' (shape_img hi) (shape_img hi') (by rw [img_mass]; exact hn) (by rw [img_mass]; exact hn')
  exact ⟨_, _, r1, twoMore hm _ _⟩

/-- a shape of two pixels drawn at two places -/
example : ∃ (pow : FV → FV → FV) (m : Mem) (px py : Nat → Nat → Nat → UInt8) (f : Nat → Nat → Nat), GoodPow pow ∧ m.WF ∧ IsImage8 m 1 1 4 1 px ∧ IsImage8 m 3 3 3 1 py ∧
    Spread 1 2 f ∧ Placed 1 2 f 1 4 (level px) 0 2 ∧ Placed 1 2 f 3 3 (level py) 1 1 := by
  obtain ⟨pow, hp⟩ := goodPow_exists
  obtain ⟨m, hu, f, hm, h1, h2, -⟩ := two_shapes (fun _ i _ => if i = 2 then 5 else if i = 3 then 1 else 0) (fun j i _ => if j = 1 then (if i = 1 then 5 else if i = 2 then 1 else 0) else 0)
    (R := 1) (C := 4) (ch := 1) (R' := 3) (C' := 3) (ch' := 1) (by decide) (by decide) (by decide) (by decide) (by decide) (by decide)
  refine ⟨pow, m, _, _, fun _ i => if i = 0 then 5 else 1, hp, hm, h1, h2, ⟨0, 0, 0, 1, by decide, by decide, by decide, by decide, by decide, by decide, by decide⟩,
    ⟨by decide, by decide, ?_, ?_⟩, ⟨by decide, by decide, ?_, ?_⟩⟩
  · intro j i hj hi
    interval_cases j <;> interval_cases i <;> rfl
  · intro j i hj hi h
    interval_cases j <;> interval_cases i <;> first | rfl | (exfalso; apply h; decide)
  · intro j i hj hi
    interval_cases j <;> interval_cases i <;> rfl
  · intro j i hj hi h
    interval_cases j <;> interval_cases i <;> first | rfl | (exfalso; apply h; decide)

/-- two images of one pixel each -/
example : ∃ (m : Mem) (px py : Nat → Nat → Nat → UInt8), m.WF ∧ IsImage8 m 1 1 4 1 px ∧ IsImage8 m 3 3 3 1 py ∧ px 0 2 0 ≠ 0 ∧ py 1 1 0 ≠ 0 ∧
    (∀ j i, j < 1 → i < 4 → (j ≠ 0 ∨ i ≠ 2) → px j i 0 = 0) ∧ ∀ j i, j < 3 → i < 3 → (j ≠ 1 ∨ i ≠ 1) → py j i 0 = 0 := by
  obtain ⟨m, hu, f, hm, h1, h2, -⟩ := two_shapes (fun j i _ => if j = 0 ∧ i = 2 then 5 else 0) (fun j i _ => if j = 1 ∧ i = 1 then 1 else 0)
    (R := 1) (C := 4) (ch := 1) (R' := 3) (C' := 3) (ch' := 1) (by decide) (by decide) (by decide) (by decide) (by decide) (by decide)
  refine ⟨m, _, _, hm, h1, h2, by decide, by decide, ?_, ?_⟩
  · intro j i _ _ h
    exact if_neg (by omega)
  · intro j i _ _ h
    exact if_neg (by omega)

end HyperCV
