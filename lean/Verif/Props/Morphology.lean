/- C37, C38, C63: structuring elements, erosion, dilation, opening, closing. -/
import Verif.Proof.Morphology
import Verif.Props.Gradient

namespace HyperCV
open Spec

namespace Spec

/-- `el` is a structuring element of `h` rows and `w` columns; entry (`y`, `x`) is `K y x` -/
structure IsElement (m : Mem) (el : Option S2D) (h w : Nat) (K : Nat → Nat → UInt8) : Prop where
  posh : 0 < h
  posw : 0 < w
  obj : ∃ e f, el = some e ∧ m.blk e.hdr ≠ none ∧ e.height = h ∧ e.width = w ∧ Bytes m e.data (h * w) f ∧
    ∀ y x, y < h → x < w → f (y * w + x) = K y x

/-- a set of pixels -/
abbrev Region := Int → Int → Prop

/-- the foreground of an image: its non-zero pixels -/
def foreground (R C : Nat) (px : Nat → Nat → Nat → UInt8) : Region := fun i j =>
  0 ≤ i ∧ i < R ∧ 0 ≤ j ∧ j < C ∧ px i.toNat j.toNat 0 ≠ 0

/-- pixel (`i`, `j`) belongs to the element placed with its centre on (`ci`, `cj`) -/
def Under (h w : Nat) (K : Nat → Nat → UInt8) (ci cj i j : Int) : Prop :=
  ∃ y x : Nat, y < h ∧ x < w ∧ K y x = 1 ∧ i = ci + y - (h / 2 : Nat) ∧ j = cj + x - (w / 2 : Nat)

/-- the element placed on (`ci`, `cj`) fits in the region -/
def FitsIn (h w : Nat) (K : Nat → Nat → UInt8) (A : Region) : Region := fun ci cj => ∀ i j, Under h w K ci cj i j → A i j

/-- the element placed on (`ci`, `cj`) meets the region -/
def MeetsIn (h w : Nat) (K : Nat → Nat → UInt8) (A : Region) : Region := fun ci cj => ∃ i j, Under h w K ci cj i j ∧ A i j

/-- restrict a region to the image -/
def inImage (R C : Nat) (A : Region) : Region := fun i j => 0 ≤ i ∧ i < R ∧ 0 ≤ j ∧ j < C ∧ A i j

/-- the `h` x `w` window centred on (`i`, `j`) lies inside the image -/
def WindowInside (R C h w i j : Nat) : Prop := h / 2 ≤ i ∧ i + h / 2 < R ∧ w / 2 ≤ j ∧ j + w / 2 < C

/-- valid arguments of the morphological operators: two one-channel byte images of the same size and an element, not sharing
memory, the element not larger than the image -/
structure MorphArgs (m : Mem) (sp dp : Nat) (el : Option S2D) (R C h w : Nat) (px old : Nat → Nat → Nat → UInt8)
    (K : Nat → Nat → UInt8) : Prop where
  src : IsImage8 m sp R C 1 px
  dst : IsImage8 m dp R C 1 old
  elem : IsElement m el h w K
  sep : SepPixels m sp dp
  esep : ∀ e, el = some e → ¬ PixelBlock m dp e.data
  hle : h ≤ R
  wle : w ≤ C
  size : R * R + C ≤ 1073741823
  csize : R * C ≤ 1073741823

end Spec

theorem some_ok {α : Type} (x : α) (m : Mem) : cassert (some x).isSome m = .ok ((), m) := rfl

section
variable {m : Mem} {sp dp : Nat} {el : Option S2D} {R C h w : Nat} {px old : Nat → Nat → Nat → UInt8} {K : Nat → Nat → UInt8}

/-- the call in the terms of the proof -/
def morphOf (R C h w : Nat) (px : Nat → Nat → Nat → UInt8) (K : Nat → UInt8) : Morph :=
  ⟨imgBytes C 1 1 (fun i j c _ => px i j c), K, R, C, h, w⟩

/-- everything known about a call -/
structure MorphCall (m : Mem) (sp dp : Nat) (el : Option S2D) (R C h w : Nat) (px old : Nat → Nat → Nat → UInt8)
    (K : Nat → Nat → UInt8) (e : S2D) (f : Nat → UInt8) (sd dd : Nat) (si di : Bool) : Prop where
  el : el = some e
  hdr : m.blk e.hdr ≠ none
  k1 : e.width = w
  k2 : e.height = h
  kf : ∀ y x, y < h → x < w → f (y * w + x) = K y x
  hk : Holds m e.data (h * w) f
  s1 : m.sm sp = some ⟨R, C, 1, 1, 1, sd, si⟩
  d1 : m.sm dp = some ⟨R, C, 1, 1, 1, dd, di⟩
  hs : Holds m sd (R * C) (imgBytes C 1 1 (fun i j c _ => px i j c))
  hd : Holds m dd (R * C) (imgBytes C 1 1 (fun i j c _ => old i j c))
  ne1 : sd ≠ dd
  ne2 : e.data ≠ dd
  small : (morphOf R C h w px f).Small

theorem Spec.MorphArgs.call (a : MorphArgs m sp dp el R C h w px old K) :
    ∃ e f sd dd si di, MorphCall m sp dp el R C h w px old K e f sd dd si di := by
  obtain ⟨e, f, h1, h2, h3, h4, h5, h6⟩ := a.elem.obj
  obtain ⟨sd, si, s1, s2⟩ := img8_lit a.src
  obtain ⟨dd, di, d1, d2⟩ := img8_lit a.dst
  rw [Nat.mul_one] at s2 d2
  have hw := a.elem.posw
  have e1 := a.hle
  have e2 := a.wle
  have e3 := a.size
  have e4 := a.csize
  have hRR : R ≤ R * R := Nat.le_mul_of_pos_right _ a.src.posR
  have hhw : h * w ≤ R * C := Nat.mul_le_mul e1 e2
  have hR1 : (R - 1) * R ≤ R * R := Nat.mul_le_mul_right _ (by omega)
  refine ⟨e, f, sd, dd, si, di, ⟨h1, h2, h4, h3, h6, bytes_iff.mp h5, s1, d1, s2, d2, sep_ne a.sep s1 d1, ?_, ?_⟩⟩
  · intro he
    exact a.esep e h1 ⟨_, d1, he⟩
  · constructor
    · show (R - 1) * R + C ≤ _; omega
    · show h * w ≤ _; omega
    · show R + h ≤ _; omega
    · show C + w ≤ _; omega

theorem derefE_ok {e : S2D} (h : m.blk e.hdr ≠ none) : derefE (some e) m = .ok (e, m) := by
  unfold derefE
  cases hb : m.blk e.hdr with
  | none => exact absurd hb h
  | some l => simp [hb]

/-- the operators are their loops -/
theorem corrosion_loops {e : S2D} {f : Nat → UInt8} {sd dd : Nat} {si di : Bool} (a : MorphArgs m sp dp el R C h w px old K)
    (c : MorphCall m sp dp el R C h w px old K e f sd dd si di) {m' : Mem} (hsm : m'.sm = m.sm) (hh : m'.blk e.hdr ≠ none) :
    hypercv_corrosion (some sp) (some dp) el m' = (forI 0 (R:Int) fun i => forI 0 (C:Int) fun j =>
      corrodePixel ⟨R, C, 1, 1, 1, sd, si⟩ ⟨R, C, 1, 1, 1, dd, di⟩ e i j) m' ∧
    hypercv_expend (some sp) (some dp) el m' = (forI 0 (R:Int) fun i => forI 0 (C:Int) fun j =>
      expendPixel ⟨R, C, 1, 1, 1, sd, si⟩ ⟨R, C, 1, 1, 1, dd, di⟩ e i j) m' := by
  have g1 : derefS (some sp) m' = .ok (⟨R, C, 1, 1, 1, sd, si⟩, m') := getS_ok (by rw [hsm]; exact c.s1)
  have g2 : derefS (some dp) m' = .ok (⟨R, C, 1, 1, 1, dd, di⟩, m') := getS_ok (by rw [hsm]; exact c.d1)
  have e1 := a.hle
  have e2 := a.wle
  have hno : ¬ ((C:Int) < e.width ∨ (R:Int) < e.height) := by rw [c.k1, c.k2]; omega
  unfold hypercv_corrosion hypercv_expend morphRun
  rw [c.el, bind_ok (some_ok _ _), bind_ok (some_ok _ _), bind_ok g1, bind_ok (derefE_ok hh), bind_ok (some_ok _ _), bind_ok (some_ok _ _), bind_ok g1,
    bind_ok (derefE_ok hh)]
  rw [if_neg hno, if_neg hno]
  constructor
  · rw [bind_ok (show (pure (some dp) : M (Option Nat)) m' = .ok (some dp, m') from rfl), bind_ok g1, bind_ok g2]
  · rw [bind_ok (show (pure (some dp) : M (Option Nat)) m' = .ok (some dp, m') from rfl), bind_ok g1, bind_ok g2]

theorem stride_le (hRC : R ≤ C) (hR : 0 < R) : (R - 1) * R + C ≤ R * C := by
  obtain ⟨r, rfl⟩ : ∃ r, R = r + 1 := ⟨R - 1, by omega⟩
  have h1 : r * (r + 1) ≤ r * C := Nat.mul_le_mul_left _ hRC
  have h2 : (r + 1) * C = r * C + C := by ring
  rw [Nat.add_sub_cancel]; omega

theorem MorphCall.steps {e : S2D} {f : Nat → UInt8} {sd dd : Nat} {si di : Bool}
    (c : MorphCall m sp dp el R C h w px old K e f sd dd si di) (hN : (R - 1) * R + C ≤ R * C) :
    Steps (morphOf R C h w px f) (fun i j => corrodePixel ⟨R, C, 1, 1, 1, sd, si⟩ ⟨R, C, 1, 1, 1, dd, di⟩ e i j) m dd (R * C) (morphOf R C h w px f).ero ∧
    Steps (morphOf R C h w px f) (fun i j => expendPixel ⟨R, C, 1, 1, 1, sd, si⟩ ⟨R, C, 1, 1, 1, dd, di⟩ e i j) m dd (R * C) (morphOf R C h w px f).dil :=
  ⟨steps_ero c.small c.hs c.hk c.ne1 c.ne2 hN rfl rfl rfl rfl c.k1 c.k2 rfl,
   steps_dil c.small c.hs c.hk c.ne1 c.ne2 hN rfl rfl rfl rfl c.k1 c.k2 rfl⟩

theorem px_at {i j : Nat} (hj : j < C) : imgBytes C 1 1 (fun i j c _ => px i j c) (i * C + j) = px i j 0 := by
  have := imgBytes_at8 (i := i) (ch := 1) (c := 0) (px := px) hj (by decide)
  rwa [Nat.mul_one, Nat.add_zero] at this

theorem stride_eq {i j : Nat} (hsq : R = C ∨ R = 1) (hi : i < R) : i * R + j = i * C + j := by
  rcases hsq with h | h
  · rw [h]
  · obtain rfl : i = 0 := by omega
    simp

/-- what the proof calls a hole, in terms of the images -/
theorem hole_iff {f : Nat → UInt8} (kf : ∀ y x, y < h → x < w → f (y * w + x) = K y x) (hsq : R = C ∨ R = 1) {i j : Nat} :
    (morphOf R C h w px f).hole i j ↔ WindowInside R C h w i j ∧ ¬ FitsIn h w K (foreground R C px) i j := by
  unfold Morph.hole
  constructor
  · rintro ⟨hin, y, x, hy, hx, h1, h2⟩
    have hin' : WindowInside R C h w i j := hin
    refine ⟨hin', fun hf => ?_⟩
    obtain ⟨q1, q2⟩ := idx_bounds hin hy hx
    have q1' : i - h / 2 + y < R := q1
    have q2' : j - w / 2 + x < C := q2
    have hu : Under h w K i j ((i:Int) + y - (h / 2 : Nat)) ((j:Int) + x - (w / 2 : Nat)) :=
      ⟨y, x, hy, hx, (kf y x hy hx).symm.trans h1, rfl, rfl⟩
    obtain ⟨-, -, -, -, h3⟩ := hf _ _ hu
    apply h3
    unfold WindowInside at hin'
    have t1 : ((i:Int) + y - (h / 2 : Nat)).toNat = i - h / 2 + y := by omega
    have t2 : ((j:Int) + x - (w / 2 : Nat)).toNat = j - w / 2 + x := by omega
    rw [t1, t2, ← px_at (px := px) q2']
    have h2' : imgBytes C 1 1 (fun i j c _ => px i j c) ((i - h / 2 + y) * R + (j - w / 2 + x)) = 0 := h2
    rwa [stride_eq hsq q1'] at h2'
  · rintro ⟨hin, hf⟩
    refine ⟨hin, ?_⟩
    by_contra hno
    apply hf
    rintro i' j' ⟨y, x, hy, hx, h1, rfl, rfl⟩
    obtain ⟨q1, q2⟩ := idx_bounds (a := morphOf R C h w px f) hin hy hx
    have q1' : i - h / 2 + y < R := q1
    have q2' : j - w / 2 + x < C := q2
    unfold WindowInside at hin
    have t1 : ((i:Int) + y - (h / 2 : Nat)).toNat = i - h / 2 + y := by omega
    have t2 : ((j:Int) + x - (w / 2 : Nat)).toNat = j - w / 2 + x := by omega
    refine ⟨by omega, by omega, by omega, by omega, ?_⟩
    rw [t1, t2]
    intro h3
    apply hno
    refine ⟨y, x, hy, hx, (kf y x hy hx).trans h1, ?_⟩
    show imgBytes C 1 1 (fun i j c _ => px i j c) ((i - h / 2 + y) * R + (j - w / 2 + x)) = 0
    rw [stride_eq hsq q1', px_at q2', h3]

/-- **C37**, what `hypercv_corrosion` computes on square and on one-row images: a foreground pixel is cleared exactly if the
window centred on it lies inside the image and the element does not fit in the foreground there. -/
theorem C37_corrosion (a : MorphArgs m sp dp el R C h w px old K) (hsq : R = C ∨ R = 1) :
    ∃ m' out, hypercv_corrosion (some sp) (some dp) el m = .ok ((), m') ∧ IsImage8 m' dp R C 1 out ∧ OnlyPixels m m' dp ∧
      ∀ i j, i < R → j < C →
        (WindowInside R C h w i j ∧ ¬ FitsIn h w K (foreground R C px) i j → out i j 0 = 0) ∧
        (¬ (WindowInside R C h w i j ∧ ¬ FitsIn h w K (foreground R C px) i j) → out i j 0 = px i j 0) := by
  obtain ⟨e, f, sd, dd, si, di, c⟩ := a.call
  have hRC : R ≤ C := by have := a.src.posC; omega
  have hN := stride_le hRC a.src.posR
  let A := morphOf R C h w px f
  have run := steps_square (a := A) (c.steps hN).1 hsq (imgBytes C 1 1 (fun i j c _ => old i j c))
  have hput : m.put dd (A.R * A.C) (imgBytes C 1 1 (fun i j c _ => old i j c)) = m := c.hd.put_self
  rw [hput] at run
  obtain ⟨o1, o2⟩ := put_img8 (new := fun p => A.ero (p / C) (p % C)) (px' := fun i j _ => A.ero i j) a.dst c.d1 (by
    intro i j hi hj
    beta_reduce
    rw [mix_div hj, mix_mod hj])
  refine ⟨_, _, (corrosion_loops a c rfl c.hdr).1.trans run, o1, o2, ?_⟩
  intro i j hi hj
  have hpx : A.f (i * A.R + j) = px i j 0 := by
    show imgBytes C 1 1 (fun i j c _ => px i j c) (i * R + j) = _
    rw [stride_eq hsq hi, px_at hj]
  constructor
  · intro hh
    show A.ero i j = 0
    unfold Morph.ero
    rw [if_pos ((hole_iff c.kf hsq).2 hh)]
  · intro hh
    show A.ero i j = _
    unfold Morph.ero
    rw [if_neg (fun h => hh ((hole_iff c.kf hsq).1 h)), hpx]

/-- **C37**, what `hypercv_expend` computes on square and on one-row images: a background pixel is set exactly if the window
centred on it lies inside the image and the element does not fit in the foreground there. -/
theorem C37_expend (a : MorphArgs m sp dp el R C h w px old K) (hsq : R = C ∨ R = 1) :
    ∃ m' out, hypercv_expend (some sp) (some dp) el m = .ok ((), m') ∧ IsImage8 m' dp R C 1 out ∧ OnlyPixels m m' dp ∧
      ∀ i j, i < R → j < C →
        (px i j 0 = 0 ∧ WindowInside R C h w i j ∧ ¬ FitsIn h w K (foreground R C px) i j → out i j 0 = 1) ∧
        (¬ (px i j 0 = 0 ∧ WindowInside R C h w i j ∧ ¬ FitsIn h w K (foreground R C px) i j) → out i j 0 = px i j 0) := by
  obtain ⟨e, f, sd, dd, si, di, c⟩ := a.call
  have hRC : R ≤ C := by have := a.src.posC; omega
  have hN := stride_le hRC a.src.posR
  let A := morphOf R C h w px f
  have run := steps_square (a := A) (c.steps hN).2 hsq (imgBytes C 1 1 (fun i j c _ => old i j c))
  have hput : m.put dd (A.R * A.C) (imgBytes C 1 1 (fun i j c _ => old i j c)) = m := c.hd.put_self
  rw [hput] at run
  obtain ⟨o1, o2⟩ := put_img8 (new := fun p => A.dil (p / C) (p % C)) (px' := fun i j _ => A.dil i j) a.dst c.d1 (by
    intro i j hi hj
    beta_reduce
    rw [mix_div hj, mix_mod hj])
  refine ⟨_, _, (corrosion_loops a c rfl c.hdr).2.trans run, o1, o2, ?_⟩
  intro i j hi hj
  have hpx : A.f (i * A.R + j) = px i j 0 := by
    show imgBytes C 1 1 (fun i j c _ => px i j c) (i * R + j) = _
    rw [stride_eq hsq hi, px_at hj]
  constructor
  · rintro ⟨h0, hh⟩
    show A.dil i j = 1
    unfold Morph.dil
    rw [if_pos ⟨hpx.trans h0, (hole_iff c.kf hsq).2 hh⟩]
  · intro hh
    show A.dil i j = _
    unfold Morph.dil
    rw [if_neg (fun h => hh ⟨hpx.symm.trans h.1, (hole_iff c.kf hsq).1 h.2⟩), hpx]

theorem centre_under (hc : K (h / 2) (w / 2) = 1) (hh : 0 < h) (hw : 0 < w) (i j : Int) : Under h w K i j i j :=
  ⟨h / 2, w / 2, by omega, by omega, hc, by omega, by omega⟩

/-- **C37**, erosion, restricted to square or one-row images, elements containing their centre, and pixels whose window lies inside
the image: the result is set exactly where the element fits in the foreground.  What is missing is proved false below. -/
theorem C37_erosion_partial (a : MorphArgs m sp dp el R C h w px old K) (hsq : R = C ∨ R = 1) (hc : K (h / 2) (w / 2) = 1) :
    ∃ m' out, hypercv_corrosion (some sp) (some dp) el m = .ok ((), m') ∧ IsImage8 m' dp R C 1 out ∧ OnlyPixels m m' dp ∧
      (∀ i j, i < R → j < C → WindowInside R C h w i j → (foreground R C out i j ↔ FitsIn h w K (foreground R C px) i j)) ∧
      ∀ i j, foreground R C out i j → foreground R C px i j := by
  obtain ⟨m', out, r1, r2, r3, r4⟩ := C37_corrosion a hsq
  refine ⟨m', out, r1, r2, r3, ?_, ?_⟩
  · intro i j hi hj hin
    obtain ⟨t1, t2⟩ := r4 i j hi hj
    constructor
    · rintro ⟨-, -, -, -, h5⟩
      by_contra hf
      exact h5 (t1 ⟨hin, hf⟩)
    · intro hf
      refine ⟨by omega, by omega, by omega, by omega, ?_⟩
      have := hf i j (centre_under hc a.elem.posh a.elem.posw i j)
      obtain ⟨-, -, -, -, h5⟩ := this
      rw [Int.toNat_natCast, Int.toNat_natCast] at h5 ⊢
      rw [t2 (fun h => h.2 hf)]
      exact h5
  · rintro i j ⟨h1, h2, h3, h4, h5⟩
    refine ⟨h1, h2, h3, h4, fun h0 => h5 ?_⟩
    obtain ⟨t1, t2⟩ := r4 i.toNat j.toNat (by omega) (by omega)
    by_cases hh : WindowInside R C h w i.toNat j.toNat ∧ ¬ FitsIn h w K (foreground R C px) i.toNat j.toNat
    · exact t1 hh
    · rw [t2 hh, h0]

/-- **C37**, dilation, restricted to square or one-row images: the foreground grows.  That it grows by the right pixels is proved
false below. -/
theorem C37_dilation_partial (a : MorphArgs m sp dp el R C h w px old K) (hsq : R = C ∨ R = 1) :
    ∃ m' out, hypercv_expend (some sp) (some dp) el m = .ok ((), m') ∧ IsImage8 m' dp R C 1 out ∧ OnlyPixels m m' dp ∧
      ∀ i j, foreground R C px i j → foreground R C out i j := by
  obtain ⟨m', out, r1, r2, r3, r4⟩ := C37_expend a hsq
  refine ⟨m', out, r1, r2, r3, ?_⟩
  rintro i j ⟨h1, h2, h3, h4, h5⟩
  refine ⟨h1, h2, h3, h4, fun h0 => h5 ?_⟩
  obtain ⟨t1, t2⟩ := r4 i.toNat j.toNat (by omega) (by omega)
  rw [← h0, t2 (fun h => h5 h.1)]

/-- C37 is false for the erosion: a foreground pixel where the element leaves the image is kept, although the element does not fit. -/
theorem C37_refuted_erosion_border (a : MorphArgs m sp dp el R C h w px old K) (hsq : R = C ∨ R = 1) :
    ∃ m' out, hypercv_corrosion (some sp) (some dp) el m = .ok ((), m') ∧ IsImage8 m' dp R C 1 out ∧
      ∀ i j u v, i < R → j < C → px i j 0 ≠ 0 → Under h w K i j u v → ¬ (0 ≤ u ∧ u < R ∧ 0 ≤ v ∧ v < C) →
        foreground R C out i j ∧ ¬ FitsIn h w K (foreground R C px) i j := by
  obtain ⟨m', out, r1, r2, r3, r4⟩ := C37_corrosion a hsq
  refine ⟨m', out, r1, r2, ?_⟩
  intro i j u v hi hj h0 hu hout
  have hno : ¬ WindowInside R C h w i j := by
    rintro ⟨g1, g2, g3, g4⟩
    obtain ⟨y, x, hy, hx, -, rfl, rfl⟩ := hu
    apply hout
    refine ⟨by omega, by omega, by omega, by omega⟩
  refine ⟨⟨by omega, by omega, by omega, by omega, ?_⟩, fun hf => ?_⟩
  · rw [Int.toNat_natCast, Int.toNat_natCast, (r4 i j hi hj).2 (fun h => hno h.1)]
    exact h0
  · obtain ⟨g1, g2, g3, g4, -⟩ := hf u v hu
    exact hout ⟨g1, g2, g3, g4⟩

/-- C37 is false for the dilation: with an element containing its centre, every pixel whose window lies inside the image is set, in
particular in an empty image, where the element meets no foreground at all. -/
theorem C37_refuted_dilation (a : MorphArgs m sp dp el R C h w px old K) (hsq : R = C ∨ R = 1) (hc : K (h / 2) (w / 2) = 1)
    (hblack : ∀ i j, px i j 0 = 0) :
    ∃ m' out, hypercv_expend (some sp) (some dp) el m = .ok ((), m') ∧ IsImage8 m' dp R C 1 out ∧
      ∀ i j, i < R → j < C → WindowInside R C h w i j → foreground R C out i j ∧ ¬ MeetsIn h w K (foreground R C px) i j := by
  obtain ⟨m', out, r1, r2, r3, r4⟩ := C37_expend a hsq
  refine ⟨m', out, r1, r2, ?_⟩
  intro i j hi hj hin
  have hnf : ¬ FitsIn h w K (foreground R C px) i j := fun hf =>
    (hf i j (centre_under hc a.elem.posh a.elem.posw i j)).2.2.2.2 (hblack _ _)
  refine ⟨⟨by omega, by omega, by omega, by omega, ?_⟩, ?_⟩
  · rw [Int.toNat_natCast, Int.toNat_natCast, (r4 i j hi hj).1 ⟨hblack _ _, hin, hnf⟩]
    decide
  · rintro ⟨u, v, -, hf⟩
    exact hf.2.2.2.2 (hblack _ _)

/-- C37 is false for images with more rows than columns: both operators leave the image's memory. -/
theorem C37_refuted_tall (a : MorphArgs m sp dp el R C h w px old K) (hlt : C < R) :
    hypercv_corrosion (some sp) (some dp) el m = .error (.ub .oob) ∧ hypercv_expend (some sp) (some dp) el m = .error (.ub .oob) := by
  obtain ⟨e, f, sd, dd, si, di, c⟩ := a.call
  obtain ⟨l1, l2⟩ := corrosion_loops a c rfl c.hdr
  rw [l1, l2]
  exact loops_oob (a := morphOf R C h w px f) (s := ⟨R, C, 1, 1, 1, sd, si⟩) (d := ⟨R, C, 1, 1, 1, dd, di⟩) (e := e) c.small c.ne1 c.ne2
    ⟨c.hs, c.hk, _, c.hd⟩ a.src.posC hlt rfl rfl rfl rfl c.k1 c.k2 rfl

/-- both operators, on an image not taller than wide, fill the same set of positions of the destination -/
theorem wide_fills (a : MorphArgs m sp dp el R C h w px old K) (hRC : R ≤ C)
    {e : S2D} {f : Nat → UInt8} {sd dd : Nat} {si di : Bool} (c : MorphCall m sp dp el R C h w px old K e f sd dd si di) :
    (∃ new, Fills (hypercv_corrosion (some sp) (some dp) el) m dd (R * C) new (morphOf R C h w px f).W) ∧
    (∃ new, Fills (hypercv_expend (some sp) (some dp) el) m dd (R * C) new (morphOf R C h w px f).W) := by
  have hN := stride_le hRC a.src.posR
  have hh : ∀ g, (m.put dd (R * C) g).blk e.hdr ≠ none := by
    intro g
    by_cases he : e.hdr = dd
    · rw [he, holds_put m dd (R * C) g]; exact fun h => by cases h
    · rw [put_blk_ne _ _ _ he]; exact c.hdr
  obtain ⟨n1, h1⟩ := steps_fill (c.steps hN).1 hN
  obtain ⟨n2, h2⟩ := steps_fill (c.steps hN).2 hN
  exact ⟨⟨n1, fun g => ((corrosion_loops a c (m' := m.put dd (R * C) g) rfl (hh g)).1).trans (h1 g)⟩,
    ⟨n2, fun g => ((corrosion_loops a c (m' := m.put dd (R * C) g) rfl (hh g)).2).trans (h2 g)⟩⟩

/-- C37 is false for images with more columns than rows (and more than one row): the last pixel is never written. -/
theorem C37_refuted_wide (a : MorphArgs m sp dp el R C h w px old K) (h1 : 1 < R) (hlt : R < C) :
    (∃ m' out, hypercv_corrosion (some sp) (some dp) el m = .ok ((), m') ∧ IsImage8 m' dp R C 1 out ∧
      out (R - 1) (C - 1) 0 = old (R - 1) (C - 1) 0) ∧
    (∃ m' out, hypercv_expend (some sp) (some dp) el m = .ok ((), m') ∧ IsImage8 m' dp R C 1 out ∧
      out (R - 1) (C - 1) 0 = old (R - 1) (C - 1) 0) := by
  obtain ⟨e, f, sd, dd, si, di, c⟩ := a.call
  obtain ⟨⟨n1, f1⟩, ⟨n2, f2⟩⟩ := wide_fills a (by omega) c
  have hlast : ¬ (morphOf R C h w px f).W ((R - 1) * C + (C - 1)) := by
    rintro ⟨i, hi, j, hj, he⟩
    have hi' : i < R := hi
    have hj' : j < C := hj
    have he' : (R - 1) * C + (C - 1) = i * R + j := he
    have b1 : i * R ≤ (R - 1) * R := Nat.mul_le_mul_right _ (by omega)
    have b2 : (R - 1) * (R + 1) ≤ (R - 1) * C := Nat.mul_le_mul_left _ (by omega)
    have b3 : (R - 1) * (R + 1) = (R - 1) * R + (R - 1) := by ring
    omega
  have gen : ∀ (op : M Unit) (new : Nat → UInt8), Fills op m dd (R * C) new (morphOf R C h w px f).W →
      ∃ m' out, op m = .ok ((), m') ∧ IsImage8 m' dp R C 1 out ∧ out (R - 1) (C - 1) 0 = old (R - 1) (C - 1) 0 := by
    classical
    intro op new hf
    have run := hf (imgBytes C 1 1 (fun i j c _ => old i j c))
    rw [c.hd.put_self] at run
    let out : Nat → Nat → Nat → UInt8 := fun i j _ =>
      if (morphOf R C h w px f).W (i * C + j) then new (i * C + j) else old i j 0
    obtain ⟨o1, o2⟩ := put_img8 (new := fun p => if (morphOf R C h w px f).W p then new p else imgBytes C 1 1 (fun i j c _ => old i j c) p)
      (px' := out) a.dst c.d1 (by
        intro i j hi hj
        show (if _ then _ else _) = (if _ then _ else _)
        rw [px_at hj])
    refine ⟨_, out, ?_, o1, ?_⟩
    · refine run.trans ?_
      refine congrArg (fun x => Except.ok ((), x)) (put_congr m _ _ ?_)
      intro p _; congr
    · show (if _ then _ else _) = _
      rw [if_neg hlast]
  exact ⟨gen _ _ f1, gen _ _ f2⟩

/-- Elements larger than the image: both operators return without doing anything. -/
theorem C37_too_large (hs : IsImage8 m sp R C 1 px) (he : IsElement m el h w K) (hl : R < h ∨ C < w) (dst : Option Nat) :
    hypercv_corrosion (some sp) dst el m = .ok ((), m) ∧ hypercv_expend (some sp) dst el m = .ok ((), m) := by
  obtain ⟨e, f, h1, h2, h3, h4, h5, h6⟩ := he.obj
  obtain ⟨sd, si, s1, s2⟩ := img8_lit hs
  have g1 : derefS (some sp) m = .ok (_, m) := getS_ok s1
  have hno : ((C:Int) < e.width ∨ (R:Int) < e.height) := by rw [h3, h4]; omega
  unfold hypercv_corrosion hypercv_expend
  rw [h1, bind_ok (some_ok _ _), bind_ok (some_ok _ _), bind_ok g1, bind_ok (derefE_ok h2), bind_ok (some_ok _ _), bind_ok (some_ok _ _), bind_ok g1,
    bind_ok (derefE_ok h2)]
  rw [if_pos hno, if_pos hno]
  exact ⟨rfl, rfl⟩

theorem fills_twice {x y : M Unit} {m : Mem} {d N : Nat} {n1 n2 : Nat → UInt8} {P : Nat → Prop} (hx : Fills x m d N n1 P)
    (hy : Fills y m d N n2 P) : Fills (do x; y) m d N n2 P := by
  classical
  exact (Fills.later hx hy).congr (fun p _ => or_self_iff) (fun p _ hp => if_pos hp)

theorem repeat_fills {x : M Unit} {m : Mem} {d N n : Nat} {new : Nat → UInt8} {P : Nat → Prop} (hx : Fills x m d N new P) (hn : 0 < n) :
    Fills (forI 0 (n:Int) fun _ => x) m d N new P :=
  (Fills.loop (fun i _ => hx)).congr (fun p _ => ⟨fun ⟨_, _, h⟩ => h, fun h => ⟨0, hn, h⟩⟩) (fun _ _ _ => rfl)

/-- **C38**, what the operators compute: `hypercv_open` is `hypercv_expend` of the source and `hypercv_close` is
`hypercv_corrosion` of the source, for every positive number of iterations and every image shape. -/
theorem C38_open_is_expend (a : MorphArgs m sp dp el R C h w px old K) {n : Nat} (hn : 0 < n) :
    hypercv_open (some sp) (some dp) el n m = hypercv_expend (some sp) (some dp) el m ∧
    hypercv_close (some sp) (some dp) el n m = hypercv_corrosion (some sp) (some dp) el m := by
  obtain ⟨e, f, sd, dd, si, di, c⟩ := a.call
  have g1 : derefS (some sp) m = .ok (_, m) := getS_ok c.s1
  unfold hypercv_open hypercv_close
  rw [bind_ok (some_ok _ _), cassert_bind (by rw [c.el]; rfl), bind_ok g1, bind_ok (some_ok _ _), cassert_bind (by rw [c.el]; rfl), bind_ok g1,
    bind_ok (show (pure (some dp) : M (Option Nat)) m = .ok (some dp, m) from rfl),
    bind_ok (show (pure (some dp) : M (Option Nat)) m = .ok (some dp, m) from rfl)]
  by_cases hRC : R ≤ C
  · obtain ⟨⟨n1, f1⟩, ⟨n2, f2⟩⟩ := wide_fills a hRC c
    constructor
    · have t := repeat_fills (fills_twice f1 f2) hn (imgBytes C 1 1 (fun i j c _ => old i j c))
      have u := f2 (imgBytes C 1 1 (fun i j c _ => old i j c))
      rw [c.hd.put_self] at t u
      exact t.trans u.symm
    · have t := repeat_fills (fills_twice f2 f1) hn (imgBytes C 1 1 (fun i j c _ => old i j c))
      have u := f1 (imgBytes C 1 1 (fun i j c _ => old i j c))
      rw [c.hd.put_self] at t u
      exact t.trans u.symm
  · obtain ⟨t1, t2⟩ := C37_refuted_tall a (by omega)
    rw [t1, t2]
    constructor
    · exact forI_fails (fun x => x = m) (fun i _ x hx => Or.inl (by rw [hx]; exact bind_err t1)) (k := 0) hn
        (fun x hx => by rw [hx]; exact bind_err t1) rfl
    · exact forI_fails (fun x => x = m) (fun i _ x hx => Or.inl (by rw [hx]; exact bind_err t2)) (k := 0) hn
        (fun x hx => by rw [hx]; exact bind_err t2) rfl

namespace Spec
/-- erosion of a region of the image -/
def erosion (R C h w : Nat) (K : Nat → Nat → UInt8) (A : Region) : Region := inImage R C (FitsIn h w K A)
/-- dilation of a region of the image -/
def dilation (R C h w : Nat) (K : Nat → Nat → UInt8) (A : Region) : Region := inImage R C (MeetsIn h w K A)
/-- opening: erosion, then dilation -/
def opening (R C h w : Nat) (K : Nat → Nat → UInt8) (A : Region) : Region := dilation R C h w K (erosion R C h w K A)
/-- closing: dilation, then erosion -/
def closing (R C h w : Nat) (K : Nat → Nat → UInt8) (A : Region) : Region := erosion R C h w K (dilation R C h w K A)
end Spec

/-- C38 is false for `hypercv_open`: an empty image acquires foreground. -/
theorem C38_refuted_open (a : MorphArgs m sp dp el R C h w px old K) (hsq : R = C ∨ R = 1) (hc : K (h / 2) (w / 2) = 1)
    (hblack : ∀ i j, px i j 0 = 0) {n : Nat} (hn : 0 < n) :
    ∃ m' out, hypercv_open (some sp) (some dp) el n m = .ok ((), m') ∧ IsImage8 m' dp R C 1 out ∧
      ∀ i j, i < R → j < C → WindowInside R C h w i j → foreground R C out i j ∧ ¬ opening R C h w K (foreground R C px) i j := by
  obtain ⟨m', out, r1, r2, r3⟩ := C37_refuted_dilation a hsq hc hblack
  refine ⟨m', out, (C38_open_is_expend a hn).1.trans r1, r2, ?_⟩
  intro i j hi hj hin
  refine ⟨(r3 i j hi hj hin).1, ?_⟩
  rintro ⟨-, -, -, -, u, v, -, -, -, -, -, hf⟩
  exact (hf u v (centre_under hc a.elem.posh a.elem.posw u v)).2.2.2.2 (hblack _ _)

/-- C38 is false for `hypercv_close`: with a full rectangle of odd sides, a foreground pixel with background in its window is
cleared, although it belongs to the closing. -/
theorem C38_refuted_close (a : MorphArgs m sp dp el R C h w px old K) (hsq : R = C ∨ R = 1) (hfull : ∀ y x, y < h → x < w → K y x = 1)
    (hodd : h % 2 = 1 ∧ w % 2 = 1) {n : Nat} (hn : 0 < n) :
    ∃ m' out, hypercv_close (some sp) (some dp) el n m = .ok ((), m') ∧ IsImage8 m' dp R C 1 out ∧
      ∀ i j, i < R → j < C → WindowInside R C h w i j → px i j 0 ≠ 0 → ¬ FitsIn h w K (foreground R C px) i j →
        out i j 0 = 0 ∧ closing R C h w K (foreground R C px) i j := by
  obtain ⟨m', out, r1, r2, r3, r4⟩ := C37_corrosion a hsq
  refine ⟨m', out, (C38_open_is_expend a hn).2.trans r1, r2, ?_⟩
  intro i j hi hj hin h0 hf
  refine ⟨(r4 i j hi hj).1 ⟨hin, hf⟩, by omega, by omega, by omega, by omega, ?_⟩
  rintro u v ⟨y, x, hy, hx, -, rfl, rfl⟩
  unfold WindowInside at hin
  refine ⟨by omega, by omega, by omega, by omega, i, j, ⟨h - 1 - y, w - 1 - x, by omega, by omega, hfull _ _ (by omega) (by omega), by omega, by omega⟩, ?_⟩
  refine ⟨by omega, by omega, by omega, by omega, ?_⟩
  rw [Int.toNat_natCast, Int.toNat_natCast]
  exact h0

/-- the memory after the creation of a `w` x `h` element -/
def Mem.newElement (m : Mem) (h w : Nat) : Mem := (m.grow (w * h) fun _ => 1).grow 16 (m.junk (m.next + 1))

theorem create_2D_run (hh : 0 < h) (hw : 0 < w) (hsz : w * h ≤ 2147483647) :
    create_2D_struct w h m = .ok (some ⟨m.next + 1, w, h, m.next⟩, m.newElement h w) := by
  unfold create_2D_struct
  have hc : (decide ((w:Int) ≥ 1) && decide ((h:Int) ≥ 1)) = true := by
    rw [Bool.and_eq_true, decide_eq_true_eq, decide_eq_true_eq]; omega
  have e1 : (CI.lit (w:Int) * CI.lit (h:Int) : CI) = CI.lit ((w * h : Nat) : Int) := by
    rw [CI.mul_ok (by constructor <;> ((try norm_cast) <;> omega))]
    push_cast; rfl
  rw [cassert_bind hc, bind_ok (ev_ok e1 _), Int.toNat_natCast, bind_ok (malloc_run _ _)]
  have fl := (Fills.loop (n := w * h) (body := fun i => store m.next i 1) (m := m.grow (w * h) (m.junk m.next)) (d := m.next) (N := w * h)
    (new := fun _ => 1) (P := fun i p => p = i) (fun i hi => Fills.store hi rfl)) (m.junk m.next)
  rw [grow_put] at fl
  refine (bind_ok (fl.trans (congrArg (fun x => Except.ok ((), x)) (?_ : _ = m.grow (w * h) fun _ => 1)))).trans ?_
  · rw [grow_put]
    apply grow_congr
    intro p hp
    exact if_pos ⟨p, hp, rfl⟩
  unfold create_2D_struct_with_data
  rw [cassert_bind hc]
  rfl

/-- **C63**, creation: `create_2D_struct` gives an element of the requested size with all entries set, in fresh memory. -/
theorem C63_create (hwf : m.WF) (hh : 0 < h) (hw : 0 < w) (hsz : w * h ≤ 2147483647) :
    ∃ e m', create_2D_struct w h m = .ok (some e, m') ∧ IsElement m' (some e) h w (fun _ _ => 1) ∧ m'.WF ∧
      m.next ≤ e.hdr ∧ m.next ≤ e.data ∧ ∀ b, b < m.next → m'.blk b = m.blk b ∧ m'.hm b = m.hm b ∧ m'.sm b = m.sm b := by
  refine ⟨_, _, create_2D_run hh hw hsz, ⟨hh, hw, _, fun _ => 1, rfl, ?_, rfl, rfl, ?_, fun _ _ _ _ => rfl⟩, grow_WF (grow_WF hwf _ _) _ _, by simp, by simp, ?_⟩
  · have := grow_holds (m.grow (w * h) fun _ => 1) 16 (m.junk (m.next + 1))
    rw [grow_next] at this
    exact fun h0 => by rw [Mem.newElement, this] at h0; cases h0
  · rw [bytes_iff, Nat.mul_comm h w]
    exact (grow_holds m (w * h) fun _ => 1).grow (grow_WF hwf _ _)
  · intro b hb
    refine ⟨?_, rfl, rfl⟩
    unfold Mem.newElement
    rw [grow_blk_ne _ _ _ (by rw [grow_next]; omega), grow_blk_ne _ _ _ (by omega)]

/-- **C63**: sizes below 1 are rejected. -/
theorem C63_invalid (w h : Int) (hi : w < 1 ∨ h < 1) (data : Nat) :
    create_2D_struct w h m = .error .exit ∧ create_2D_struct_with_data w h data m = .error .exit := by
  have hc : (decide (w ≥ 1) && decide (h ≥ 1)) = false := by
    rw [Bool.and_eq_false_iff, decide_eq_false_iff_not, decide_eq_false_iff_not]; omega
  unfold create_2D_struct create_2D_struct_with_data
  rw [hc]
  exact ⟨rfl, rfl⟩

/-- C63 is false for the deletion: `delete_S_2D` releases the structure but not its entries. -/
theorem C63_refuted_delete (hh : 0 < h) (hw : 0 < w) (hsz : w * h ≤ 2147483647) :
    ∃ e m1 m2, create_2D_struct w h m = .ok (some e, m1) ∧ delete_S_2D (some e) m1 = .ok ((), m2) ∧ m2.blk e.hdr = none ∧
      m.next ≤ e.data ∧ m2.blk e.data ≠ none := by
  have h1 := grow_holds (m.grow (w * h) fun _ => 1) 16 (m.junk (m.next + 1))
  rw [grow_next] at h1
  refine ⟨_, _, (m.newElement h w).setBlk (m.next + 1) none, create_2D_run hh hw hsz, ?_, ?_, le_refl _, ?_⟩
  · show free (m.next + 1) (m.newElement h w) = _
    unfold free Mem.newElement
    rw [h1]
  · simp [Mem.setBlk]
  · have h2 := grow_holds m (w * h) fun _ => 1
    have h3 : (m.newElement h w).blk m.next = some (tab (w * h) fun _ => 1) := by
      unfold Mem.newElement
      rw [grow_blk_ne _ _ _ (by rw [grow_next]; omega)]
      exact h2
    intro h0
    have : ((m.newElement h w).setBlk (m.next + 1) none).blk m.next = (m.newElement h w).blk m.next := by
      simp [Mem.setBlk]
    rw [this, h3] at h0
    cases h0

/-- **C63**, deletion, restricted to what it does: it releases the structure and nothing else; the entries stay allocated. -/
theorem C63_delete_partial {e : S2D} (he : m.blk e.hdr ≠ none) :
    ∃ m', delete_S_2D (some e) m = .ok ((), m') ∧ m'.blk e.hdr = none ∧ ∀ b, b ≠ e.hdr → m'.blk b = m.blk b := by
  refine ⟨m.setBlk e.hdr none, ?_, by simp [Mem.setBlk], fun b hb => by simp [Mem.setBlk, hb]⟩
  show free e.hdr m = _
  unfold free
  cases h : m.blk e.hdr with
  | none => exact absurd h he
  | some l => rfl

end

/-- two images of `R` x `C` pixels and a 3 x 3 element -/
def demoMorph (R C : Nat) (px : Nat → Nat → Nat → Nat → UInt8) : Mem :=
  (((Mem.empty.newImage R C 1 1 1 (imgBytes C 1 1 px)).newImage R C 1 1 1 (imgBytes C 1 1 px))).newElement 3 3

theorem demoMorph_args {R C : Nat} (hR : 3 ≤ R) (hC : 3 ≤ C) (h1 : R * R + C ≤ 1073741823) (h2 : R * C ≤ 1073741823)
    (px : Nat → Nat → Nat → Nat → UInt8) :
    MorphArgs (demoMorph R C px) 1 3 (some ⟨5, 3, 3, 4⟩) R C 3 3 (fun i j c => px i j c 0) (fun i j c => px i j c 0) (fun _ _ => 1) := by
  have w1 : (Mem.empty.newImage R C 1 1 1 (imgBytes C 1 1 px)).WF := newImage_WF empty_WF
  have w2 : ((Mem.empty.newImage R C 1 1 1 (imgBytes C 1 1 px)).newImage R C 1 1 1 (imgBytes C 1 1 px)).WF := newImage_WF w1
  have fr : ∀ b, b < 4 → (demoMorph R C px).blk b = ((Mem.empty.newImage R C 1 1 1 (imgBytes C 1 1 px)).newImage R C 1 1 1 (imgBytes C 1 1 px)).blk b := by
    intro b hb
    unfold demoMorph Mem.newElement
    rw [grow_blk_ne _ _ _ (by show b ≠ 5; omega), grow_blk_ne _ _ _ (by show b ≠ 4; omega)]
  obtain ⟨e, m', r1, r2, -⟩ := C63_create (h := 3) (w := 3) w2 (by decide) (by decide) (by decide)
  have r3 := create_2D_run (h := 3) (w := 3) (m := (Mem.empty.newImage R C 1 1 1 (imgBytes C 1 1 px)).newImage R C 1 1 1 (imgBytes C 1 1 px)) (by decide) (by decide) (by decide)
  rw [r1] at r3
  injection r3 with r3
  injection r3 with r4 r5
  rw [r4, r5] at r2
  refine ⟨?_, ?_, r2, ?_, ?_, hR, hC, h1, h2⟩
  · refine img_congr (img_frame w2 (img_frame w1 (newImage_isImage (m := Mem.empty) (px := px) rfl (by omega) (by omega) (by decide)) (newImage_frame _)) ?_) ?_
    · intro h hh
      exact ⟨fr h hh, rfl, rfl⟩
    · intro i j c t _ _ _ ht
      obtain rfl : t = 0 := by omega
      rfl
  · refine img_congr (img_frame w2 (newImage_isImage (m := Mem.empty.newImage R C 1 1 1 (imgBytes C 1 1 px)) (px := px) rfl (by omega) (by omega) (by decide)) ?_) ?_
    · intro h hh
      exact ⟨fr h hh, rfl, rfl⟩
    · intro i j c t _ _ _ ht
      obtain rfl : t = 0 := by omega
      rfl
  · rintro h ⟨⟨a, h1, rfl⟩, ⟨b, h2, h3⟩⟩
    have h1' : some (newSHdr Mem.empty R C 1 1 1) = some a := h1
    have h2' : some (newSHdr (Mem.empty.newImage R C 1 1 1 (imgBytes C 1 1 px)) R C 1 1 1) = some b := h2
    cases h1'; cases h2'
    have : (0:Nat) = 2 := h3
    omega
  · rintro e he ⟨b, h2, h3⟩
    have h2' : some (newSHdr (Mem.empty.newImage R C 1 1 1 (imgBytes C 1 1 px)) R C 1 1 1) = some b := h2
    cases h2'; cases he
    have : (4:Nat) = 2 := h3
    omega

/-- square, tall and wide images satisfying the hypotheses, with the window of a 3 x 3 element inside; a black one too -/
example : (∃ m px, MorphArgs m 1 3 (some ⟨5, 3, 3, 4⟩) 4 4 3 3 px px (fun _ _ => 1) ∧ WindowInside 4 4 3 3 1 1 ∧ px 1 1 0 ≠ 0 ∧
      ¬ FitsIn 3 3 (fun _ _ => 1) (foreground 4 4 px) 1 1) ∧
    (∃ m px, MorphArgs m 1 3 (some ⟨5, 3, 3, 4⟩) 4 4 3 3 px px (fun _ _ => 1) ∧ ∀ i j, px i j 0 = 0) ∧
    (∃ m px, MorphArgs m 1 3 (some ⟨5, 3, 3, 4⟩) 4 3 3 3 px px (fun _ _ => 1)) ∧
    (∃ m px, MorphArgs m 1 3 (some ⟨5, 3, 3, 4⟩) 3 4 3 3 px px (fun _ _ => 1)) := by
  refine ⟨⟨_, _, demoMorph_args (by decide) (by decide) (by decide) (by decide) (fun i j _ _ => if i = 1 ∧ j = 1 then 1 else 0), by unfold WindowInside; decide, by decide, ?_⟩,
    ⟨_, _, demoMorph_args (by decide) (by decide) (by decide) (by decide) (fun _ _ _ _ => 0), fun _ _ => rfl⟩,
    ⟨_, _, demoMorph_args (by decide) (by decide) (by decide) (by decide) (fun _ _ _ _ => 0)⟩,
    ⟨_, _, demoMorph_args (by decide) (by decide) (by decide) (by decide) (fun _ _ _ _ => 0)⟩⟩
  intro hf
  exact (hf 0 0 ⟨0, 0, by decide, by decide, rfl, by decide, by decide⟩).2.2.2.2 rfl

end HyperCV
