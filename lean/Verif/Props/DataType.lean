/- C26-C28: element type conversions. -/
import Verif.Proof.DataType

namespace HyperCV
open Spec

/-! ## C26: byte cubes widen exactly -/

/-- C26: `hyper_mat_uchar2short`, `hyper_mat_uchar2int`, `hyper_mat_uchar2float` and
`hyper_mat_uchar2ushort` convert every well-formed byte cube (any size, storage order, contents, heap) into a
new cube of the target type with the same geometry and wavelengths in which every element has the same numeric
value. -/
theorem C26_widen :
    ConvertsElems hyper_mat_uchar2short 1 2 (fun a b => value 2 b = value 1 a) ∧
    ConvertsElems hyper_mat_uchar2int 1 3 (fun a b => value 3 b = value 1 a) ∧
    ConvertsElems hyper_mat_uchar2float 1 4 (fun a b => value 4 b = value 1 a) ∧
    ConvertsElems hyper_mat_uchar2ushort 1 12 (fun a b => value 12 b = value 1 a) := by
  refine ⟨?_, ?_, ?_, ?_⟩
  · refine convElems_converts rfl rfl (fun x _ => bitsOf_lt 2 _) ?_
    intro x hx
    simp only [value]
    rw [signed_bitsOf (by decide) (by omega) (by omega)]
    rfl
  · refine convElems_converts rfl rfl (fun x _ => bitsOf_lt 4 _) ?_
    intro x hx
    simp only [value]
    rw [signed_bitsOf (by decide) (by omega) (by omega)]
    rfl
  · refine convElems_converts rfl rfl ?_ ?_
    · intro x hx
      rw [widen_float (by omega)]
      exact enc_lt (f32_rep_nat (by omega))
    · intro x hx
      simp only [value]
      rw [decode_widen (by omega)]
  · refine convElems_converts rfl rfl (fun x _ => bitsOf_lt 2 _) ?_
    intro x hx
    simp only [value]
    have := bitsOf_nat (w := 2) (x := (x : Int)) (by omega) (by omega)
    have : bitsOf 2 (x : Int) = x := by exact_mod_cast this
    rw [this]

/-- C26 for the remaining widening, of unsigned 16-bit cubes to float -/
theorem C26_widen_ushort :
    ConvertsElems hyper_mat_ushort2float 12 4 (fun a b => value 4 b = value 12 a) := by
  refine convElems_converts rfl rfl ?_ ?_
  · intro x hx
    rw [widen_float (by omega)]
    exact enc_lt (f32_rep_nat (by omega))
  · intro x hx
    simp only [value]
    rw [decode_widen (by omega)]

/-- the hypotheses of `ConvertsElems` are met by a 2x3x2 byte cube with distinct elements -/
example : ∃ m p, m.WF ∧ IsCubeN m p .bil 2 3 2 1 1 (fun i j k => 100 * i + 10 * j + k) (fun _ => 0) :=
  ⟨_, 2, cubeHeap_WF, cubeHeap_cube (by decide) (by decide) (by decide) rfl (by intros; omega)⟩

/-- a cube of the wrong type is refused -/
theorem C26_refused {m : Mem} {p : Nat} {h : HyperMat} (hp : m.hm p = some h) (ht : h.data_type ≠ 1) :
    hyper_mat_uchar2short (some p) m = .error .exit ∧ hyper_mat_uchar2int (some p) m = .error .exit ∧
    hyper_mat_uchar2float (some p) m = .error .exit ∧ hyper_mat_uchar2ushort (some p) m = .error .exit := by
  have key : ∀ t' ws wd g, convElems (some p) 1 t' ws wd g m = .error .exit := by
    intro t' ws wd g
    unfold convElems
    rw [bind_ok (show derefH (some p) _ = _ from getH_ok hp), decide_eq_false ht]
    rfl
  exact ⟨key _ _ _ _, key _ _ _ _, key _ _ _ _, key _ _ _ _⟩

example : ∃ (m : Mem) (p : Nat) (h : HyperMat), m.hm p = some h ∧ h.data_type ≠ 1 :=
  ⟨cubeHeap .bsq 1 1 1 4 4 (fun _ _ _ => 0), 2, _, newCube_hm _ _ _ _ _ _ _ _ _, by decide⟩

/-! ## C27: float cubes narrow by rounding to nearest even with saturation -/

/-- the English property for one element: a finite float `a` becomes the nearest integer (ties to even) limited
to `lo .. hi`; `val` reads the target element -/
def Saturates (lo hi : ℤ) (val : Nat → ℤ) (a b : Nat) : Prop :=
  ∀ x n, value 4 a = some x → NearestEven x n → val b = clamp lo hi n

/-- the same, restricted to elements whose rounded value satisfies `D` -/
def SaturatesOn (D : ℤ → Prop) (lo hi : ℤ) (val : Nat → ℤ) (a b : Nat) : Prop :=
  ∀ x n, value 4 a = some x → NearestEven x n → D n → val b = clamp lo hi n

theorem round_of_value {a : Nat} {x : ℚ} {n : ℤ} (h : value 4 a = some x) (hn : NearestEven x n) :
    hypercv_round (f32.decode a) = if -2147483648 ≤ n ∧ n ≤ 2147483647 then n else -2147483648 := by
  have hr := rne_of_nearest hn
  simp only [value] at h
  split at h
  · rename_i s q e
    obtain rfl := Option.some.inj h
    rw [e]
    simp only [hypercv_round, hr]
  · cases h

/-- C27 (partial): on the elements described by each domain the narrowing conversions round to nearest even and
saturate.  Missing: `float2int`, `float2uchar` and `float2uint` are wrong from 2^31 upwards, `float2ushort` does
not saturate above 65535, `float2short` never saturates, and `float2char` is wrong outside -127..127
(see `C27_refuted`). -/
theorem C27_narrow_partial :
    ConvertsElems hyper_mat_float2int 4 3
      (SaturatesOn (fun n => n ≤ 2147483647) (-2147483648) 2147483647 (signed 4)) ∧
    ConvertsElems hyper_mat_float2uchar 4 1 (SaturatesOn (fun n => n ≤ 2147483647) 0 255 (fun b => b)) ∧
    ConvertsElems hyper_mat_float2uint 4 13 (SaturatesOn (fun n => n ≤ 2147483647) 0 4294967295 (fun b => b)) ∧
    ConvertsElems hyper_mat_float2ushort 4 12 (SaturatesOn (fun n => n ≤ 65535) 0 65535 (fun b => b)) ∧
    ConvertsElems hyper_mat_float2short 4 2
      (SaturatesOn (fun n => -32768 ≤ n ∧ n ≤ 32767) (-32768) 32767 (signed 2)) ∧
    ConvertsElems hyper_mat_float2char 4 1
      (SaturatesOn (fun n => -127 ≤ n ∧ n ≤ 127) (-128) 127 (signed 1)) := by
  refine ⟨?_, ?_, ?_, ?_, ?_, ?_⟩
  · refine convElems_converts rfl rfl (fun x _ => bitsOf_lt 4 _) ?_
    intro a ha x n hx hn hd
    rw [round_of_value hx hn, signed_bitsOf (by decide) (by split <;> omega) (by split <;> omega)]
    unfold clamp
    repeat' split
    all_goals omega
  · refine convElems_converts rfl rfl (fun x _ => bitsOf_lt 1 _) ?_
    intro a ha x n hx hn hd
    beta_reduce
    rw [round_of_value hx hn]
    rw [bitsOf_nat (w := 1) (by unfold narrow_uchar; repeat' split <;> omega) (by unfold narrow_uchar; repeat' split <;> omega)]
    unfold clamp narrow_uchar
    repeat' split
    all_goals omega
  · refine convElems_converts rfl rfl (fun x _ => bitsOf_lt 4 _) ?_
    intro a ha x n hx hn hd
    beta_reduce
    rw [round_of_value hx hn]
    rw [bitsOf_nat (w := 4) (by unfold narrow_uint; repeat' split <;> omega) (by unfold narrow_uint; repeat' split <;> omega)]
    unfold clamp narrow_uint
    repeat' split
    all_goals omega
  · refine convElems_converts rfl rfl (fun x _ => bitsOf_lt 2 _) ?_
    intro a ha x n hx hn hd
    beta_reduce
    rw [round_of_value hx hn]
    rw [bitsOf_nat (w := 2) (by unfold narrow_ushort; repeat' split <;> omega) (by unfold narrow_ushort; repeat' split <;> omega)]
    unfold clamp narrow_ushort
    repeat' split
    all_goals omega
  · refine convElems_converts rfl rfl (fun x _ => bitsOf_lt 2 _) ?_
    intro a ha x n hx hn hd
    rw [round_of_value hx hn, signed_bitsOf (by decide) (by split <;> omega) (by split <;> omega)]
    unfold clamp
    repeat' split
    all_goals omega
  · refine convElems_converts rfl rfl (fun x _ => bitsOf_lt 1 _) ?_
    intro a ha x n hx hn hd
    rw [round_of_value hx hn, signed_bitsOf (by decide) (by unfold narrow_char; repeat' split <;> omega)
      (by unfold narrow_char; repeat' split <;> omega)]
    unfold clamp narrow_char
    repeat' split
    all_goals omega

/-- the domains of `C27_narrow_partial` contain values that need rounding: 2.5 (which is a float) rounds to 2,
and values that need saturation: 300 is above the range of `unsigned char` -/
example : f32.Rep (5 / 2) ∧ NearestEven (5 / 2) 2 ∧ clamp 0 255 300 = 255 := by
  refine ⟨⟨5, -1, by norm_num, by decide, by decide, by norm_num [f32]⟩, ⟨?_, fun _ => rfl⟩, by decide⟩
  norm_num

theorem nearest_int (n : ℤ) : NearestEven (n : ℚ) n := by
  constructor
  · norm_num
  · intro h; norm_num at h

theorem value_enc {q : ℚ} (h : f32.Rep q) : value 4 (f32.encode (.fin (q < 0) q)) = some q := by
  simp only [value]
  rw [decode_encode (by decide) h (by intro _; rfl)]

theorem refute_saturation {t' : Int} {E' : Nat} {lo hi : ℤ} {val : Nat → ℤ} {g : ℤ → Nat} (n : ℤ) (q : ℚ)
    (hq : q = n) (h : f32.Rep q) (hE' : elemBytes t' = some E')
    (hg : ∀ x, g x < 256 ^ E')
    (hv : val (g (if -2147483648 ≤ n ∧ n ≤ 2147483647 then n else -2147483648)) ≠ clamp lo hi n) :
    ¬ ConvertsElems (fun p => convElems p 4 t' 4 E' (fun x => g (hypercv_round (f32.decode x)))) 4 t'
      (Saturates lo hi val) := by
  rw [convElems_iff rfl hE' (fun x _ => hg _)]
  intro hc
  have := hc (f32.encode (.fin (q < 0) q)) (enc_lt h) q n (value_enc h) (by rw [hq]; exact nearest_int n)
  rw [round_of_value (value_enc h) (by rw [hq]; exact nearest_int n)] at this
  exact hv this

/-- C27 is false of every narrowing conversion of cubes: witnesses 2^31 (to `int`, which gives -2^31; to
`unsigned char`, which gives 0; to `unsigned int`, which gives 0), 65536 (to `unsigned short`, which gives 0),
32768 (to `short`, which gives -32768) and 128 (to `char`, which gives -128). -/
theorem C27_refuted :
    ¬ ConvertsElems hyper_mat_float2int 4 3 (Saturates (-2147483648) 2147483647 (signed 4)) ∧
    ¬ ConvertsElems hyper_mat_float2uchar 4 1 (Saturates 0 255 (fun b => b)) ∧
    ¬ ConvertsElems hyper_mat_float2uint 4 13 (Saturates 0 4294967295 (fun b => b)) ∧
    ¬ ConvertsElems hyper_mat_float2ushort 4 12 (Saturates 0 65535 (fun b => b)) ∧
    ¬ ConvertsElems hyper_mat_float2short 4 2 (Saturates (-32768) 32767 (signed 2)) ∧
    ¬ ConvertsElems hyper_mat_float2char 4 1 (Saturates (-128) 127 (signed 1)) := by
  have big : f32.Rep 2147483648 := ⟨1, 31, by norm_num, by decide, by decide, by norm_num [f32]⟩
  refine ⟨?_, ?_, ?_, ?_, ?_, ?_⟩
  · exact refute_saturation (g := fun r => bitsOf 4 r) 2147483648 2147483648 (by norm_num) big rfl
      (fun _ => bitsOf_lt _ _) (by decide)
  · exact refute_saturation (g := fun r => bitsOf 1 (narrow_uchar r)) 2147483648 2147483648 (by norm_num) big rfl
      (fun _ => bitsOf_lt _ _) (by decide)
  · exact refute_saturation (g := fun r => bitsOf 4 (narrow_uint r)) 2147483648 2147483648 (by norm_num) big rfl
      (fun _ => bitsOf_lt _ _) (by decide)
  · exact refute_saturation (g := fun r => bitsOf 2 (narrow_ushort r)) 65536 65536 (by norm_num)
      ⟨1, 16, by norm_num, by decide, by decide, by norm_num [f32]⟩ rfl (fun _ => bitsOf_lt _ _) (by decide)
  · exact refute_saturation (g := fun r => bitsOf 2 r) 32768 32768 (by norm_num)
      ⟨1, 15, by norm_num, by decide, by decide, by norm_num [f32]⟩ rfl (fun _ => bitsOf_lt _ _) (by decide)
  · exact refute_saturation (g := fun r => bitsOf 1 (narrow_char r)) 128 128 (by norm_num)
      ⟨1, 7, by norm_num, by decide, by decide, by norm_num [f32]⟩ rfl (fun _ => bitsOf_lt _ _) (by decide)

/-- the English property for the image conversion: a float image becomes a fresh byte image of the same size
and channels whose elements are related by `R`, and nothing else changes -/
def ConvertsImage (R : Nat → Nat → Prop) : Prop :=
  ∀ (m : Mem) (p H W ch : Nat) (a : Nat → Nat → Nat → Nat), m.WF → IsImageN m p H W 4 ch 4 a →
    H * W * ch * 4 ≤ 2147483551 →
    ∃ q m' px, simple_mat_float2uchar (some p) m = .ok (some q, m') ∧ IsImage8 m' q H W ch px ∧
      (∀ i j c, i < H → j < W → c < ch → R (a i j c) (px i j c).toNat) ∧ FreshImg m m' q ∧ Frame m m' ∧ m'.WF

theorem uchar_nat {x : Int} (h0 : 0 ≤ x) (h : x < 256) : ((uchar x).toNat : Int) = x := by
  unfold uchar
  rw [UInt8.toNat_ofNat']
  omega

/-- C27 for images (partial): elements that round to 0 .. 2^31-1 are rounded to nearest even and limited to
255.  Missing: negative elements, which wrap around instead of becoming 0 (`C27_image_refuted`), and elements
from 2^31 upwards. -/
theorem C27_image_partial :
    ConvertsImage (SaturatesOn (fun n => 0 ≤ n ∧ n ≤ 2147483647) 0 255 (fun b => b)) := by
  intro m p H W ch a hm h hN
  refine ⟨_, _, _, sm_float2uchar_run hm h hN,
    newImage_isImage (px := fun i j c _ => narrow_sm_uchar (hypercv_round (f32.decode (a i j c)))) rfl
      h.1.posR h.1.posC h.1.posCh, ?_, newImage_fresh m, newImage_frame m, newImage_WF hm⟩
  intro i j c hi hj hc x n hx hn hd
  rw [round_of_value hx hn, if_pos (by omega)]
  unfold narrow_sm_uchar
  beta_reduce
  rw [uchar_nat (by split <;> omega) (by split <;> omega)]
  unfold clamp
  repeat' split
  all_goals omega

/-- a heap with one float image -/
def floatImage (R C ch : Nat) (a : Nat → Nat → Nat → Nat) : Mem :=
  Mem.empty.newImage R C 4 ch 4 (imgBytes C ch 4 (fun i j c t => leByte (a i j c) t))

theorem floatImage_is {R C ch : Nat} {a : Nat → Nat → Nat → Nat} (hR : 0 < R) (hC : 0 < C) (hch : 0 < ch)
    (ha : ∀ i j c, i < R → j < C → c < ch → a i j c < 256 ^ 4) :
    (floatImage R C ch a).WF ∧ IsImageN (floatImage R C ch a) 1 R C 4 ch 4 a :=
  ⟨newImage_WF emptyMem_WF, newImage_isImage rfl hR hC hch, ha⟩

example : ∃ m p, m.WF ∧ IsImageN m p 2 3 4 2 4 (fun i j c => 1000000000 * i + 100 * j + c) :=
  ⟨_, 1, floatImage_is (by decide) (by decide) (by decide) (by intros; omega)⟩

/-- C27 is false of the image conversion: -1 becomes 255 -/
theorem C27_image_refuted : ¬ ConvertsImage (Saturates 0 255 (fun b => b)) := by
  intro hc
  have hr : f32.Rep (-1) := ⟨-1, 0, by norm_num, by decide, by decide, by norm_num [f32]⟩
  have hv : value 4 (f32.encode (.fin ((-1 : ℚ) < 0) (-1))) = some (-1) := value_enc hr
  have hn : NearestEven (-1) (-1) := by exact_mod_cast nearest_int (-1)
  have hi := floatImage_is (R := 1) (C := 1) (ch := 1) (a := fun _ _ _ => f32.encode (.fin ((-1 : ℚ) < 0) (-1)))
    (by decide) (by decide) (by decide) (by intros; exact enc_lt hr)
  obtain ⟨q, m', px, h1, h2, h3, -⟩ := hc _ _ _ _ _ _ hi.1 hi.2 (by decide)
  rw [sm_float2uchar_run hi.1 hi.2 (by decide)] at h1
  obtain ⟨rfl, rfl⟩ := Prod.mk.inj (Except.ok.inj h1) |>.imp (fun h => Option.some.inj h) id
  have h4 := img_unique h2 (newImage_isImage (px := fun i j c _ => _) rfl (by decide) (by decide) (by decide))
    0 0 0 0 (by decide) (by decide) (by decide) (by decide)
  have h5 := h3 0 0 0 (by decide) (by decide) (by decide) _ _ hv hn
  beta_reduce at h4
  rw [h4, round_of_value hv hn] at h5
  revert h5
  decide

/-! ## C28: widening to float and back is the identity -/

/-- C28: for every byte cube `hyper_mat_float2uchar(hyper_mat_uchar2float(m))` and for every unsigned 16-bit cube
`hyper_mat_float2ushort(hyper_mat_ushort2float(m))` return normally, with a fresh cube of the same type, geometry,
storage order, elements and wavelengths. -/
theorem C28_roundtrip {m : Mem} {p : Nat} {lay : Layout} {S L B E : Nat} {t : Int}
    {a : Nat → Nat → Nat → Nat} {w : Nat → UInt8}
    (hm : m.WF) (hc : IsCubeN m p lay S L B t E a w)
    (hN : S * L * B * 4 ≤ 2147483647) (hW : 4 * B ≤ 2147483647) :
    (t = 1 → ∃ q m1 r m2, hyper_mat_uchar2float (some p) m = .ok (some q, m1) ∧
      hyper_mat_float2uchar (some q) m1 = .ok (some r, m2) ∧
      IsCubeN m2 r lay S L B 1 E a w ∧ FreshCube m m2 r ∧ Frame m m2) ∧
    (t = 12 → ∃ q m1 r m2, hyper_mat_ushort2float (some p) m = .ok (some q, m1) ∧
      hyper_mat_float2ushort (some q) m1 = .ok (some r, m2) ∧
      IsCubeN m2 r lay S L B 12 E a w ∧ FreshCube m m2 r ∧ Frame m m2) := by
  have hle : ∀ h, h < m.next → ∀ m1 : Mem, m.next ≤ m1.next → h < m1.next := by intros; omega
  constructor
  · rintro rfl
    obtain rfl : 1 = E := Option.some.inj hc.1.size
    obtain ⟨q, m1, b, h1, h2, h3, h4, h5, h6⟩ := C26_widen.2.2.1 m p lay S L B 1 4 a w hm hc rfl (by omega) hN hW
    obtain ⟨r, m2, c, k1, k2, k3, k4, k5, k6⟩ :=
      C27_narrow_partial.2.1 m1 q lay S L B 4 1 b w h6 h2 rfl hN (by omega) hW
    have hnx : m.next ≤ m1.next := by
      have := h4 q (Or.inl rfl)
      by_contra hc'
      obtain ⟨hdr, _, _, hh, _⟩ := h2.1.obj
      have := (h6 q (by omega)).2.1
      rw [hh] at this; cases this
    refine ⟨q, m1, r, m2, h1, k1, ⟨?_, hc.2⟩, ?_, ?_⟩
    · have e : ∀ i j k, i < L → j < S → k < B → c i j k = a i j k := by
        intro i j k hi hj hk
        have hv := h3 i j k hi hj hk
        have ha := hc.2 i j k hi hj hk
        have := k3 i j k hi hj hk (a i j k) (a i j k) (by rw [hv]; rfl) (nearest_int (a i j k)) (by omega)
        have : ((c i j k : Nat) : ℤ) = a i j k := by
          rw [show ((c i j k : Nat) : ℤ) = clamp 0 255 (a i j k) from this]; unfold clamp
          rw [if_neg (by omega), if_neg (by omega)]
        exact_mod_cast this
      obtain ⟨z, pS, pL, pB, hdr, wb, f, g1, g2, g3, g4, g5, g6, g7, g8, g9, g10, g11⟩ := k2.1
      exact ⟨z, pS, pL, pB, hdr, wb, f, g1, g2, g3, g4, g5, g6, g7, g8, g9, g10, fun i j k t hi hj hk ht => by
        rw [g11 i j k t hi hj hk ht, e i j k hi hj hk]⟩
    · intro h hh
      have := k4 h hh
      omega
    · intro h hh
      have := h5 h hh
      have h' := k5 h (by omega)
      exact ⟨h'.1.trans this.1, h'.2.1.trans this.2.1, h'.2.2.trans this.2.2⟩
  · rintro rfl
    obtain rfl : 2 = E := Option.some.inj hc.1.size
    obtain ⟨q, m1, b, h1, h2, h3, h4, h5, h6⟩ := C26_widen_ushort m p lay S L B 2 4 a w hm hc rfl (by omega) hN hW
    obtain ⟨r, m2, c, k1, k2, k3, k4, k5, k6⟩ :=
      C27_narrow_partial.2.2.2.1 m1 q lay S L B 4 2 b w h6 h2 rfl hN (by omega) hW
    have hnx : m.next ≤ m1.next := by
      have := h4 q (Or.inl rfl)
      by_contra hc'
      obtain ⟨hdr, _, _, hh, _⟩ := h2.1.obj
      have := (h6 q (by omega)).2.1
      rw [hh] at this; cases this
    refine ⟨q, m1, r, m2, h1, k1, ⟨?_, hc.2⟩, ?_, ?_⟩
    · have e : ∀ i j k, i < L → j < S → k < B → c i j k = a i j k := by
        intro i j k hi hj hk
        have hv := h3 i j k hi hj hk
        have ha := hc.2 i j k hi hj hk
        have := k3 i j k hi hj hk (a i j k) (a i j k) (by rw [hv]; rfl) (nearest_int (a i j k)) (by omega)
        have : ((c i j k : Nat) : ℤ) = a i j k := by
          rw [show ((c i j k : Nat) : ℤ) = clamp 0 65535 (a i j k) from this]; unfold clamp
          rw [if_neg (by omega), if_neg (by omega)]
        exact_mod_cast this
      obtain ⟨z, pS, pL, pB, hdr, wb, f, g1, g2, g3, g4, g5, g6, g7, g8, g9, g10, g11⟩ := k2.1
      exact ⟨z, pS, pL, pB, hdr, wb, f, g1, g2, g3, g4, g5, g6, g7, g8, g9, g10, fun i j k t hi hj hk ht => by
        rw [g11 i j k t hi hj hk ht, e i j k hi hj hk]⟩
    · intro h hh
      have := k4 h hh
      omega
    · intro h hh
      have := h5 h hh
      have h' := k5 h (by omega)
      exact ⟨h'.1.trans this.1, h'.2.1.trans this.2.1, h'.2.2.trans this.2.2⟩

example : ∃ m p, m.WF ∧ IsCubeN m p .bip 3 2 2 12 2 (fun i j k => 30000 * i + 1000 * j + k) (fun _ => 0) :=
  ⟨_, 2, cubeHeap_WF, cubeHeap_cube (by decide) (by decide) (by decide) rfl (by intros; omega)⟩

/-! ## C55: the saturating cast -/

/-- C55: `saturate_cast_float2uchar` maps every finite value to the nearest integer (ties to even) limited to
0..255, +infinity to 255 and -infinity to 0. -/
theorem C55_saturate :
    (∀ (s : Bool) (x : ℚ) (n : ℤ), NearestEven x n →
      ((saturate_cast_float2uchar (.fin s x)).toNat : ℤ) = clamp 0 255 n) ∧
    saturate_cast_float2uchar (.inf false) = 255 ∧ saturate_cast_float2uchar (.inf true) = 0 := by
  refine ⟨?_, by decide, by decide⟩
  intro s x n hn
  obtain ⟨h1, h2⟩ := abs_le.mp hn.1
  have hr := rne_of_nearest hn
  unfold saturate_cast_float2uchar
  simp only [FV.lt, decide_eq_true_eq, hypercv_round, hr]
  by_cases ha : (255 : ℚ) < x
  · rw [if_pos ha]
    have : (254 : ℚ) < n := by linarith
    have : (254 : ℤ) < n := by exact_mod_cast this
    unfold clamp
    rw [if_neg (by omega)]
    split
    · rfl
    · show (255 : ℤ) = n
      omega
  · rw [if_neg ha]
    by_cases hb : x < 0
    · rw [if_pos hb]
      have : (n : ℚ) < 1 := by linarith
      have : n < 1 := by exact_mod_cast this
      unfold clamp
      split
      · rfl
      · rw [if_neg (by omega)]
        show (0 : ℤ) = n
        omega
    · rw [if_neg hb]
      have e1 : (-1 : ℚ) < n := by linarith
      have e1 : -1 < n := by exact_mod_cast e1
      have e2 : (n : ℚ) < 256 := by linarith
      have e2 : n < 256 := by exact_mod_cast e2
      rw [if_pos (by omega), uchar_nat (by omega) (by omega)]
      unfold clamp
      rw [if_neg (by omega), if_neg (by omega)]

/-- half-way cases of both parities and both limits are covered -/
example : NearestEven (5 / 2) 2 ∧ NearestEven (7 / 2) 4 ∧ NearestEven (-3) (-3) ∧ NearestEven (511 / 2) 256 := by
  refine ⟨⟨?_, fun _ => rfl⟩, ⟨?_, fun _ => rfl⟩, ⟨by norm_num, by norm_num⟩, ⟨?_, fun _ => rfl⟩⟩ <;> norm_num

end HyperCV
