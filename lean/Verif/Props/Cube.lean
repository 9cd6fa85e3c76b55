/- Properties of cubes: conversion, copying, creation (C01-C06, C08, C09, C15, C53). -/
import Verif.Proof.Create

namespace HyperCV
open Spec

/-! ### A concrete cube for the non-vacuity checks -/

/-- element bytes of the demonstration cube: all different -/
def demoV (i j k t : Nat) : UInt8 := UInt8.ofNat (1 + 50 * i + 20 * j + 4 * k + t)
def demoW (t : Nat) : UInt8 := UInt8.ofNat (200 + t)

/-- a heap containing a cube of 2 samples, 3 lines, 4 bands of 16-bit integers in the given order -/
def demoMem (lay : Layout) : Mem := convMem Mem.empty lay 2 3 4 2 2 demoV demoW

theorem demo_WF (lay : Layout) : (demoMem lay).WF :=
  newCube_WF (by intro h _; exact ⟨rfl, rfl, rfl⟩)

theorem demo_isCube (lay : Layout) : IsCube (demoMem lay) 2 lay 2 3 4 2 2 demoV demoW :=
  newCube_isCube (m := Mem.empty) lay (by decide) (by decide) (by decide) rfl

/-! ### C01 -/

/-- **C01** for the six routines. -/
theorem C01_bil2bsq : Converts bil2bsq .bil .bsq := converts_of_run bil2bsq_run
theorem C01_bil2bip : Converts bil2bip .bil .bip := converts_of_run bil2bip_run
theorem C01_bsq2bil : Converts bsq2bil .bsq .bil := converts_of_run bsq2bil_run
theorem C01_bsq2bip : Converts bsq2bip .bsq .bip := converts_of_run bsq2bip_run
theorem C01_bip2bsq : Converts bip2bsq .bip .bsq := converts_of_run bip2bsq_run
theorem C01_bip2bil : Converts bip2bil .bip .bil := converts_of_run bip2bil_run

/-- the hypotheses of C01 are met by a concrete cube -/
example : (demoMem .bil).WF ∧ IsCube (demoMem .bil) 2 .bil 2 3 4 2 2 demoV demoW ∧
    2 * 3 * 4 * 2 ≤ 2147483647 ∧ 4 * 4 ≤ 2147483647 := ⟨demo_WF _, demo_isCube _, by decide, by decide⟩

/-! ### C02 -/

/-- the public conversion routine from order `a` to order `b` (for `a ≠ b`) -/
def convRoutine : Layout → Layout → Option Nat → M (Option Nat)
  | .bil, .bsq => bil2bsq
  | .bil, .bip => bil2bip
  | .bsq, .bil => bsq2bil
  | .bsq, .bip => bsq2bip
  | .bip, .bsq => bip2bsq
  | .bip, .bil => bip2bil
  | _, _ => hyper_mat_copy

theorem convRoutine_converts {a b : Layout} (hab : a ≠ b) : Converts (convRoutine a b) a b := by
  cases a <;> cases b <;> first | exact absurd rfl hab | skip
  · exact C01_bsq2bil
  · exact C01_bsq2bip
  · exact C01_bil2bsq
  · exact C01_bil2bip
  · exact C01_bip2bsq
  · exact C01_bip2bil

/-- **C02**, round trip: converting from `a` to `b` and back yields a cube with the same header and
byte-identical data and wavelengths; the original is still there, unchanged. -/
theorem C02_roundtrip {a b : Layout} (hab : a ≠ b) {m : Mem} {p S L B E : Nat} {dt : Int}
    {v : Nat → Nat → Nat → Nat → UInt8} {w : Nat → UInt8} (hm : m.WF)
    (hc : IsCube m p a S L B dt E v w) (hN : S * L * B * E ≤ 2147483647) (hW : 4 * B ≤ 2147483647) :
    ∃ r m', (do let q ← convRoutine a b (some p); convRoutine b a q) m = .ok (some r, m') ∧
      SameCube m p m' r ∧ SameCube m p m' p ∧ m.next ≤ r := by
  obtain ⟨q, m1, h1, h2, h3, h4, h5⟩ := convRoutine_converts hab m p S L B dt E v w hm hc hN hW
  obtain ⟨r, m2, g1, g2, g3, g4, g5⟩ := convRoutine_converts (Ne.symm hab) m1 q S L B dt E v w h5 h2 hN hW
  have hp1 := isCube_frame hm hc h4
  have hp2 := isCube_frame h5 hp1 g4
  refine ⟨r, m2, ?_, isCube_same hc g2, isCube_same hc hp2, ?_⟩
  · rw [bind_ok h1, g1]
  · have e1 := g3 r (Or.inl rfl)
    have e2 := h3 q (Or.inl rfl)
    have e3 : q < m1.next := by
      obtain ⟨hdr, hq⟩ := cube_hdr h2
      by_contra hlt
      have := (h5 q (by omega)).2.1
      rw [hq] at this; cases this
    omega

/-- **C02**, composition: going through an intermediate order gives byte-identical results to converting
directly. -/
theorem C02_compose {a b c : Layout} (hab : a ≠ b) (hbc : b ≠ c) (hac : a ≠ c) {m : Mem} {p S L B E : Nat}
    {dt : Int} {v : Nat → Nat → Nat → Nat → UInt8} {w : Nat → UInt8} (hm : m.WF)
    (hc : IsCube m p a S L B dt E v w) (hN : S * L * B * E ≤ 2147483647) (hW : 4 * B ≤ 2147483647) :
    ∃ r m' r2 m2', (do let q ← convRoutine a b (some p); convRoutine b c q) m = .ok (some r, m') ∧
      convRoutine a c (some p) m = .ok (some r2, m2') ∧ SameCube m' r m2' r2 := by
  obtain ⟨q, m1, h1, h2, h3, h4, h5⟩ := convRoutine_converts hab m p S L B dt E v w hm hc hN hW
  obtain ⟨r, m2, g1, g2, g3, g4, g5⟩ := convRoutine_converts hbc m1 q S L B dt E v w h5 h2 hN hW
  obtain ⟨r', m3, k1, k2, _⟩ := convRoutine_converts hac m p S L B dt E v w hm hc hN hW
  exact ⟨r, m2, r', m3, by rw [bind_ok h1, g1], k1, isCube_same g2 k2⟩

example : Layout.bil ≠ .bsq ∧ Layout.bsq ≠ .bip ∧ Layout.bil ≠ .bip ∧ (demoMem .bil).WF ∧
    IsCube (demoMem .bil) 2 .bil 2 3 4 2 2 demoV demoW :=
  ⟨by decide, by decide, by decide, demo_WF _, demo_isCube _⟩

/-! ### C03 -/

/-- `conv2` is an in-place conversion to order `t`: it returns normally for a cube in any of the three
orders, the cube afterwards holds the same samples and wavelengths in order `t`, and outside the cube's own
storage the heap is exactly as before (in particular the temporary cube is released). -/
def InPlace (conv2 : Option Nat → M Unit) (t : Layout) : Prop :=
  ∀ (m : Mem) (p : Nat) (a : Layout) (S L B : Nat) (dt : Int) (E : Nat)
    (v : Nat → Nat → Nat → Nat → UInt8) (w : Nat → UInt8),
    m.WF → IsCube m p a S L B dt E v w → S * L * B * E ≤ 2147483647 → 4 * B ≤ 2147483647 →
    ∃ m', conv2 (some p) m = .ok ((), m') ∧ IsCube m' p t S L B dt E v w ∧
      Unchanged m m' (Owns m p) ∧ m'.WF

/-- **C03** -/
theorem C03_convert2bsq : InPlace convert2bsq .bsq :=
  fun _ _ _ _ _ _ _ _ _ _ hm hc hN hW => convert2bsq_run hm hc hN hW
theorem C03_convert2bil : InPlace convert2bil .bil :=
  fun _ _ _ _ _ _ _ _ _ _ hm hc hN hW => convert2bil_run hm hc hN hW
theorem C03_convert2bip : InPlace convert2bip .bip :=
  fun _ _ _ _ _ _ _ _ _ _ hm hc hN hW => convert2bip_run hm hc hN hW

example (a : Layout) : (demoMem a).WF ∧ IsCube (demoMem a) 2 a 2 3 4 2 2 demoV demoW :=
  ⟨demo_WF _, demo_isCube _⟩

/-! ### C04 (refuted) -/

/-- **C04 refuted**: `hyper_mat_copy` returns NULL for every non-null cube and dereferences NULL. -/
theorem C04_copy_returns_null (p : Nat) (m : Mem) : hyper_mat_copy (some p) m = .ok (none, m) := rfl

theorem C04_copy_null_ub (m : Mem) : hyper_mat_copy none m = .error (.ub .nullDeref) := rfl

/-- the property as stated fails, already for the demonstration cube -/
theorem C04_refuted : ¬ (∀ (m : Mem) (p S L B : Nat) (a : Layout) (dt : Int) (E : Nat)
    (v : Nat → Nat → Nat → Nat → UInt8) (w : Nat → UInt8), m.WF → IsCube m p a S L B dt E v w →
    S * L * B * E ≤ 2147483647 → 4 * B ≤ 2147483647 →
    ∃ q m', hyper_mat_copy (some p) m = .ok (some q, m') ∧ SameCube m p m' q) := by
  intro h
  obtain ⟨q, m', h1, _⟩ := h _ _ _ _ _ _ _ _ _ _ (demo_WF .bil) (demo_isCube .bil) (by decide) (by decide)
  cases h1

/-! ### C05 -/

/-- **C05**: copying between two cubes with separate storage and equal dimensions and type makes the
destination equal to the source (including the order tag), keeps the source and touches nothing else. -/
theorem C05_copy_to {m : Mem} {sp dp S L B E : Nat} {a b : Layout} {dt : Int}
    {v v' : Nat → Nat → Nat → Nat → UInt8} {w w' : Nat → UInt8}
    (hs : IsCube m sp a S L B dt E v w) (hd : IsCube m dp b S L B dt E v' w')
    (hsep : Separate m sp dp) (hN : S * L * B * E ≤ 2147483647) :
    ∃ m', hyper_mat_copy_to (some sp) (some dp) m = .ok ((), m') ∧
      IsCube m' dp a S L B dt E v w ∧ SameCube m sp m' dp ∧ SameCube m sp m' sp ∧
      Unchanged m m' (Owns m dp) := by
  have hs0 := hs
  obtain ⟨hdr, wb, f, a1, a2, a3, a4, a5, a6, a7, a8, a9, a10, a11⟩ := hs.obj
  obtain ⟨hdr', wb', f', b1, b2, b3, b4, b5, b6, b7, b8, b9, b10, b11⟩ := hd.obj
  rw [bytes_iff] at a9 a10 b9 b10
  have os1 : Owns m sp hdr.data := Or.inr ⟨hdr, a1, Or.inl rfl⟩
  have os2 : Owns m sp wb := Or.inr ⟨hdr, a1, Or.inr a7⟩
  have od1 : Owns m dp hdr'.data := Or.inr ⟨hdr', b1, Or.inl rfl⟩
  have od2 : Owns m dp wb' := Or.inr ⟨hdr', b1, Or.inr b7⟩
  have n1 : hdr.data ≠ hdr'.data := by intro e; exact hsep _ ⟨os1, e ▸ od1⟩
  have n2 : wb ≠ wb' := by intro e; exact hsep _ ⟨os2, e ▸ od2⟩
  have n3 : wb ≠ hdr'.data := by intro e; exact hsep _ ⟨os2, e ▸ od1⟩
  have n4 : hdr.data ≠ wb' := by intro e; exact hsep _ ⟨os1, e ▸ od2⟩
  have n5 : sp ≠ dp := by intro e; exact hsep sp ⟨Or.inl rfl, Or.inl e⟩
  have key := copy_to_run hs.size hs.posL hs.posB hN a1 b1 a2 a3 a4 a5 b2 b3 b4 b5 a7 b7 a9 a10 b9 b10
    n1 n2 n3 b8
  rw [a6] at key
  have hdst := copyToMem_isCube (m := m) (dp := dp) (w := w) hs.size hs.posS hs.posL hs.posB b2 b3 b4 b5 b7 b8 a11
  have hun : Unchanged m (copyToMem m dp hdr' wb' (S * L * B * E) B a.tag f w) (Owns m dp) := by
    intro h hno
    apply copyToMem_unchanged
    · intro e; exact hno (Or.inl e)
    · intro e; exact hno (e ▸ od1)
    · intro e; exact hno (e ▸ od2)
  have hsrc : IsCube (copyToMem m dp hdr' wb' (S * L * B * E) B a.tag f w) sp a S L B dt E v w := by
    refine ⟨hs.size, hs.posS, hs.posL, hs.posB, hdr, wb, f, ?_, a2, a3, a4, a5, a6, a7, a8, ?_, ?_, a11⟩
    · rw [(hun sp (fun o => hsep sp ⟨Or.inl rfl, o⟩)).2.1, a1]
    · rw [bytes_iff]; unfold Holds; rw [(hun _ (fun o => hsep _ ⟨os1, o⟩)).1]; exact a9
    · rw [bytes_iff]; unfold Holds; rw [(hun _ (fun o => hsep _ ⟨os2, o⟩)).1]; exact a10
  exact ⟨_, key, hdst, isCube_same hs hdst, isCube_same hs hsrc, hun⟩

/-- **C05**, rejection: different dimensions or data types end in the error exit. -/
theorem C05_copy_to_mismatch {m : Mem} {sp dp : Nat} {s d : HyperMat} (hs : m.hm sp = some s)
    (hd : m.hm dp = some d)
    (hne : d.samples ≠ s.samples ∨ d.lines ≠ s.lines ∨ d.bands ≠ s.bands ∨ s.data_type ≠ d.data_type) :
    hyper_mat_copy_to (some sp) (some dp) m = .error .exit := by
  unfold hyper_mat_copy_to
  rw [nonNull_some, nonNull_some, bind_ok (getH_ok hs), bind_ok (getH_ok hd)]
  have : decide (d.samples = s.samples ∧ d.lines = s.lines ∧ d.bands = s.bands ∧ s.data_type = d.data_type) = false := by
    simp only [decide_eq_false_iff_not]
    tauto
  simp only [this, cassert_bind_false]

/-- two separate cubes in one heap -/
example : ∃ m, IsCube m 2 .bil 2 3 4 2 2 demoV demoW ∧
    IsCube m 5 .bsq 2 3 4 2 2 (fun _ _ _ _ => 0) (fun _ => 0) ∧ Separate m 2 5 := by
  let m := convMem (demoMem .bil) .bsq 2 3 4 2 2 (fun _ _ _ _ => 0) (fun _ => 0)
  have h1 : IsCube m 2 .bil 2 3 4 2 2 demoV demoW := isCube_frame (demo_WF _) (demo_isCube _) (convMem_frame _ _)
  have h2 : IsCube m 5 .bsq 2 3 4 2 2 (fun _ _ _ _ => 0) (fun _ => 0) := by
    show IsCube _ ((demoMem .bil).next + 2) _ _ _ _ _ _ _ _
    exact newCube_isCube .bsq (by decide) (by decide) (by decide) rfl
  refine ⟨m, h1, h2, ?_⟩
  rintro h ⟨o1, o2⟩
  have f2 := convMem_fresh (S := 2) (L := 3) (B := 4) (dt := 2) (E := 2) (v := fun _ _ _ _ => 0)
    (w := fun _ => 0) (demoMem .bil) .bsq h o2
  have hn : (demoMem .bil).next = 3 := rfl
  rcases o1 with rfl | ⟨hdr, e1, e2⟩
  · omega
  · have : m.hm 2 = some (newHdr Mem.empty 2 3 4 2 Layout.bil.tag) := rfl
    rw [this] at e1
    have e1 := Option.some.inj e1
    subst e1
    rcases e2 with rfl | e2
    · simp [newHdr, Mem.empty] at f2; omega
    · simp [newHdr, Mem.empty] at e2; omega

/-! ### C06 -/

/-- the optional source array `src` provides the bytes `f` (at least `n` of them); NULL provides zeros -/
def Provides (m : Mem) (src : Option Nat) (n : Nat) (f : Nat → UInt8) : Prop :=
  match src with
  | none => ∀ i, i < n → f i = 0
  | some s => ∃ N, n ≤ N ∧ Bytes m s N f

/-- **C06**: creation of a cube, for every argument list whose byte sizes fit in `int`. -/
theorem C06_create {m : Mem} (hm : m.WF) {S L B E : Nat} {dt : Int} {lay : Layout} {data wave : Option Nat}
    {f w : Nat → UInt8} (hS : 0 < S) (hL : 0 < L) (hB : 0 < B) (hE : elemBytes dt = some E)
    (hN : S * L * B * E ≤ 2147483647) (hW : 4 * B ≤ 2147483647)
    (hdata : Provides m data (S * L * B * E) f) (hwave : Provides m wave (4 * B) w) :
    ∃ q m', create_hyper_mat_with_data S L B dt lay.tag data wave m = .ok (some q, m') ∧
      IsCube m' q lay S L B dt E (fun i j k t => f (lay.pos S L B i j k * E + t)) w ∧
      FreshCube m m' q ∧ Frame m m' ∧ m'.WF := by
  have h1 : SrcOK m data (S * L * B * E) f := by
    intro s hs; subst hs
    obtain ⟨N, h1, h2⟩ := hdata
    exact ⟨N, h1, bytes_iff.1 h2⟩
  have h2 : SrcOK m wave (4 * B) w := by
    intro s hs; subst hs
    obtain ⟨N, h1, h2⟩ := hwave
    exact ⟨N, h1, bytes_iff.1 h2⟩
  have key := create_with_data_ok hm hS hL hB hE hN hW (il := lay.tag) (by cases lay <;> decide) h1 h2
  have e : m.newCube S L B dt (S * L * B * E) lay.tag (srcOr f data) (srcOr w wave)
      = convMem m lay S L B dt E (fun i j k t => f (lay.pos S L B i j k * E + t)) w := by
    unfold convMem
    apply newCube_congr
    · intro x hx
      obtain ⟨i, j, k, hi, hj, hk, c1, c2⟩ := byte_cover lay hx
      have ex : x = lay.pos S L B i j k * E + (x - lay.pos S L B i j k * E) := by omega
      have hr : cubeBytes lay S L B E (fun i j k t => f (lay.pos S L B i j k * E + t)) x = f x := by
        conv_lhs => rw [ex]
        rw [cubeBytes_at lay hi hj hk (by omega), ← ex]
      rw [hr]
      cases data with
      | none => exact (hdata x hx).symm
      | some s => rfl
    · intro x hx
      cases wave with
      | none => exact (hwave x hx).symm
      | some s => rfl
  rw [e] at key
  exact ⟨_, _, key, newCube_isCube lay hS hL hB hE, convMem_fresh m lay, convMem_frame m lay, convMem_WF hm lay⟩

/-- **C06**, error exit: taken exactly when a dimension is not positive (for argument lists whose byte
sizes fit in `int`). -/
theorem C06_create_exit {m : Mem} {samples lines bands dt : Int} {il : List Char} {data wave : Option Nat}
    (h : samples ≤ 0 ∨ lines ≤ 0 ∨ bands ≤ 0) :
    create_hyper_mat_with_data samples lines bands dt il data wave m = .error .exit := create_bad_dims h

example : Provides (demoMem .bil) none (2 * 3 * 4 * 2) (fun _ => 0) ∧
    Provides (demoMem .bil) (some 0) (2 * 3 * 4 * 2) (cubeBytes .bil 2 3 4 2 demoV) :=
  ⟨fun _ _ => rfl, _, le_refl _, bytes_iff.2 (newCube_data ..)⟩

/-! ### C08 (refuted for the complex types) -/

/-- **C08 refuted**: for the documented complex types 6 and 9 no call of `create_hyper_mat` returns. -/
theorem C08_complex_types_fail {m m' : Mem} {samples lines bands dt : Int} {il : List Char} {r : Option Nat}
    (hdt : dt = 6 ∨ dt = 9) : create_hyper_mat samples lines bands dt il m ≠ .ok (r, m') := by
  apply create_badtype
  rcases hdt with rfl | rfl <;> rfl

/-- a small complex cube: the allocated block is overrun by a `memset` of length `(size_t)-1` -/
theorem C08_complex_cube_ub :
    create_hyper_mat 1 1 1 6 "bsq".toList Mem.empty = .error (.ub .oob) := by rfl

/-- **C08, partial**: every other documented type has its documented size, and creation succeeds with it. -/
theorem C08_sizes_partial {dt : Int} {E : Nat} (h : documentedSize dt = some E) (h6 : dt ≠ 6) (h9 : dt ≠ 9) :
    get_elemsize dt = E ∧ ∀ (m : Mem) (S L B : Nat) (lay : Layout), m.WF → 0 < S → 0 < L → 0 < B →
      S * L * B * E ≤ 2147483647 → 4 * B ≤ 2147483647 →
      ∃ q m', create_hyper_mat S L B dt lay.tag m = .ok (some q, m') ∧
        IsCube m' q lay S L B dt E (fun _ _ _ _ => 0) (fun _ => 0) := by
  have hE : elemBytes dt = some E := by
    unfold documentedSize at h
    split at h <;> first | exact absurd rfl h6 | exact absurd rfl h9 | exact h
  refine ⟨(get_elemsize_eq hE).1, ?_⟩
  intro m S L B lay hm hS hL hB hN hW
  obtain ⟨q, m', h1, h2, _⟩ := C06_create (m := m) hm (dt := dt) (lay := lay) (data := none) (wave := none)
    (f := fun _ => 0) (w := fun _ => 0) hS hL hB hE hN hW (fun _ _ => rfl) (fun _ _ => rfl)
  exact ⟨q, m', h1, h2⟩

example : documentedSize 5 = some 8 ∧ documentedSize 9 = some 16 := ⟨rfl, rfl⟩

/-! ### C09 (refuted) -/

/-- **C09 refuted**: as soon as the byte size of positive `int` dimensions exceeds `INT_MAX`, the size
computation is a signed overflow (undefined behaviour) instead of an error report. -/
theorem C09_overflow_ub {m : Mem} {S L B E : Nat} {dt : Int} {il : List Char}
    (hS : 0 < S) (hSR : S ≤ 2147483647) (hL : 0 < L) (hLR : L ≤ 2147483647) (hB : 0 < B)
    (hBR : B ≤ 2147483647) (hE : elemBytes dt = some E) (hN : 2147483647 < S * L * B * E) :
    create_hyper_mat S L B dt il m = .error (.ub .overflow) :=
  create_overflow hS hSR hL hLR hB hBR hE hN

/-- a realistic scene (10000 x 10000 pixels, 100 bands of 16 bit) meets the hypotheses -/
example : create_hyper_mat (10000 : Nat) (10000 : Nat) (100 : Nat) 2 "bsq".toList Mem.empty = .error (.ub .overflow) :=
  C09_overflow_ub (by decide) (by decide) (by decide) (by decide) (by decide) (by decide) (E := 2) rfl (by decide)

/-- **C09 refuted**, second way: the wavelength byte count `bands * sizeof(float)` is truncated to `int`;
with 2^30 bands a cube is returned whose wavelength region has no bytes at all. -/
theorem C09_wavelength_wraps (m : Mem) :
    ∃ q m' h wb, create_hyper_mat (1 : Nat) (1 : Nat) (1073741824 : Nat) 1 "bsq".toList m = .ok (some q, m') ∧
      m'.hm q = some h ∧ h.bands = 1073741824 ∧ h.wavelength = some wb ∧ m'.blk wb = some [] := by
  have key := create_gen (m := m) (S := 1) (L := 1) (B := 1073741824) (E := 1) (W := 0) (dt := 1)
    (il := "bsq".toList) (by decide) (by decide) (by decide) rfl (by decide) (by decide) (by decide)
  refine ⟨_, _, newHdr m 1 1 1073741824 1 "bsq".toList, m.next + 1, key, growH_hm_self _ _, rfl, rfl, ?_⟩
  rw [growH_blk]
  exact grow_holds (m.grow _ _) 0 (fun _ => 0)

/-- **C09, partial**: when both byte counts fit in `int` the cube has exactly
`samples * lines * bands * elemsize` data bytes and `4 * bands` wavelength bytes. -/
theorem C09_size_partial {m : Mem} (hm : m.WF) {S L B E : Nat} {dt : Int} {lay : Layout}
    (hS : 0 < S) (hL : 0 < L) (hB : 0 < B) (hE : elemBytes dt = some E)
    (hN : S * L * B * E ≤ 2147483647) (hW : 4 * B ≤ 2147483647) :
    ∃ q m' h wb d w, create_hyper_mat S L B dt lay.tag m = .ok (some q, m') ∧ m'.hm q = some h ∧
      h.wavelength = some wb ∧ m'.blk h.data = some d ∧ d.length = S * L * B * E ∧
      m'.blk wb = some w ∧ w.length = 4 * B := by
  obtain ⟨q, m', h1, h2, _⟩ := C06_create (m := m) hm (dt := dt) (lay := lay) (data := none) (wave := none)
    (f := fun _ => 0) (w := fun _ => 0) hS hL hB hE hN hW (fun _ _ => rfl) (fun _ _ => rfl)
  obtain ⟨hdr, wb, f, a1, a2, a3, a4, a5, a6, a7, a8, ⟨d, d1, d2, _⟩, ⟨w, w1, w2, _⟩, _⟩ := h2.obj
  exact ⟨q, m', hdr, wb, d, w, h1, a1, a7, d1, d2, w1, w2⟩

example : elemBytes 4 = some 4 ∧ 640 * 512 * 200 * 4 ≤ 2147483647 := ⟨rfl, by decide⟩

/-! ### C15 -/

/-- **C15**: a three-character tag followed by any bytes in memory compares equal to a tag literal iff the
three characters agree. -/
theorem C15_tag_compare (il pad : List Char) (lay : Layout) (h3 : il.length = 3) (h0 : '\x00' ∉ il) :
    cmpstr (il ++ pad) lay.tag = 1 ↔ il = lay.tag :=
  cmpstr_tag il pad lay (fun c hc e => h0 (e ▸ hc)) h3

/-- **C15**, general: on C strings (text before the first NUL) the result is 1 iff one is a prefix of the
other, and 0 otherwise. -/
theorem C15_prefix (a b : List Char) (ha : '\x00' ∉ a) (hb : '\x00' ∉ b) (ta tb : List Char) :
    cmpstr (a ++ '\x00' :: ta) (b ++ '\x00' :: tb) = if a <+: b ∨ b <+: a then 1 else 0 := by
  have ca : ∀ (a t : List Char), '\x00' ∉ a → cstr (a ++ '\x00' :: t) = a := by
    intro a t ha
    rw [cstr_append (fun c hc e => ha (e ▸ hc))]
    simp [cstr]
  have h := cmpstr_iff (a ++ '\x00' :: ta) (b ++ '\x00' :: tb)
  rw [ca a ta ha, ca b tb hb] at h
  by_cases hp : a <+: b ∨ b <+: a
  · rw [if_pos hp]; exact h.2 hp
  · rw [if_neg hp]
    rcases cmpstr_cases (a ++ '\x00' :: ta) (b ++ '\x00' :: tb) with e | e
    · exact absurd (h.1 e) hp
    · exact e

example : (['b', 'i', 'l'] : List Char).length = 3 ∧ '\x00' ∉ (['b', 'i', 'l'] : List Char) := by decide

/-! ### C53 (refuted): conversion of a cube that is already in the target order -/

/-- **C53 refuted**: called on a cube already in the target order, every conversion routine returns NULL. -/
theorem C53_same_order_returns_null {m : Mem} {p S L B E : Nat} {b : Layout} {dt : Int}
    {v : Nat → Nat → Nat → Nat → UInt8} {w : Nat → UInt8} (hc : IsCube m p b S L B dt E v w) :
    (b = .bsq → bil2bsq (some p) m = .ok (none, m) ∧ bip2bsq (some p) m = .ok (none, m)) ∧
    (b = .bil → bsq2bil (some p) m = .ok (none, m) ∧ bip2bil (some p) m = .ok (none, m)) ∧
    (b = .bip → bil2bip (some p) m = .ok (none, m) ∧ bsq2bip (some p) m = .ok (none, m)) := by
  obtain ⟨hdr, wb, f, h1, h2, h3, h4, h5, h6, h7⟩ := hc.obj
  refine ⟨?_, ?_, ?_⟩ <;> intro e <;> subst e
  · exact ⟨by rw [bil2bsq_eq]; exact convShape_same _ _ _ h1 h6,
      by rw [bip2bsq_eq]; exact convShape_same _ _ _ h1 h6⟩
  · exact ⟨by rw [bsq2bil_eq]; exact convShape_same _ _ _ h1 h6,
      by rw [bip2bil_eq]; exact convShape_same _ _ _ h1 h6⟩
  · exact ⟨by rw [bil2bip_eq]; exact convShape_same _ _ _ h1 h6,
      by rw [bsq2bip_eq]; exact convShape_same _ _ _ h1 h6⟩

/-- the property "returns an equal copy" fails on the demonstration cube -/
theorem C53_refuted : ¬ ∃ q m', bil2bsq (some 2) (demoMem .bsq) = .ok (some q, m') := by
  rintro ⟨q, m', h⟩
  rw [((C53_same_order_returns_null (demo_isCube .bsq)).1 rfl).1] at h
  cases h

end HyperCV
