/- Property C84: the rotation of cubes. -/
import Verif.Proof.Rotate
import Verif.Proof.Radiometric
import Verif.Props.Cube

namespace HyperCV
open Spec

variable {cos sin : FV → FV} {m : Mem} {p S L B E : Nat} {dt : Int} {a : Layout} {v : Nat → Nat → Nat → Nat → UInt8} {w : Nat → UInt8}

/-- the position of a pixel in a `bip` cube -/
theorem pix_eval {i j W : Nat} (pW : 0 < W) (pB : 0 < B) (pE : 0 < E) (h : (i * W + j) * B * E < 2147483648) :
    ((CI.lit (i:Int) * CI.lit (W:Int) + CI.lit (j:Int)) * CI.lit (B:Int) * CI.lit (E:Int) : CI) = CI.lit (((i * W + j) * B * E : Nat) : Int) := by
  ci_down

theorem bandBytes_eval (pE : 0 < E) (h : B * E ≤ 2147483647) : (CI.lit (B:Int) * CI.lit (E:Int) : CI) = CI.lit ((B * E : Nat) : Int) := by
  have h : B * E < 2147483648 := by omega
  ci_down

/-- a pixel of `B * E` bytes lies in its cube -/
theorem pix_lt {i j W H : Nat} (hi : i < H) (hj : j < W) : (i * W + j) * B * E + B * E ≤ W * H * B * E := by
  have h1 : i * W + j + 1 ≤ H * W := mix_lt hi hj
  have h2 := Nat.mul_le_mul_right (B * E) h1
  have e1 : (i * W + j + 1) * (B * E) = (i * W + j) * B * E + B * E := by ring
  have e2 : H * W * (B * E) = W * H * B * E := by ring
  omega

/-- `memcpy` to an offset at or after the end of the destination -/
theorem memcpy_oob {m : Mem} {d s N n doff soff k : Nat} {f g : Nat → UInt8}
    (hs : Holds m s N f) (hd : Holds m d n g) (hne : s ≠ d) (hk : 0 < k) (h1 : n ≤ doff) (h2 : soff < N) :
    memcpy d (doff : Int) s (soff : Int) (k : Int) m = .error (.ub .oob) := by
  unfold memcpy
  rw [if_neg (by omega), if_neg (by rintro ⟨h, -⟩; exact hne h.symm)]
  refine forI_stop (n := k) (k := 0) (fun m' => m' = m) (fun i hi => by omega) hk ?_ rfl
  rintro _ rfl
  have e1 : (soff : Int) + ((0:Nat) : Int) = ((soff : Nat) : Int) := by omega
  have e2 : (doff : Int) + ((0:Nat) : Int) = ((doff : Nat) : Int) := by omega
  rw [e1, e2, bind_ok (load_ok hs h2)]
  exact store_oob hd (by omega)

/-- one pixel, given the coordinates computed for it -/
theorem rotPixel_eq {hd d : HyperMat} {W X Y i j : Nat} {di dj : Int} {c s : FV} (b2 : hd.samples = S) (b4 : hd.bands = B) (b5 : hd.data_type = dt)
    (hE : elemBytes dt = some E) (pS : 0 < S) (pW : 0 < W) (pB : 0 < B) (h1 : (X * W + Y) * B * E < 2147483648) (h2 : (i * S + j) * B * E < 2147483648)
    (h3 : B * E ≤ 2147483647)
    (tx : FV.trunc (f64.add (f64.add (f64.mul (f64.ofInt i) c) (f64.mul (f64.ofInt j) s)) (f64.ofInt di)) = some (X:Int))
    (ty : FV.trunc (f64.add (f64.sub (f64.mul (f64.ofInt j) c) (f64.mul (f64.ofInt i) s)) (f64.ofInt dj)) = some (Y:Int)) (m : Mem) :
    rotPixel hd d W di dj c s i j m = memcpy d.data (((X * W + Y) * B * E : Nat) : Int) hd.data (((i * S + j) * B * E : Nat) : Int) ((B * E : Nat) : Int) m := by
  obtain ⟨q1, q2, q3⟩ := get_elemsize_eq hE
  unfold rotPixel
  rw [bind_ok (truncInt_ok tx _), bind_ok (truncInt_ok ty _), b2, b4, b5, q1]
  rw [bind_ok (ev_ok (pix_eval pW pB (by omega) h1) _), bind_ok (ev_ok (pix_eval pS pB (by omega) h2) _), bind_ok (ev_ok (bandBytes_eval (by omega) h3) _)]

/-- **C84**, the part that holds: rotating by zero degrees (where the C library returns the cosine one and the sine zero, both exact) keeps every pixel where
it was.  The result is a new `bip` cube of the size rounded up to even numbers, zero outside the source; the source holds the same values, converted in place to
`bip`; nothing else that existed changes.  Missing: every other angle, see the refutations. -/
theorem C84_zero_partial (hcos : cos (.fin false 0) = .fin false 1) (hsin : sin (.fin false 0) = .fin false 0)
    (hm : m.WF) (hc : IsCube m p a S L B dt E v w) (hS : S ≤ 8388608) (hL : L ≤ 8388608)
    (hN : 2 * ((S + 1) / 2) * (2 * ((L + 1) / 2)) * B * E ≤ 2147483647) (hW : 4 * B ≤ 2147483647) :
    ∃ m' q, hyper_mat_rotate cos sin (some p) (.fin false 0) m = .ok (some q, m') ∧
      IsCube m' q .bip (2 * ((S + 1) / 2)) (2 * ((L + 1) / 2)) B dt E (fun i j k t => if i < L ∧ j < S then v i j k t else 0) w ∧
      IsCube m' p .bip S L B dt E v w ∧ Separate m' p q ∧
      ∀ h, m.blk h ≠ none ∨ m.hm h ≠ none ∨ m.sm h ≠ none → ¬ Owns m p h → m'.blk h = m.blk h ∧ m'.hm h = m.hm h ∧ m'.sm h = m.sm h := by
  obtain ⟨q1, q2, q3⟩ := get_elemsize_eq hc.size
  have pB := hc.posB
  have pS := hc.posS
  have pL := hc.posL
  have bE : 0 < B * E := Nat.mul_pos pB (by omega)
  have z : rotAngle (.fin false 0) = .fin false 0 := by decide +kernel
  have c1 : (FV.fin false 1).Is 1 := ⟨_, rfl⟩
  have s0 : (FV.fin false 0).Is 0 := ⟨_, rfl⟩
  have ew : |(((S + 1) / 2 : Nat) : ℤ)| ≤ 16777216 := by rw [abs_le]; constructor <;> omega
  have eh : |(((L + 1) / 2 : Nat) : ℤ)| ≤ 16777216 := by rw [abs_le]; constructor <;> omega
  have ew' : |(-(((S + 1) / 2 : Nat) : ℤ))| ≤ 16777216 := by rwa [abs_neg]
  have eh' : |(-(((L + 1) / 2 : Nat) : ℤ))| ≤ 16777216 := by rwa [abs_neg]
  have side : ∀ n : Nat, n ≤ 8388608 → |(((n:Nat) : ℤ)) - (-(n:ℤ))| = ((2 * n : Nat) : ℤ) ∧ |(-((n:Nat) : ℤ)) - ((n:ℤ))| = ((2 * n : Nat) : ℤ) ∧
      |((2 * n : Nat) : ℤ)| ≤ 16777216 := by
    intro n hn
    refine ⟨?_, ?_, ?_⟩
    · rw [abs_of_nonneg (by omega)]; push_cast; ring
    · rw [abs_of_nonpos (by omega)]; push_cast; ring
    · rw [abs_of_nonneg (by omega)]; omega
  have ext1 : ∀ {n : Nat} {u u' : FV}, n ≤ 8388608 → u.Is ((n:ℤ):ℚ) → u'.Is ((-(n:ℤ) : ℤ) : ℚ) → (extent u u').Is (((2 * n : Nat) : ℤ) : ℚ) := by
    intro n u u' hn h1 h2
    obtain ⟨g1, g2, g3⟩ := side n hn
    have := extent_is h1 h2 (by rw [g1]; omega)
    rwa [g1] at this
  have ext2 : ∀ {n : Nat} {u u' : FV}, n ≤ 8388608 → u.Is ((-(n:ℤ) : ℤ) : ℚ) → u'.Is ((n:ℤ):ℚ) → (extent u u').Is (((2 * n : Nat) : ℤ) : ℚ) := by
    intro n u u' hn h1 h2
    obtain ⟨g1, g2, g3⟩ := side n hn
    have := extent_is h1 h2 (by rw [g2]; omega)
    rwa [g2] at this
  have shift : ∀ {n : Nat} {u : FV}, n ≤ 8388608 → u.Is ((-(n:ℤ) : ℤ) : ℚ) → FV.trunc (f32.add u (f32.ofInt (((2 * n : Nat) : ℤ) / 2))) = some 0 := by
    intro n u hn h1
    have e : (((2 * n : Nat) : ℤ) / 2) = (n : ℤ) := by omega
    rw [e]
    have := is_add h1 (is_ofInt (F := f32) (n := (n:ℤ)) (rep32_int (by rw [abs_le]; constructor <;> omega)))
      (by rw [← Int.cast_add]; exact rep32_int (by rw [abs_le]; constructor <;> omega))
    rw [← Int.cast_add, show (-(n:ℤ) + n) = 0 by omega] at this
    exact trunc_int this (by decide)
  have big : S * L * B * E ≤ 2 * ((S + 1) / 2) * (2 * ((L + 1) / 2)) * B * E :=
    Nat.mul_le_mul_right _ (Nat.mul_le_mul_right _ (Nat.mul_le_mul (by omega) (by omega)))
  obtain ⟨m1, hd, f, k2, k3, k4, b1, b2, b3, b4, b5, b9, b11, run⟩ := rot_front (cos := cos) (sin := sin) (W := 2 * ((S + 1) / 2)) (H := 2 * ((L + 1) / 2))
    (di := 0) (dj := 0) (w2 := (S + 1) / 2) (h2 := (L + 1) / 2) (angle := .fin false 0) hm hc (by omega) hW
    (by omega) (by omega) (by rw [z]; exact hcos) (by rw [z]; exact hsin) rfl rfl
    (wider_is (ext1 (by omega) (cornerSum_zero c1 s0 ew eh) (cornerDiff_zero c1 s0 ew' eh))
      (ext2 (by omega) (cornerSum_zero c1 s0 ew' eh) (cornerDiff_zero c1 s0 ew eh)) (side _ (by omega)).2.2)
    (wider_is (ext1 (by omega) (cornerDiff_zero c1 s0 eh ew) (cornerSum_zero c1 s0 eh' ew))
      (ext1 (by omega) (cornerSum_zero c1 s0 eh ew) (cornerDiff_zero c1 s0 eh' ew)) (side _ (by omega)).2.2)
    (shift (by omega) (cornerDiff_zero c1 s0 ew' eh)) (shift (by omega) (cornerSum_zero c1 s0 eh' ew)) (by omega) (by omega) hN
  generalize hWW : 2 * ((S + 1) / 2) = W at *
  generalize hHH : 2 * ((L + 1) / 2) = H at *
  have hne : hd.data ≠ m1.next := by have := b9.lt_next k4; omega
  have coord : ∀ {i j : Nat}, i < L → j < S →
      FV.trunc (f64.add (f64.add (f64.mul (f64.ofInt i) (.fin false 1)) (f64.mul (f64.ofInt j) (.fin false 0))) (f64.ofInt 0)) = some (i:Int) ∧
      FV.trunc (f64.add (f64.sub (f64.mul (f64.ofInt j) (.fin false 1)) (f64.mul (f64.ofInt i) (.fin false 0))) (f64.ofInt 0)) = some (j:Int) := by
    intro i j hi hj
    have hi' : |((i:Nat):ℤ)| ≤ 16777216 := by rw [abs_le]; constructor <;> omega
    have hj' : |((j:Nat):ℤ)| ≤ 16777216 := by rw [abs_le]; constructor <;> omega
    have z0 : (f64.ofInt 0).Is 0 := by
      have := is_int64 (n := 0) (by decide)
      rwa [Int.cast_zero] at this
    have t1 := is_add (sum64 c1 s0 hi' hj') z0 (by rw [add_zero]; exact rep64_int (hi'.trans (by decide)))
    have t2 := is_add (diff64 c1 s0 hj' hi') z0 (by rw [add_zero]; exact rep64_int (hj'.trans (by decide)))
    rw [add_zero] at t1 t2
    exact ⟨trunc_int t1 (by constructor <;> omega), trunc_int t2 (by constructor <;> omega)⟩
  let nv : Nat → Nat → Nat → Nat → UInt8 := fun i j k t => if i < L ∧ j < S then v i j k t else 0
  have fl : Fills (forI 0 (L:Int) fun i => forI 0 (S:Int) fun j => rotPixel hd (newHdr m1 W H B dt Layout.bip.tag) W 0 0 (.fin false 1) (.fin false 0) i j)
      (m1.newCube W H B dt (W * H * B * E) Layout.bip.tag (fun _ => 0) w) m1.next (W * H * B * E) (cubeBytes .bip W H B E nv)
      (fun p => ∃ i, i < L ∧ ∃ j, j < S ∧ ((i * W + j) * B * E ≤ p ∧ p < (i * W + j) * B * E + B * E)) := by
    apply nest2 (P := fun i j p => (i * W + j) * B * E ≤ p ∧ p < (i * W + j) * B * E + B * E)
    intro i j hi hj
    have l1 := pix_lt (B := B) (E := E) (W := W) (H := H) (i := i) (j := j) (by omega) (by omega)
    have l2 := pix_lt (B := B) (E := E) (W := S) (H := L) hi hj
    have e : (rotPixel hd (newHdr m1 W H B dt Layout.bip.tag) W 0 0 (.fin false 1) (.fin false 0) i j)
        = memcpy m1.next (((i * W + j) * B * E : Nat) : Int) hd.data (((i * S + j) * B * E : Nat) : Int) ((B * E : Nat) : Int) := by
      funext mm
      exact rotPixel_eq b2 b4 b5 hc.size pS (by omega) pB (by omega) (by omega) (by omega) (coord hi hj).1 (coord hi hj).2 mm
    rw [e]
    refine Fills.memcpy (newCube_holds_old k4 b9) hne l1 l2 ?_
    intro p h1 h2
    obtain ⟨r, rfl⟩ := Nat.exists_eq_add_of_le h1
    have hr : r < B * E := by omega
    have hk : r / E < B := Nat.div_lt_of_lt_mul (by rwa [Nat.mul_comm] at hr)
    have ht : r % E < E := Nat.mod_lt _ (by omega)
    have er : r = r / E * E + r % E := by rw [Nat.mul_comm]; exact (Nat.div_add_mod r E).symm
    have e1 : (i * W + j) * B * E + r = Layout.bip.pos W H B i j (r / E) * E + r % E := by
      conv_lhs => rw [er]
      simp only [Layout.pos]; ring
    have e2 : (i * S + j) * B * E + ((i * W + j) * B * E + r - (i * W + j) * B * E) = Layout.bip.pos S L B i j (r / E) * E + r % E := by
      rw [Nat.add_sub_cancel_left]
      conv_lhs => rw [er]
      simp only [Layout.pos]; ring
    rw [e2, e1, cubeBytes_at .bip (by omega) (by omega) hk ht, b11 i j _ _ hi hj hk ht]
    exact if_pos ⟨hi, hj⟩
  have done := fl.run (newCube_data m1 W H B dt _ _ _ _)
  rw [newCube_put_data] at done
  refine ⟨m1.newCube W H B dt (W * H * B * E) Layout.bip.tag (cubeBytes .bip W H B E nv) w, m1.next + 2, ?_, ?_, ?_, ?_, ?_⟩
  · rw [run, bind_ok done]
    refine congrArg (fun x => Except.ok (some (m1.next + 2), x)) ?_
    refine newCube_congr m1 ?_ (fun _ _ => rfl)
    intro p hp
    beta_reduce
    split
    · rfl
    · rename_i hno
      obtain ⟨i, j, k, hi, hj, hk, lo, up⟩ := byte_cover .bip hp
      obtain ⟨t, rfl⟩ := Nat.exists_eq_add_of_le lo
      have ht : t < E := by omega
      rw [cubeBytes_at .bip hi hj hk ht]
      refine (if_neg ?_).symm
      rintro ⟨h1, h2⟩
      apply hno
      refine ⟨i, h1, j, h2, ?_⟩
      have hb : k * E + t < B * E := mix_lt hk ht
      have e : Layout.bip.pos W H B i j k * E + t = (i * W + j) * B * E + (k * E + t) := by simp only [Layout.pos]; ring
      rw [e]
      omega
  · exact newCube_isCube .bip (by omega) (by omega) pB hc.size
  · exact isCube_frame k4 k2 (newCube_frame m1)
  · rintro h ⟨o1, o2⟩
    have old : h < m1.next := by
      have k2' := isCube_frame k4 k2 (newCube_frame m1 (S := W) (L := H) (B := B) (dt := dt) (N := W * H * B * E) (il := Layout.bip.tag)
        (f := cubeBytes .bip W H B E nv) (w := w))
      have lp : p < m1.next := by
        by_contra hge
        have := (k4 p (by omega)).2.1
        rw [b1] at this; cases this
      have hp' : (m1.newCube W H B dt (W * H * B * E) Layout.bip.tag (cubeBytes .bip W H B E nv) w).hm p = some hd := by
        rw [(newCube_frame m1 p lp).2.1]; exact b1
      obtain ⟨hd2, wb2, f2, c1, c2, c3, c4, c5, c6, c7, c8, c9, c10, c11⟩ := k2.obj
      rw [b1] at c1; cases c1
      rcases o1 with rfl | ⟨hd3, g1, g2⟩
      · exact lp
      · rw [hp'] at g1; cases g1
        rcases g2 with rfl | g2
        · exact (bytes_iff.1 c9).lt_next k4
        · rw [c7] at g2; cases g2; exact (bytes_iff.1 c10).lt_next k4
    rcases o2 with rfl | ⟨hd3, g1, g2⟩
    · omega
    · rw [newCube_hm] at g1
      cases g1
      rcases g2 with rfl | g2
      · simp [newHdr] at old
      · simp [newHdr] at g2; omega
  · intro h hex hno
    have hs := k3 h hno
    have hlt : h < m1.next := by
      by_contra hge
      have := k4 h (by omega)
      rw [← hs.1, ← hs.2.1, ← hs.2.2] at hex
      simp [this.1, this.2.1, this.2.2] at hex
    have hf := newCube_frame m1 (S := W) (L := H) (B := B) (dt := dt) (N := W * H * B * E) (il := Layout.bip.tag)
        (f := cubeBytes .bip W H B E nv) (w := w) h hlt
    exact ⟨hf.1.trans hs.1, hf.2.1.trans hs.2.1, hf.2.2.trans hs.2.2⟩

/-- the hypotheses are met by a concrete cube and functions agreeing with the cosine and the sine at zero -/
example (lay : Layout) : (∃ cos sin : FV → FV, cos (.fin false 0) = .fin false 1 ∧ sin (.fin false 0) = .fin false 0) ∧ (demoMem lay).WF ∧
    IsCube (demoMem lay) 2 lay 2 3 4 2 2 demoV demoW ∧ 2 * ((2 + 1) / 2) * (2 * ((3 + 1) / 2)) * 4 * 2 ≤ 2147483647 ∧ 4 * 4 ≤ 2147483647 :=
  ⟨⟨fun _ => .fin false 1, fun _ => .fin false 0, rfl, rfl⟩, demo_WF _, demo_isCube _, by decide, by decide⟩

/-- **C84 refuted**: already for the angle zero the result has one sample more than the source whenever the number of samples is odd, the additional column
being zero. -/
theorem C84_refuted_size (hcos : cos (.fin false 0) = .fin false 1) (hsin : sin (.fin false 0) = .fin false 0)
    (hm : m.WF) (hc : IsCube m p a S L B dt E v w) (hS : S ≤ 8388608) (hL : L ≤ 8388608) (hodd : S % 2 = 1)
    (hN : (S + 1) * (2 * ((L + 1) / 2)) * B * E ≤ 2147483647) (hW : 4 * B ≤ 2147483647) :
    ∃ m' q hdr, hyper_mat_rotate cos sin (some p) (.fin false 0) m = .ok (some q, m') ∧ m'.hm q = some hdr ∧ hdr.samples = S + 1 := by
  have e : 2 * ((S + 1) / 2) = S + 1 := by omega
  obtain ⟨m', q, h1, h2, -⟩ := C84_zero_partial hcos hsin hm hc hS hL (by rw [e]; exact hN) hW
  obtain ⟨hdr, wb, f, b1, b2, -⟩ := h2.obj
  refine ⟨m', q, hdr, h1, b1, ?_⟩
  rw [b2, e]; push_cast; rfl

/-- the angle ninety degrees of the library: `PI` has eight digits, so its cosine is not zero -/
theorem ninety : rotAngle (.fin false 90) = .fin false (3537118815677477 / 2251799813685248) := by decide +kernel

/-- **C84 refuted**: for a cube of 4 samples and 2 lines, whatever its bands and data type, a rotation by ninety degrees writes outside the destination.  The
hypotheses on `cos` and `sin` are the correctly rounded values at that angle. -/
theorem C84_refuted_quarter (hcos : cos (.fin false (3537118815677477 / 2251799813685248)) = .fin false (4049130289443121 / 151115727451828646838272))
    (hsin : sin (.fin false (3537118815677477 / 2251799813685248)) = .fin false (9007199254740989 / 9007199254740992))
    (hm : m.WF) (hc : IsCube m p a 4 2 B dt E v w) (hN : 4 * 2 * B * E ≤ 2147483647) (hN2 : 9 * B * E ≤ 2147483647) (hW : 4 * B ≤ 2147483647) :
    hyper_mat_rotate cos sin (some p) (.fin false 90) m = .error (.ub .oob) := by
  obtain ⟨m1, hd, f, k2, k3, k4, b1, b2, b3, b4, b5, b9, b11, run⟩ := rot_front (cos := cos) (sin := sin) (W := 2) (H := 4) (di := 0) (dj := 4) (w2 := 2) (h2 := 1) (angle := .fin false 90)
    (c := .fin false (4049130289443121 / 151115727451828646838272)) (s := .fin false (9007199254740989 / 9007199254740992)) hm hc hN hW
    (by omega) (by omega) (by rw [ninety]; exact hcos) (by rw [ninety]; exact hsin) rfl rfl (by decide +kernel) (by decide +kernel) (by decide +kernel)
    (by decide +kernel) (by omega) (by omega) (by omega)
  rw [run]
  apply bind_err
  obtain ⟨q1, q2, q3⟩ := get_elemsize_eq hc.size
  have pB := hc.posB
  have bE : 0 < B * E := Nat.mul_pos pB (by omega)
  have x1 : ∀ k, k * B * E = k * (B * E) := fun k => by ring
  let P : Mem → Prop := fun m' => ∃ g, m' = m1.newCube 2 4 B dt (2 * 4 * B * E) Layout.bip.tag g w
  have hne : hd.data ≠ m1.next := by have := b9.lt_next k4; omega
  have one : ∀ j X Y : Nat, j < 4 → X * 2 + Y ≤ 7 →
      FV.trunc (f64.add (f64.add (f64.mul (f64.ofInt (0:Nat)) (.fin false (4049130289443121 / 151115727451828646838272)))
        (f64.mul (f64.ofInt j) (.fin false (9007199254740989 / 9007199254740992)))) (f64.ofInt 0)) = some (X:Int) →
      FV.trunc (f64.add (f64.sub (f64.mul (f64.ofInt j) (.fin false (4049130289443121 / 151115727451828646838272)))
        (f64.mul (f64.ofInt (0:Nat)) (.fin false (9007199254740989 / 9007199254740992)))) (f64.ofInt 4)) = some (Y:Int) →
      ∀ m', P m' → ∃ m'', rotPixel hd (newHdr m1 2 4 B dt Layout.bip.tag) 2 0 4 (.fin false (4049130289443121 / 151115727451828646838272))
        (.fin false (9007199254740989 / 9007199254740992)) (0:Nat) j m' = .ok ((), m'') ∧ P m'' := by
    rintro j X Y hj hXY tx ty _ ⟨g, rfl⟩
    have l1 : (X * 2 + Y) * (B * E) ≤ 7 * (B * E) := Nat.mul_le_mul_right _ hXY
    have l2 : (0 * 4 + j) * (B * E) ≤ 3 * (B * E) := Nat.mul_le_mul_right _ (by omega)
    have e1 := x1 9
    have e2 := x1 (X * 2 + Y)
    have e3 := x1 (0 * 4 + j)
    have e4 := x1 (4 * 2)
    have e5 := x1 (2 * 4)
    have ee := rotPixel_eq (d := newHdr m1 2 4 B dt Layout.bip.tag) (W := 2) (X := X) (Y := Y) (i := 0) (j := j) b2 b4 b5 hc.size (by omega) (by omega) pB
      (by omega) (by omega) (by omega) tx ty (m1.newCube 2 4 B dt (2 * 4 * B * E) Layout.bip.tag g w)
    refine ⟨_, ee.trans <| memcpy_ok (newCube_holds_old k4 b9) (newCube_data m1 2 4 B dt _ _ _ _) hne (by omega) (by omega), _, newCube_put_data m1⟩
  have P0 : P (m1.newCube 2 4 B dt (2 * 4 * B * E) Layout.bip.tag (fun _ => 0) w) := ⟨_, rfl⟩
  refine forI_stop (n := 2) (k := 0) P (fun i hi => by omega) (by omega) (fun m' hm' => ?_) P0
  refine forI_stop (n := 4) (k := 3) P ?_ (by omega) (fun m' hm' => ?_) hm'
  · intro j hj
    have : j = 0 ∨ j = 1 ∨ j = 2 := by omega
    rcases this with rfl | rfl | rfl
    · exact one 0 0 4 (by omega) (by omega) (by decide +kernel) (by decide +kernel)
    · exact one 1 0 4 (by omega) (by omega) (by decide +kernel) (by decide +kernel)
    · exact one 2 1 4 (by omega) (by omega) (by decide +kernel) (by decide +kernel)
  · obtain ⟨g, rfl⟩ := hm'
    have e1 := x1 9
    have e2 := x1 (2 * 2 + 4)
    have e3 := x1 (0 * 4 + 3)
    have e4 := x1 (4 * 2)
    have e5 := x1 (2 * 4)
    have := rotPixel_eq (d := newHdr m1 2 4 B dt Layout.bip.tag) (W := 2) (X := 2) (Y := 4) (i := 0) (j := 3) (di := 0) (dj := 4)
      (c := .fin false (4049130289443121 / 151115727451828646838272)) (s := .fin false (9007199254740989 / 9007199254740992))
      b2 b4 b5 hc.size (by omega) (by omega) pB (by omega) (by omega) (by omega) (by decide +kernel) (by decide +kernel)
      (m1.newCube 2 4 B dt (2 * 4 * B * E) Layout.bip.tag g w)
    refine this.trans ?_
    exact memcpy_oob (newCube_holds_old k4 b9) (newCube_data m1 2 4 B dt _ _ _ _) hne bE (by omega) (by omega)

/-- the hypotheses are met by a cube of 4 samples, 2 lines and 3 bands of 16-bit integers -/
example (lay : Layout) : (convMem Mem.empty lay 4 2 3 2 2 demoV demoW).WF ∧ IsCube (convMem Mem.empty lay 4 2 3 2 2 demoV demoW) 2 lay 4 2 3 2 2 demoV demoW ∧
    9 * 3 * 2 ≤ 2147483647 ∧ 4 * 3 ≤ 2147483647 :=
  ⟨newCube_WF (by intro h _; exact ⟨rfl, rfl, rfl⟩), newCube_isCube (m := Mem.empty) lay (by decide) (by decide) (by decide) rfl, by decide, by decide⟩

end HyperCV
