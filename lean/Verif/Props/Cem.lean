/- Property C85: detection of a spectrum by constrained energy minimisation. -/
import Verif.Proof.Post
import Verif.Proof.Convert
import Verif.Props.Cube
import Verif.Model.Cem

namespace HyperCV
open Spec

variable {m : Mem} {p S L B E : Nat} {dt : Int} {a : Layout} {v : Nat → Nat → Nat → Nat → UInt8} {w : Nat → UInt8}

/-- the computation of the filter does not return for two or more bands -/
theorem cemFilter_never {invd td sp : Nat} {sa li : Int} (hB : 2 ≤ B) (m : Mem) (r : Nat × Nat × Nat × Option Nat) (m' : Mem) :
    cemFilter invd td sp sa li (B:Int) dt m ≠ .ok (r, m') := by
  intro hc
  unfold cemFilter at hc
  obtain ⟨f1, m1, g1, hc⟩ := bind_inv hc
  obtain ⟨f2, m2, g2, hc⟩ := bind_inv hc
  obtain ⟨f3, m3, g3, hc⟩ := bind_inv hc
  obtain ⟨u, m4, g4, hc⟩ := bind_inv hc
  cases g1; cases g2; cases g3
  refine mulMatrix_never (n := 4 * B) (M := B) (K := B) (N := 1) (by omega) (by omega) (by omega) (by omega) ?_ _ _ _ ?_ g4
  · obtain ⟨b, rfl⟩ : ∃ b, B = b + 2 := ⟨B - 2, by omega⟩
    have : b + 2 ≤ (b + 2 - 1) * (b + 2) := Nat.le_mul_of_pos_left _ (by omega)
    omega
  · refine ⟨tab (((B:Int) * 4).toNat) (m.junk m.next), ?_, ?_⟩
    · simp [show m.next ≠ m.next + 1 + 1 by omega, show m.next ≠ m.next + 1 by omega]
    · simp [tab]; omega

/-- the computation of the filter does not return for one band and two or more pixels either: the last product is added to the filter, which has one element -/
theorem cemFilter_never_one {invd td sp S L : Nat} (hn : 2 ≤ S * L) (m : Mem) (r : Nat × Nat × Nat × Option Nat) (m' : Mem) :
    cemFilter invd td sp (S:Int) (L:Int) 1 dt m ≠ .ok (r, m') := by
  intro hc
  unfold cemFilter at hc
  obtain ⟨f1, m1, g1, hc⟩ := bind_inv hc
  obtain ⟨f2, m2, g2, hc⟩ := bind_inv hc
  obtain ⟨f3, m3, g3, hc⟩ := bind_inv hc
  obtain ⟨u4, m4, g4, hc⟩ := bind_inv hc
  obtain ⟨u5, m5, g5, hc⟩ := bind_inv hc
  obtain ⟨u6, m6, g6, hc⟩ := bind_inv hc
  obtain ⟨u7, m7, g7, hc⟩ := bind_inv hc
  obtain ⟨u8, m8, g8, hc⟩ := bind_inv hc
  obtain ⟨u9, m9, g9, hc⟩ := bind_inv hc
  obtain ⟨n, m10, g10, hc⟩ := bind_inv hc
  obtain ⟨u11, m11, g11, hc⟩ := bind_inv hc
  have i1 : OldLen m1 f1 4 := by
    cases g1
    exact ⟨⟨tab 4 (m.junk m.next), by simp, by simp⟩, by show m.next < m.next + 1; omega⟩
  have i2 := Keeps.malloc_oldLen _ _ _ i1 g2
  have i3 := Keeps.malloc_oldLen _ _ _ i2 g3
  have i4 := Keeps.mulMatrix_oldLen _ _ _ i3 g4
  have i5 := Keeps.mulMatrix_oldLen _ _ _ i4 g5
  have i6 := Keeps.mulMatrix_oldLen _ _ _ i5 g6
  have i7 : OldLen m7 f1 4 := (Keeps.forI (I := fun m => OldLen m f1 4) fun i => Keeps.bind Keeps.loadN fun _ => Keeps.bind Keeps.loadN fun _ =>
    Keeps.storeN writable_oldLen) _ _ _ i6 g7
  have i8 := Keeps.create_sm_oldLen _ _ _ i7 g8
  have i9 := Keeps.derefS (I := fun m => OldLen m f1 4) _ _ _ i8 g9
  obtain ⟨rfl, e⟩ := ev_inv g10
  obtain ⟨x, y, e1, e2, rfl⟩ := CI.mul_inv e
  cases e1; cases e2
  rw [show (S:Int) * (L:Int) = ((S * L : Nat) : Int) by push_cast; rfl] at g11
  exact mulMatrix_never_result (n := 4) (M := S * L) (K := 1) (N := 1) (by omega) (by omega) (by omega) (by omega) (by omega) _ _ _ i9.1 g11

/-- **C85 refuted**: for no float cube of more than one element, whatever its contents and the spectrum, does the detection return a result.  The arguments of all
four products are in the wrong order: with two or more bands the first product is given the new, uninitialised filter as a matrix of bands x bands elements and
reads outside it; with one band the last product is added to the filter of one element instead of the result. -/
theorem C85_refuted (hm : m.WF) (hc : IsCube m p a S L B 4 4 v w) (hB : 2 ≤ S * L * B) (hN : S * L * B * 4 ≤ 2147483647) (spectral : Nat) (r : Option Nat) (m' : Mem) :
    hyper_mat_cem (some p) spectral m ≠ .ok (r, m') := by
  intro h
  have hW : 4 * B ≤ 2147483647 := by
    have := hc.posS; have := hc.posL
    have : B ≤ S * L * B := Nat.le_mul_of_pos_left _ (Nat.mul_pos hc.posS hc.posL)
    omega
  obtain ⟨h0, hp0⟩ := cube_hdr hc
  have key : ∃ m1, cemToBsq (some p) h0 m = .ok ((), m1) ∧ IsCube m1 p .bsq S L B 4 4 v w := by
    by_cases ha : a = .bsq
    · refine ⟨m, ?_, ha ▸ hc⟩
      unfold cemToBsq
      exact congrFun (if_pos ((cube_tag_test (b := .bsq) hc hp0).2 ha)) m
    · have e : cemToBsq (some p) h0 = convert2bsq (some p) := if_neg (mt (cube_tag_test (b := .bsq) hc hp0).1 ha)
      rw [e]
      obtain ⟨m1, k1, k2, -⟩ := convert2bsq_run hm hc hN hW
      exact ⟨m1, k1, k2⟩
  obtain ⟨m1, k1, k2⟩ := key
  obtain ⟨hd, wb, f, b1, b2, b3, b4, -⟩ := k2.obj
  unfold hyper_mat_cem at h
  obtain ⟨h0', m2, g1, h⟩ := bind_inv h
  have e0 : derefH (some p) m = .ok (h0, m) := getH_ok hp0
  rw [e0] at g1; cases g1
  have e4 : decide (h0.data_type = 4) = true := by
    obtain ⟨hdr', wb', f', c1, c2, c3, c4, c5, -⟩ := hc.obj
    rw [hp0] at c1; cases c1
    simpa using c5
  rw [e4, cassert_bind_true] at h
  obtain ⟨u, m4, g3, h⟩ := bind_inv h
  rw [k1] at g3; cases g3
  obtain ⟨hd', m5, g4, h⟩ := bind_inv h
  have e1 : derefH (some p) m1 = .ok (hd, m1) := getH_ok b1
  rw [e1] at g4; cases g4
  obtain ⟨n, m6, -, h⟩ := bind_inv h
  obtain ⟨src, m7, -, h⟩ := bind_inv h
  obtain ⟨s, m8, -, h⟩ := bind_inv h
  obtain ⟨t, m9, -, h⟩ := bind_inv h
  obtain ⟨u, m10, -, h⟩ := bind_inv h
  obtain ⟨co, m11, -, h⟩ := bind_inv h
  obtain ⟨th, m12, -, h⟩ := bind_inv h
  obtain ⟨ch, m13, -, h⟩ := bind_inv h
  obtain ⟨n2, m14, -, h⟩ := bind_inv h
  obtain ⟨u, m15, -, h⟩ := bind_inv h
  obtain ⟨im, m16, -, h⟩ := bind_inv h
  obtain ⟨ih, m17, -, h⟩ := bind_inv h
  obtain ⟨u, m18, -, h⟩ := bind_inv h
  obtain ⟨fr, m19, g, h⟩ := bind_inv h
  rw [b4] at g
  by_cases h2 : 2 ≤ B
  · exact cemFilter_never h2 _ _ _ g
  · have hB1 : B = 1 := by have := hc.posB; omega
    subst hB1
    rw [b2, b3] at g
    exact cemFilter_never_one (by simpa using hB) _ _ _ g

/-- elements of a cube of two pixels and two bands: the pixels are (1, 0) and (0, 1) -/
def cemV (_i j k t : Nat) : UInt8 := if j = k ∧ t = 3 then 0x3F else if j = k ∧ t = 2 then 0x80 else 0

/-- a heap with that cube and a spectrum of two elements -/
def cemMem : Mem := (convMem Mem.empty .bip 2 1 2 4 4 cemV demoW).grow 8 (fun _ => 0)

/-- the hypotheses are met by a cube of which all earlier steps succeed: the outcome is an access outside a block -/
example : cemMem.WF ∧ IsCube cemMem 2 .bip 2 1 2 4 4 cemV demoW ∧
    (match hyper_mat_cem (some 2) 3 cemMem with | .error (.ub .oob) => true | _ => false) = true := by
  refine ⟨?_, ?_, ?_⟩
  · exact grow_WF (newCube_WF (by intro h _; exact ⟨rfl, rfl, rfl⟩)) _ _
  · exact isCube_frame (newCube_WF (by intro h _; exact ⟨rfl, rfl, rfl⟩)) (newCube_isCube (m := Mem.empty) .bip (by decide) (by decide) (by decide) rfl) (fun h hh => ⟨grow_blk_ne _ _ _ (Nat.ne_of_lt hh), rfl, rfl⟩)
  · decide +kernel

/-- a cube of one pixel and two samples in one band also meets the hypotheses; again the outcome is an access outside a block -/
example : (match hyper_mat_cem (some 2) 3 ((convMem Mem.empty .bip 2 1 1 4 4 cemV demoW).grow 4 (fun _ => 0)) with | .error (.ub .oob) => true | _ => false) = true := by
  decide +kernel

/-- the bytes of the float 1.0 -/
def oneBytes (t : Nat) : UInt8 := if t = 3 then 0x3F else if t = 2 then 0x80 else 0

/-- a heap with a cube of one pixel and one band of value 1.0 and a spectrum, block 3, that is equal to the pixel; the allocator fills its blocks with ones -/
def cemMem1 : Mem := (convMem { Mem.empty with junk := fun _ t => oneBytes (t % 4) } .bsq 1 1 1 4 4 (fun _ _ _ t => oneBytes t) demoW).grow 4 oneBytes

/-- **C85 refuted for the remaining cubes**: for a cube of one element the detection returns, but a pixel equal to the spectrum gives zero instead of one, and the
spectrum of the caller, 1.0 before the call, is 3.0 afterwards. -/
theorem C85_refuted_single :
    cemMem1.blk 3 = some [0x00, 0x00, 0x80, 0x3F] ∧
    ∃ r m' h, hyper_mat_cem (some 2) 3 cemMem1 = .ok (some r, m') ∧ m'.sm r = some h ∧ (h.rows, h.cols, h.data_type) = (1, 1, 4) ∧
      m'.blk h.data = some [0, 0, 0, 0] ∧ m'.blk 3 = some [0x00, 0x00, 0x40, 0x40] := by
  refine ⟨by decide, ?_⟩
  have key : (match hyper_mat_cem (some 2) 3 cemMem1 with
      | .ok (some r, m') => (match m'.sm r with
        | some h => decide ((h.rows, h.cols, h.data_type) = (1, 1, 4) ∧ m'.blk h.data = some [0, 0, 0, 0] ∧ m'.blk 3 = some [0x00, 0x00, 0x40, 0x40])
        | none => false)
      | _ => false) = true := by decide +kernel
  split at key
  · rename_i r m' e
    split at key
    · rename_i h eh
      obtain ⟨k1, k2, k3⟩ := of_decide_eq_true key
      exact ⟨r, m', h, e, eh, k1, k2, k3⟩
    · cases key
  · cases key

end HyperCV
