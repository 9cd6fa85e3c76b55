/- C113: the wavelet decomposition. -/
import Verif.Model.Wavedec
import Verif.Props.Padding
import Verif.Props.Wavelet

namespace HyperCV
open Spec

/-- **C113**, the part that holds: without an image the program ends -/
theorem C113_null_partial (m : Mem) (level wave border : Int) : hypercv_wavedec none level wave border m = .error .exit := rfl

/-- the memory after the decomposition: a copy of the image and two blocks that nobody can reach -/
theorem wavedec_effects_run {m : Mem} (hm : m.WF) {p R C ch E : Nat} {dt : Int} {px : Nat → Nat → Nat → Nat → UInt8}
    (h : IsImage m p R C dt ch E px) (hN : R * C * ch * E ≤ 2147483551) (level : Nat) (wave border : Int) :
    hypercv_wavedec_effects (some p) level wave border m
      = .ok ((), ((m.newImage R C dt ch E (imgBytes C ch E px)).grow 32 fun _ => 0).grow (level * 8) fun _ => 0) := by
  unfold hypercv_wavedec_effects
  rw [nonNull_some, bind_ok (copy_sm_ok hm h hN), bind_ok (calloc_run _ _), if_neg (by omega), bind_ok (calloc_run _ _),
    show ((level : Int) * 8).toNat = level * 8 by omega]
  rfl

/-- **C113 is false**, leak: for every image and every number of levels the function leaves a copy of the image and two blocks allocated that are
reachable from nothing that existed before, and gives no value: who uses the value has undefined behaviour.  Nothing else changes. -/
theorem C113_refuted_leak {m : Mem} (hm : m.WF) {p R C ch E : Nat} {dt : Int} {px : Nat → Nat → Nat → Nat → UInt8}
    (h : IsImage m p R C dt ch E px) (hN : R * C * ch * E ≤ 2147483551) (level : Nat) (wave border : Int) :
    hypercv_wavedec (some p) level wave border m = .error (.ub .uninit) ∧
    ∃ q a b m', hypercv_wavedec_effects (some p) level wave border m = .ok ((), m') ∧
      IsImage m' q R C dt ch E px ∧ FreshImg m m' q ∧ m.next ≤ a ∧ a ≠ b ∧ m.next ≤ b ∧ Bytes m' a 32 (fun _ => 0) ∧ Bytes m' b (level * 8) (fun _ => 0) ∧
      Frame m m' ∧ m'.WF := by
  have hrun := wavedec_effects_run hm h hN level wave border
  refine ⟨?_, ?_⟩
  · unfold hypercv_wavedec
    rw [bind_ok hrun]
    rfl
  set m1 := m.newImage R C dt ch E (imgBytes C ch E px) with hm1
  have w1 : m1.WF := newImage_WF hm
  have w2 : (m1.grow 32 fun _ => 0).WF := grow_WF w1 _ _
  have n1 : m1.next = m.next + 2 := rfl
  have f12 : Frame m1 (m1.grow 32 fun _ => 0) := fun x hx => ⟨grow_blk_ne _ _ _ (by omega), rfl, rfl⟩
  have f23 : Frame (m1.grow 32 fun _ => 0) ((m1.grow 32 fun _ => 0).grow (level * 8) fun _ => 0) :=
    fun x hx => ⟨grow_blk_ne _ _ _ (by omega), rfl, rfl⟩
  have i1 : IsImage m1 (m.next + 1) R C dt ch E px := newImage_isImage h.size h.posR h.posC h.posCh
  have i3 := img_frame w2 (img_frame w1 i1 f12) f23
  refine ⟨m.next + 1, m1.next, m1.next + 1, _, hrun, i3, ?_, by omega, by omega, by omega, ?_, ?_, ?_, grow_WF w2 _ _⟩
  · intro x hx
    rcases hx with rfl | ⟨hdr, e1, rfl⟩
    · omega
    · have : m1.sm (m.next + 1) = some hdr := e1
      rw [hm1, newImage_sm] at this
      obtain rfl := Option.some.inj this
      exact le_refl _
  · exact bytes_iff.2 (Holds.grow w2 (grow_holds m1 _ _))
  · exact bytes_iff.2 (grow_holds (m1.grow 32 fun _ => 0) _ _)
  · intro x hx
    obtain ⟨a1, a2, a3⟩ := newImage_frame m (R := R) (C := C) (dt := dt) (ch := ch) (E := E) (f := imgBytes C ch E px) x hx
    obtain ⟨b1, b2, b3⟩ := f12 x (by omega)
    obtain ⟨c1, c2, c3⟩ := f23 x (by show x < m1.next + 1; omega)
    exact ⟨c1.trans (b1.trans a1), c2.trans (b2.trans a2), c3.trans (b3.trans a3)⟩

/-- **C113 is false**, one level: the function for one level extends byte images, forgets the extended image and the structure, and gives no value -/
theorem C113_refuted_level {m : Mem} (hm : m.WF) {p R C ch : Nat} {px : Nat → Nat → Nat → UInt8} (h : IsImage8 m p R C ch px) (b : Border) (wb : WaveletBase)
    {n : Nat} (hl : wb.len = n + 1) (hn : n < 2147483647) (hN : (R + n + n) * (C + n + n) * ch ≤ 2147483551) :
    sub_wavedec (some p) (some wb) b.code m = .error (.ub .uninit) ∧
    ∃ q m', sub_wavedec_effects (some p) (some wb) b.code m = .ok ((), m') ∧ Bytes m' m.next 32 (fun _ => 0) ∧
      IsImage8 m' q (R + n + n) (C + n + n) ch (fun i j c => b.pixel R C 0 px ((i:Int) - n) ((j:Int) - n) c) ∧ FreshImg m m' q ∧ Frame m m' := by
  have w1 : (m.grow 32 fun _ => 0).WF := grow_WF hm _ _
  have f1 : Frame m (m.grow 32 fun _ => 0) := fun x hx => ⟨grow_blk_ne _ _ _ (by omega), rfl, rfl⟩
  have i1 : IsImage8 (m.grow 32 fun _ => 0) p R C ch px := img_frame hm h f1
  obtain ⟨q, m', c1, c2, c3, c4, c5⟩ := C22_pad_partial w1 (top := n) (bottom := n) (left := n) (right := n) b 0 i1 hN
  have el : (CI.lit wb.len - 1 : CI) = CI.lit (n : Int) := by
    rw [hl, show (1 : CI) = CI.lit 1 from rfl, CI.sub_ok (by constructor <;> omega)]
    congr 1; omega
  have hrun : sub_wavedec_effects (some p) (some wb) b.code m = .ok ((), m') := by
    unfold sub_wavedec_effects
    rw [bind_ok (calloc_run _ _)]
    dsimp only
    rw [ev_bind el, bind_ok c1]
    rfl
  refine ⟨?_, q, m', hrun, ?_, c2, ?_, ?_⟩
  · unfold sub_wavedec
    rw [bind_ok hrun]
    rfl
  · have := (c4 m.next (by show m.next < m.next + 1; omega)).1
    rw [bytes_iff]
    unfold Holds
    rw [this]
    exact grow_holds m _ _
  · intro x hx
    have := c3 x hx
    have e : (m.grow 32 fun _ => 0).next = m.next + 1 := rfl
    omega
  · intro x hx
    obtain ⟨a1, a2, a3⟩ := f1 x hx
    obtain ⟨b1, b2, b3⟩ := c4 x (by show x < m.next + 1; omega)
    exact ⟨b1.trans a1, b2.trans a2, b3.trans a3⟩

/-- **C113 is false**, signals: the transform of a signal stores nothing -/
theorem C113_refuted_signal (m : Mem) (signal res : Option Nat) (length : Int) : hypercv_dwt1D_float signal res length m = .ok ((), m) := rfl

/-- the hypotheses of the theorems about C113 are met by an image of 4 x 5 pixels and the filters of length 6 -/
example : ∃ m p, m.WF ∧ IsImage8 m p 4 5 1 (fun _ _ _ => 7) ∧ 4 * 5 * 1 * 1 ≤ 2147483551 ∧ (4 + 5 + 5) * (5 + 5 + 5) * 1 ≤ 2147483551 ∧
    ∃ wb m', set_wavelet_base 1 m = .ok (wb, m') ∧ wb.len = (5 : Nat) + 1 :=
  ⟨_, _, newImage_WF empty_WF, newImage_isImage (m := Mem.empty) rfl (by decide) (by decide) (by decide), by decide, by decide, _, _, set_run_known _ 1 (Or.inl rfl), rfl⟩

end HyperCV
