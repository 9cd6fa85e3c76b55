/- C105: resizing of images.  C106: the Hough transform. -/
import Verif.Model.Stubs
import Verif.Props.Image
import Verif.Spec.Image

namespace HyperCV
open Spec

section
variable {m : Mem} {p q R C R' C' ch ch' E E' : Nat} {dt dt' : Int} {px px' : Nat → Nat → Nat → Nat → UInt8}

/-- **C105 (partial)**: images of different types are refused -/
theorem C105_refused_partial (hs : IsImage m p R C dt ch E px) (hd : IsImage m q R' C' dt' ch' E' px') (ht : dt ≠ dt') (flag : Int) :
    simple_mat_resize (some p) (some q) flag m = .error .exit := by
  obtain ⟨d, inl, h1, _⟩ := img_lit hs
  obtain ⟨d', inl', h2, _⟩ := img_lit hd
  unfold simple_mat_resize
  have g1 : derefS (some p) m = .ok (_, m) := getS_ok h1
  have g2 : derefS (some q) m = .ok (_, m) := getS_ok h2
  rw [bind_ok g1, bind_ok g2, cassert_bind (by simp)]
  have : decide (dt = dt') = false := decide_eq_false ht
  dsimp only
  rw [this]
  rfl

/-- **C105 is false**: for every pair of images of the same type the function returns normally and the destination is what it was before -/
theorem C105_resize_refuted (hs : IsImage m p R C dt ch E px) (hd : IsImage m q R' C' dt ch' E' px') (flag : Int) :
    simple_mat_resize (some p) (some q) flag m = .ok ((), m) := by
  obtain ⟨d, inl, h1, _⟩ := img_lit hs
  obtain ⟨d', inl', h2, _⟩ := img_lit hd
  unfold simple_mat_resize
  have g1 : derefS (some p) m = .ok (_, m) := getS_ok h1
  have g2 : derefS (some q) m = .ok (_, m) := getS_ok h2
  rw [bind_ok g1, bind_ok g2, cassert_bind (by simp)]
  have : decide (dt = dt) = true := decide_eq_true rfl
  dsimp only
  rw [this]
  rfl

/-- **C105 is false**: null pointers are not refused, they are followed -/
theorem C105_null_refuted (hs : IsImage m p R C dt ch E px) (q : Option Nat) (flag : Int) :
    simple_mat_resize none q flag m = .error (.ub .nullDeref) ∧ simple_mat_resize (some p) none flag m = .error (.ub .nullDeref) := by
  obtain ⟨d, inl, h1, _⟩ := img_lit hs
  have g1 : derefS (some p) m = .ok (_, m) := getS_ok h1
  refine ⟨rfl, ?_⟩
  unfold simple_mat_resize
  rw [bind_ok g1]
  rfl

end

/-- **C106 is false**: for every set of points the transform returns without having stored a line -/
theorem C106_line_refuted (m : Mem) (points lineR lineTheta : Option Nat) (n RMax : Int) (h0 : -5948709 ≤ RMax) (h1 : RMax ≤ 5948707) :
    hypercv_hough_trans points n RMax lineR lineTheta m = .ok ((), m) := by
  unfold hypercv_hough_trans
  have : ((360 + 1) * (CI.lit RMax + 1) : CI) = CI.lit (361 * (RMax + 1)) := by
    rw [show (360 + 1 : CI) = CI.lit 361 from rfl, show (1 : CI) = CI.lit 1 from rfl, CI.add_ok (by unfold CI.InR; omega), CI.mul_ok (by unfold CI.InR; omega)]
  rw [this]
  rfl

/-- **C106 is false**: for larger distances the length of the accumulator overflows -/
theorem C106_overflow_refuted (m : Mem) (points lineR lineTheta : Option Nat) (n RMax : Int) (h0 : 5948708 ≤ RMax) (h1 : RMax ≤ 2147483647) :
    hypercv_hough_trans points n RMax lineR lineTheta m = .error (.ub .overflow) := by
  unfold hypercv_hough_trans
  have : ((360 + 1) * (CI.lit RMax + 1) : CI) = CI.err (.ub .overflow) := by
    rw [show (360 + 1 : CI) = CI.lit 361 from rfl, show (1 : CI) = CI.lit 1 from rfl]
    by_cases h : RMax = 2147483647
    · subst h; rfl
    · rw [CI.add_ok (by unfold CI.InR; omega), CI.mul_bad (by unfold CI.InR; omega)]
  rw [this]
  rfl

/-- two images of different sizes and the same type: 1 in every byte of the first, 0 in the second -/
example : ∃ m, IsImage m 1 2 3 1 1 1 (fun _ _ _ _ => 1) ∧ IsImage m 3 4 5 1 1 1 (fun _ _ _ _ => 0) := by
  let m1 := Mem.empty.newImage 2 3 1 1 1 (imgBytes 3 1 1 fun _ _ _ _ => 1)
  have w1 : m1.WF := newImage_WF empty_WF
  refine ⟨m1.newImage 4 5 1 1 1 (imgBytes 5 1 1 fun _ _ _ _ => 0), ?_, newImage_isImage (m := m1) rfl (by decide) (by decide) (by decide)⟩
  exact img_frame w1 (newImage_isImage (m := Mem.empty) rfl (by decide) (by decide) (by decide)) (newImage_frame m1)

end HyperCV
