import Verif.Proof.Convert
import Verif.Proof.Cluster
import Verif.Proof.Pyramid
import Verif.Model.Rotate

namespace HyperCV
open Spec

variable {cos sin : FV → FV} {m : Mem} {p S L B E : Nat} {dt : Int} {a : Layout} {v : Nat → Nat → Nat → Nat → UInt8} {w : Nat → UInt8}

/-- the conversion to `bip` and the creation of the destination, given the outcome of the floating point computations -/
theorem rot_front {angle : FV} {W H : Nat} {di dj : Int} (hm : m.WF) (hc : IsCube m p a S L B dt E v w) (hN : S * L * B * E ≤ 2147483647)
    (hW : 4 * B ≤ 2147483647) (hS : S ≤ 2147483600) (hL : L ≤ 2147483600) {c s : FV} (hcos : cos (rotAngle angle) = c) (hsin : sin (rotAngle angle) = s)
    {w2 h2 : Nat} (hw2 : w2 = (S + 1) / 2) (hh2 : h2 = (L + 1) / 2)
    (e1 : FV.trunc (if FV.lt (extent (cornerSum (-w2) h2 c s) (cornerDiff w2 h2 c s)) (extent (cornerSum w2 h2 c s) (cornerDiff (-w2) h2 c s))
      then extent (cornerSum w2 h2 c s) (cornerDiff (-w2) h2 c s) else extent (cornerSum (-w2) h2 c s) (cornerDiff w2 h2 c s)) = some (W:Int))
    (e2 : FV.trunc (if FV.lt (extent (cornerSum h2 w2 c s) (cornerDiff (-h2) w2 c s)) (extent (cornerDiff h2 w2 c s) (cornerSum (-h2) w2 c s))
      then extent (cornerDiff h2 w2 c s) (cornerSum (-h2) w2 c s) else extent (cornerSum h2 w2 c s) (cornerDiff (-h2) w2 c s)) = some (H:Int))
    (e3 : FV.trunc (f32.add (cornerDiff (-w2) h2 c s) (f32.ofInt ((W:Int) / 2))) = some di)
    (e4 : FV.trunc (f32.add (cornerSum (-h2) w2 c s) (f32.ofInt ((H:Int) / 2))) = some dj)
    (pW : 0 < W) (pH : 0 < H) (hN2 : W * H * B * E ≤ 2147483647) :
    ∃ m1 hd f, IsCube m1 p .bip S L B dt E v w ∧ Unchanged m m1 (Owns m p) ∧ m1.WF ∧ m1.hm p = some hd ∧ hd.samples = S ∧ hd.lines = L ∧ hd.bands = B ∧
      hd.data_type = dt ∧ Holds m1 hd.data (S * L * B * E) f ∧
      (∀ i j k t, i < L → j < S → k < B → t < E → f (Layout.bip.pos S L B i j k * E + t) = v i j k t) ∧
      hyper_mat_rotate cos sin (some p) angle m =
        ((forI 0 (L:Int) fun i => forI 0 (S:Int) fun j => rotPixel hd (newHdr m1 W H B dt Layout.bip.tag) W di dj c s i j) >>= fun _ => pure (some (m1.next + 2)))
          (m1.newCube W H B dt (W * H * B * E) Layout.bip.tag (fun _ => 0) w) := by
  obtain ⟨h0, hp0⟩ := cube_hdr hc
  have key : ∃ m1, rotToBip (some p) h0 m = .ok ((), m1) ∧
      IsCube m1 p .bip S L B dt E v w ∧ Unchanged m m1 (Owns m p) ∧ m1.WF := by
    by_cases ha : a = .bip
    · refine ⟨m, ?_, ha ▸ hc, unchanged_refl _ _, hm⟩
      have := (cube_tag_test (b := .bip) hc hp0).2 ha
      unfold rotToBip
      exact congrFun (if_pos this) m
    · have := mt (cube_tag_test (b := .bip) hc hp0).1 ha
      have e : rotToBip (some p) h0 = convert2bip (some p) := if_neg this
      rw [e]
      exact convert2bip_run hm hc hN hW
  obtain ⟨m1, k1, k2, k3, k4⟩ := key
  obtain ⟨hd, wb, f, b1, b2, b3, b4, b5, b6, b7, b8, b9, b10, b11⟩ := k2.obj
  refine ⟨m1, hd, f, k2, k3, k4, b1, b2, b3, b4, b5, bytes_iff.1 b9, b11, ?_⟩
  have g1 : derefH (some p) m = .ok (_, m) := getH_ok hp0
  have g2 : derefH (some p) m1 = .ok (_, m1) := getH_ok b1
  have cr := create_with_data_ok (data := none) (wave := some wb) (f := fun _ => 0) (w := w) (S := W) (L := H) (B := B) (E := E) (dt := dt)
    (il := hd.tagMem) k4 pW pH k2.posB k2.size hN2 hW (by unfold HyperMat.tagMem; rw [b6]; simp [Layout.tag]) (by intro s hs; cases hs)
    (by intro s hs; cases hs; exact ⟨_, le_refl _, bytes_iff.1 b10⟩)
  have etag : (hd.tagMem ++ ['\x00']).take 3 = (Layout.bip.tag ++ ['\x00']).take 3 := by
    unfold HyperMat.tagMem; rw [b6]; rfl
  have eh : newHdr m1 W H B dt hd.tagMem = newHdr m1 W H B dt Layout.bip.tag := by
    unfold newHdr; rw [etag]
  have em : m1.newCube W H B dt (W * H * B * E) hd.tagMem (fun _ => 0) w = m1.newCube W H B dt (W * H * B * E) Layout.bip.tag (fun _ => 0) w := by
    unfold Mem.newCube; rw [eh]
  have cr' : create_hyper_mat_with_data (W:Int) (H:Int) (B:Int) dt hd.tagMem none (some wb) m1
      = .ok (some (m1.next + 2), m1.newCube W H B dt (W * H * B * E) Layout.bip.tag (fun _ => 0) w) := by rw [← em]; exact cr
  have g3 : derefH (some (m1.next + 2)) (m1.newCube W H B dt (W * H * B * E) Layout.bip.tag (fun _ => 0) w)
      = .ok (newHdr m1 W H B dt Layout.bip.tag, _) := getH_ok (newCube_hm m1 W H B dt _ _ _ _)
  have hl : ev ((CI.lit hd.lines + 1) / 2 : CI) m1 = .ok ((h2:Int), m1) := by
    rw [b3]; exact ev_ok (by rw [half_up hL, hh2]) _
  have hw : ev ((CI.lit hd.samples + 1) / 2 : CI) m1 = .ok ((w2:Int), m1) := by
    rw [b2]; exact ev_ok (by rw [half_up hS, hw2]) _
  unfold hyper_mat_rotate
  rw [bind_ok g1]
  rw [bind_ok k1, bind_ok g2, bind_ok hl, bind_ok hw]
  simp only [hcos, hsin, wider]
  rw [bind_ok (truncInt_ok e1 _), bind_ok (truncInt_ok e2 _), b4, b5, b7, bind_ok cr', bind_ok (truncInt_ok e3 _), bind_ok (truncInt_ok e4 _),
    bind_ok g3, b3, b2]

/-! the floating point computations for the angle zero -/

theorem is_int64 {n : ℤ} (h : |n| ≤ 16777216) : (f64.ofInt n).Is n := is_ofInt (rep64_int (h.trans (by decide)))

/-- multiples of one and zero, added -/
theorem sum64 {x y : ℤ} {c s : FV} (hc : c.Is 1) (hs : s.Is 0) (hx : |x| ≤ 16777216) (hy : |y| ≤ 16777216) :
    (f64.add (f64.mul (f64.ofInt x) c) (f64.mul (f64.ofInt y) s)).Is x := by
  have m1 := is_mul (F := f64) (is_int64 hx) hc (by rw [mul_one]; exact rep64_int (hx.trans (by decide)))
  have m2 := is_mul (F := f64) (is_int64 hy) hs (by rw [mul_zero]; exact rep_zero _)
  rw [mul_one] at m1
  rw [mul_zero] at m2
  have := is_add m1 m2 (by rw [add_zero]; exact rep64_int (hx.trans (by decide)))
  rwa [add_zero] at this

theorem is_neg0 {b : FV} (h : b.Is 0) : b.neg.Is 0 := by
  obtain ⟨s, rfl⟩ := h
  exact ⟨!s, by simp [FV.neg]⟩

theorem diff64 {x y : ℤ} {c s : FV} (hc : c.Is 1) (hs : s.Is 0) (hx : |x| ≤ 16777216) (hy : |y| ≤ 16777216) :
    (f64.sub (f64.mul (f64.ofInt x) c) (f64.mul (f64.ofInt y) s)).Is x := by
  have m1 := is_mul (F := f64) (is_int64 hx) hc (by rw [mul_one]; exact rep64_int (hx.trans (by decide)))
  have m2 := is_mul (F := f64) (is_int64 hy) hs (by rw [mul_zero]; exact rep_zero _)
  rw [mul_one] at m1
  rw [mul_zero] at m2
  have := is_add m1 (is_neg0 m2) (by rw [add_zero]; exact rep64_int (hx.trans (by decide)))
  rwa [add_zero] at this

theorem cornerSum_zero {x y : ℤ} {c s : FV} (hc : c.Is 1) (hs : s.Is 0) (hx : |x| ≤ 16777216) (hy : |y| ≤ 16777216) : (cornerSum x y c s).Is x :=
  is_conv' (sum64 hc hs hx hy) (rep32_int hx)

theorem cornerDiff_zero {x y : ℤ} {c s : FV} (hc : c.Is 1) (hs : s.Is 0) (hx : |x| ≤ 16777216) (hy : |y| ≤ 16777216) : (cornerDiff x y c s).Is x :=
  is_conv' (diff64 hc hs hx hy) (rep32_int hx)

theorem extent_is {x y : ℤ} {u u' : FV} (hu : u.Is x) (hu' : u'.Is y) (h : |x - y| ≤ 16777216) : (extent u u').Is ((|x - y| : ℤ) : ℚ) := by
  have s1 : (f32.sub u u').Is (((x - y : ℤ)) : ℚ) := by
    obtain ⟨s', rfl⟩ := hu'
    have := is_add (F := f32) (b := FV.neg (.fin s' (y:ℚ))) hu ⟨_, rfl⟩ (y := -(y:ℚ)) (by
      rw [← sub_eq_add_neg, ← Int.cast_sub]; exact rep32_int h)
    rw [← sub_eq_add_neg, ← Int.cast_sub] at this
    exact this
  have s2 := is_conv' (F := f64) s1 (rep64_int (h.trans (by decide)))
  unfold extent
  obtain ⟨s, e⟩ := s2
  rw [e]
  refine is_conv' (F := f32) (x := ((|x - y| : ℤ) : ℚ)) ⟨false, ?_⟩ (rep32_int (by rwa [abs_abs]))
  show FV.fin false _ = _
  rw [Int.cast_abs]

theorem wider_is {x : ℤ} {u u' : FV} (hu : u.Is x) (hu' : u'.Is x) (h : |x| ≤ 16777216) :
    FV.trunc (if FV.lt u' u then u else u') = some x := by
  have hb := abs_le.1 h
  split
  · exact trunc_int hu ⟨by omega, by omega⟩
  · exact trunc_int hu' ⟨by omega, by omega⟩

end HyperCV
