/- C65: the contrast of any colour image. -/
import Verif.Props.AccuracyStat
import Verif.Props.Bmp

namespace HyperCV
open Spec Finset

variable {m : Mem} {p R C : Nat} {px : Nat → Nat → Nat → UInt8}

/-- the contrast of a colour image is the contrast of its grey version -/
theorem contrast_as_grey (hm : m.WF) (h : IsImage8 m p R C 3 px) (hN : R * C ≤ 1048576) :
    simple_mat_contrast_ratio (some p) m = simple_mat_contrast_ratio (some (m.next + 1))
      (m.newImage R C 1 1 1 (imgBytes C 1 1 (fun i j _ _ => uchar ((greyLevel 0 (px i j 0).toNat (px i j 1).toNat (px i j 2).toNat : Nat) : ℤ)))) := by
  obtain ⟨d, inl, h1, h2⟩ := img8_lit h
  have hrun := rgb2gray_run (method := 0) hm h (by omega)
  have hg : IsImage8 (m.newImage R C 1 1 1 (imgBytes C 1 1 (fun i j _ _ => uchar ((greyLevel 0 (px i j 0).toNat (px i j 1).toNat (px i j 2).toNat : Nat) : ℤ))))
      (m.next + 1) R C 1 (fun i j _ => uchar ((greyLevel 0 (px i j 0).toNat (px i j 1).toNat (px i j 2).toNat : Nat) : ℤ)) :=
    newImage_isImage rfl h.posR h.posC (by decide)
  obtain ⟨d', inl', k1, k2⟩ := img8_lit hg
  unfold simple_mat_contrast_ratio
  have g1 : derefS (some p) m = .ok (_, m) := getS_ok h1
  have g3 : derefS (some (m.next + 1)) _ = .ok (_, _) := getS_ok k1
  have g2 : greyOfMat (some p) ((3:Nat):Int) m = sm_rgb2gray (some p) 0 m := by
    unfold greyOfMat; rw [if_pos (by decide)]
  have g4 : ∀ m', greyOfMat (some (m.next + 1)) ((1:Nat):Int) m' = .ok (some (m.next + 1), m') := by
    intro m'
    unfold greyOfMat; rw [if_neg (by decide)]; rfl
  rw [cassert_bind (by simp), bind_ok g1, cassert_bind (by simp), bind_ok (g2.trans hrun)]
  rw [bind_ok g3]
  conv_rhs => rw [cassert_bind (by simp), bind_ok g3, cassert_bind (by simp), bind_ok (g4 _), bind_ok g3]

/-- **C65**, any colour image of two up to 2^20 pixels: the result is the mean squared difference of neighbouring pixels of the image of the rounded channel means, up to
a relative error of `(R*C+1) / 2^21` (and a tiny constant).  The grey image created for it stays allocated. -/
theorem C65_colour_error (hm : m.WF) (h : IsImage8 m p R C 3 px) (h1 : 1 < R * C) (hN : R * C ≤ 1048576) (g : Nat → Nat → Nat)
    (hg : ∀ i j, i < R → j < C → GreyOf 0 (px i j 0).toNat (px i j 1).toNat (px i j 2).toNat (g i j)) :
    ∃ v q m' p', simple_mat_contrast_ratio (some p) m = .ok (v, m') ∧ v.Is q ∧
      |q - contrastSum R C g / pairCount R C| ≤ (R * C + 1) / 2 ^ 21 * (contrastSum R C g / pairCount R C) + 10 / 2 ^ 150 ∧
      IsImage8 m' p R C 3 px ∧ m.sm p' = none ∧ IsImage8 m' p' R C 1 (fun i j _ => uchar (g i j)) := by
  have hgg : ∀ i j, i < R → j < C → greyLevel 0 (px i j 0).toNat (px i j 1).toNat (px i j 2).toNat = g i j ∧ g i j < 256 := by
    intro i j hi hj
    have a1 := hg i j hi hj
    have a2 := greyLevel_spec 0 (px i j 0).toNat (px i j 1).toNat (px i j 2).toNat
    have x0 := (px i j 0).toNat_lt
    have x1 := (px i j 1).toNat_lt
    have x2 := (px i j 2).toNat_lt
    unfold GreyOf at a1 a2
    rw [if_neg (by decide), if_neg (by decide)] at a1 a2
    omega
  have hgrey : IsImage8 (m.newImage R C 1 1 1 (imgBytes C 1 1 (fun i j _ _ => uchar ((greyLevel 0 (px i j 0).toNat (px i j 1).toNat (px i j 2).toNat : Nat) : ℤ))))
      (m.next + 1) R C 1 (fun i j _ => uchar (g i j)) := by
    refine img_congr (newImage_isImage rfl h.posR h.posC (by decide)) ?_
    intro i j c t hi hj _ _
    show uchar _ = uchar _
    rw [(hgg i j hi hj).1]
  obtain ⟨v, q, r1, r2, r3⟩ := C65_error hgrey h1 hN
  have e : contrastSum R C (fun i j => (uchar (g i j : ℤ)).toNat) = contrastSum R C g := by
    rw [contrastSum_eq, contrastSum_eq]
    congr 1
    refine contrastAt_congr fun i j hi hj => ?_
    have := (hgg i j hi hj).2
    unfold uchar
    rw [UInt8.toNat_ofNat']
    omega
  rw [e] at r3
  exact ⟨v, q, _, m.next + 1, (contrast_as_grey hm h hN).trans r1, r2, r3, img_frame hm h (newImage_frame _), (hm _ (by omega)).2.2, hgrey⟩

/-- the colour image of two rows and three columns of `demoImgs` meets the hypotheses -/
example : (demoImgs 3).WF ∧ IsImage8 (demoImgs 3) 1 2 3 3 (fun i j c => demoPx i j c 0) ∧
    ∀ i j, i < 2 → j < 3 → GreyOf 0 (demoPx i j 0 0).toNat (demoPx i j 1 0).toNat (demoPx i j 2 0).toNat
      (greyLevel 0 (demoPx i j 0 0).toNat (demoPx i j 1 0).toNat (demoPx i j 2 0).toNat) :=
  ⟨demoImgs_WF 3, demoImgs_src (by decide), fun _ _ _ _ => greyLevel_spec 0 _ _ _⟩

end HyperCV
