/- Otsu thresholding: C25 (no image is handled) and C98 (the threshold found by the search itself). -/
import Verif.Proof.Otsu
import Verif.Props.Image
import Verif.Props.Spectral

namespace HyperCV
open Spec Finset

/-! ### C25 (refuted) -/

theorem otsuHist_oob {m : Mem} {R C sd : Nat} {si : Bool} {f : Nat → UInt8} (hN : 3 * (R * C) ≤ 2147483647) (hR : 0 < R) (hC : 0 < C)
    (a6 : Holds m sd (R * C * 1) f) : otsuHist ⟨R, C, 1, 1, 1, sd, si⟩ m = .error (.ub .oob) := by
  have hRC1 : C ≤ R * C := Nat.le_mul_of_pos_left _ hR
  unfold otsuHist
  have e0 : (CI.lit (C:Int) * CI.lit 1 : CI) = CI.lit (C : Int) := by
    rw [CI.mul_ok (by constructor <;> omega), Int.mul_one]
  show (ev (CI.lit (C:Int) * CI.lit 1) >>= _) m = _
  rw [ev_bind e0]
  have hij : ∀ i j, i < R → j < C → i * C + j * 3 + 2 < 2147483648 := by
    intro i j hi hj
    have h1 : i * C + C ≤ R * C := by
      have := Nat.mul_le_mul_right C (show i + 1 ≤ R by omega)
      rwa [Nat.succ_mul] at this
    omega
  have ea : ∀ i j, i < R → j < C → (CI.lit (i:Int) * CI.lit (C:Int) + CI.lit (j:Int) * CI.lit 3 : CI)
      = CI.lit ((i * C + j * 3 : Nat) : Int) := by
    intro i j hi hj
    have h : i * C + j * 3 < 2147483648 := by have := hij i j hi hj; omega
    have e3 : (CI.lit 3 : CI) = CI.lit ((3 : Nat) : Int) := rfl
    rw [e3]
    ci_down
  have hpix : ∀ i j, i < R → j < C → ∀ h : Nat → FV,
      ((∃ h', (do
        let a ← ev (CI.lit (i:Int) * CI.lit (C:Int) + CI.lit (j:Int) * CI.lit 3)
        let b ← load sd a
        let a ← ev (CI.lit (i:Int) * CI.lit (C:Int) + CI.lit (j:Int) * CI.lit 3 + CI.lit 1)
        let g ← load sd a
        let a ← ev (CI.lit (i:Int) * CI.lit (C:Int) + CI.lit (j:Int) * CI.lit 3 + CI.lit 2)
        let r ← load sd a
        let k ← otsuIndex (otsuClamp (otsuLuma (ival b) (ival g) (ival r)))
        pure fun x => if x = k then f64.add (h x) (f64.ofInt 1) else h x : M (Nat → FV)) m = .ok (h', m)) ∧ i * C + j * 3 + 2 < R * C * 1) ∨
      ((do
        let a ← ev (CI.lit (i:Int) * CI.lit (C:Int) + CI.lit (j:Int) * CI.lit 3)
        let b ← load sd a
        let a ← ev (CI.lit (i:Int) * CI.lit (C:Int) + CI.lit (j:Int) * CI.lit 3 + CI.lit 1)
        let g ← load sd a
        let a ← ev (CI.lit (i:Int) * CI.lit (C:Int) + CI.lit (j:Int) * CI.lit 3 + CI.lit 2)
        let r ← load sd a
        let k ← otsuIndex (otsuClamp (otsuLuma (ival b) (ival g) (ival r)))
        pure fun x => if x = k then f64.add (h x) (f64.ofInt 1) else h x : M (Nat → FV)) m = .error (.ub .oob) ∧ R * C * 1 ≤ i * C + j * 3 + 2) := by
    intro i j hi hj h
    have hb := hij i j hi hj
    rw [ea i j hi hj, CI.add_ok (by constructor <;> omega), CI.add_ok (by constructor <;> omega)]
    rw [ev_bind rfl]
    rcases load_or (i := i * C + j * 3) a6 with ⟨l1, l2⟩ | ⟨l1, l2⟩
    · rw [bind_ok l1, ev_bind rfl]
      have c1 : (((i * C + j * 3 : Nat) : Int) + 1) = ((i * C + j * 3 + 1 : Nat) : Int) := by omega
      have c2 : (((i * C + j * 3 : Nat) : Int) + 2) = ((i * C + j * 3 + 2 : Nat) : Int) := by omega
      rw [c1, c2]
      rcases load_or (i := i * C + j * 3 + 1) a6 with ⟨k1, k2⟩ | ⟨k1, k2⟩
      · rw [bind_ok k1, ev_bind rfl]
        rcases load_or (i := i * C + j * 3 + 2) a6 with ⟨n1, n2⟩ | ⟨n1, n2⟩
        · rw [bind_ok n1]
          refine Or.inl ⟨⟨fun x => if x = otsuLevel (f (i * C + j * 3)).toNat (f (i * C + j * 3 + 1)).toNat (f (i * C + j * 3 + 2)).toNat
            then f64.add (h x) (f64.ofInt 1) else h x, ?_⟩, n2⟩
          have q1 := (level_spec (b := (f (i * C + j * 3)).toNat) (g := (f (i * C + j * 3 + 1)).toNat) (r := (f (i * C + j * 3 + 2)).toNat)
            (by have := UInt8.toNat_lt (f (i * C + j * 3)); omega) (by have := UInt8.toNat_lt (f (i * C + j * 3 + 1)); omega)
            (by have := UInt8.toNat_lt (f (i * C + j * 3 + 2)); omega)).1
          show (otsuIndex (otsuClamp (otsuLuma ((f (i * C + j * 3)).toNat : Int) ((f (i * C + j * 3 + 1)).toNat : Int)
            ((f (i * C + j * 3 + 2)).toNat : Int))) >>= _) m = _
          rw [q1]
          rfl
        · rw [bind_err n1]; exact Or.inr ⟨rfl, n2⟩
      · rw [bind_err k1]; exact Or.inr ⟨rfl, by omega⟩
    · rw [bind_err l1]; exact Or.inr ⟨rfl, by omega⟩
  refine forA_fails_const (fun i hi h => forA_outcome_const (fun j hj h => ?_) h) (show R - 1 < R by omega) (fun h => ?_) _
  · rcases hpix i j hi hj h with h | h
    · exact Or.inr h.1
    · exact Or.inl h.1
  refine forA_fails_const (fun j hj h => ?_) (show C - 1 < C by omega) (fun h => ?_) h
  · rcases hpix (R - 1) j (by omega) hj h with h | h
    · exact Or.inr h.1
    · exact Or.inl h.1
  · rcases hpix (R - 1) (C - 1) (by omega) (by omega) h with h | h
    · exfalso
      have h2 := h.2
      have : (R - 1) * C + C = R * C := by
        have : (R - 1 + 1) * C = R * C := by rw [Nat.sub_add_cancel hR]
        rw [← this]; ring
      omega
    · exact h.1

/-- **C25 refuted**, for every image: Otsu thresholding accepts only one-channel byte images, and on every
one of them (of any size that fits in `int`) it reads outside the image. -/
theorem C25_otsu_out_of_bounds {m : Mem} {sp dp R C : Nat} {px px' : Nat → Nat → Nat → UInt8}
    (thresh max : Int) (hs : IsImage8 m sp R C 1 px) (hd : IsImage8 m dp R C 1 px')
    (hN : 3 * (R * C) ≤ 2147483647) :
    hypercv_threshold (some sp) (some dp) thresh max 8 m = .error (.ub .oob) := by
  obtain ⟨sd, si, a1, a6⟩ := img8_lit hs
  obtain ⟨dd, di, b1, b6⟩ := img8_lit hd
  unfold hypercv_threshold
  rw [nonNull_some, nonNull_some]
  simp only [decide_true, Int.reduceEq, or_true, true_or, cassert_bind_true, if_false, if_true]
  unfold hypercv_threshold_otsu
  rw [nonNull_some, nonNull_some, bind_ok (getS_ok a1), bind_ok (getS_ok b1)]
  simp only [and_self, decide_true, cassert_bind_true, Int.natCast_one]
  apply bind_err
  unfold otsuThreshold
  show (getS sp >>= _) m = _
  rw [bind_ok (getS_ok a1)]
  have e := ci_cols_rows hs.posR hN
  show (ev (CI.lit (C:Int) * CI.lit (R:Int)) >>= _) m = _
  rw [ev_bind e]
  exact bind_err (otsuHist_oob hN hs.posR hs.posC a6)

/-- images with another number of channels are refused, so no image is handled -/
theorem C25_otsu_refused {m : Mem} {sp dp R C ch : Nat} {px px' : Nat → Nat → Nat → UInt8}
    (thresh max : Int) (hs : IsImage8 m sp R C ch px) (hd : IsImage8 m dp R C ch px') (hch : ch ≠ 1) :
    hypercv_threshold (some sp) (some dp) thresh max 8 m = .error .exit := by
  obtain ⟨sd, si, a1, -⟩ := img8_lit hs
  obtain ⟨dd, di, b1, -⟩ := img8_lit hd
  unfold hypercv_threshold
  rw [nonNull_some, nonNull_some]
  simp only [decide_true, Int.reduceEq, or_true, true_or, cassert_bind_true, if_false, if_true]
  unfold hypercv_threshold_otsu
  rw [nonNull_some, nonNull_some, bind_ok (getS_ok a1), bind_ok (getS_ok b1)]
  simp only [and_self, decide_true, cassert_bind_true]
  have : decide ((ch : Int) = 1) = false := by simp only [decide_eq_false_iff_not]; omega
  rw [this]; rfl

example : IsImage8 (demoImgs 1) 1 2 3 1 (fun i j c => demoPx i j c 0) ∧
    IsImage8 (demoImgs 1) 3 2 3 1 (fun _ _ _ => 9) ∧ 3 * (2 * 3) ≤ 2147483647 :=
  ⟨demoImgs_src (by decide), demoImgs_dst (by decide), by decide⟩

/-! ### C98 -/

/-- **C98**: the search for the threshold of a three-channel byte image changes nothing, and the threshold it returns separates the pixels into
two classes whose variance between the classes is the largest possible, up to `2^-29`.  The levels are the whole parts of the luminances, except
that some luminances that are whole numbers count as one less (see `C98_refuted`); the level depends on the colour only.  When all pixels have one
level, the threshold is 0.  Missing: the exact levels, and the exact largest variance. -/
theorem C98_otsu_partial : ∃ level : Nat → Nat → Nat → Nat,
    (∀ b g r, b < 256 → g < 256 → r < 256 → level b g r = luma1000 b g r / 1000 ∨
      (luma1000 b g r % 1000 = 0 ∧ level b g r + 1 = luma1000 b g r / 1000)) ∧
    ∀ (m : Mem) (p R C : Nat) (px : Nat → Nat → Nat → UInt8), IsImage8 m p R C 3 px → 3 * (R * C) ≤ 2147483647 →
      ∃ t : Nat, otsuThreshold (some p) m = .ok ((t:Int), m) ∧
        let n := pixelsAt R C (fun i j => level (px i j 0).toNat (px i j 1).toNat (px i j 2).toNat)
        ((∀ s, s < 256 → ¬ Separates n s) → t = 0) ∧
        ((∃ s, s < 256 ∧ Separates n s) →
          t < 256 ∧ Separates n t ∧ ∀ s, s < 256 → Separates n s → between n (R * C) s ≤ between n (R * C) t + 1 / 2 ^ 29) := by
  refine ⟨otsuLevel, fun b g r hb hg hr => ?_, fun m p R C px h hN => ?_⟩
  · rcases (level_spec (b := b) (g := g) (r := r) (by omega) (by omega) (by omega)).2.2 with e | e
    · exact Or.inl e
    · exact Or.inr ⟨e.2, e.1⟩
  · obtain ⟨t, h1, h2⟩ := otsuThreshold_run h hN
    refine ⟨t, h1, ?_⟩
    rcases h2 with ⟨h3, h4⟩ | ⟨h3, h4, h5⟩
    · refine ⟨fun _ => h3, fun ⟨s, hs, hS⟩ => absurd hS (h4 s hs)⟩
    · exact ⟨fun h => absurd h4 (h t h3), fun _ => ⟨h3, h4, h5⟩⟩

theorem otsuLevel_22 : otsuLevel 22 22 22 = 22 := by decide +kernel

theorem otsuLevel_23 : otsuLevel 23 23 23 = 22 := by decide +kernel

/-- **C98 refuted** for the exact levels: whatever the arrangement of the pixels, an image of the greys 22 and 23 gets the threshold 0, which leaves
all pixels in one class, although 22 separates them. -/
theorem C98_refuted {m : Mem} {p R C : Nat} {px : Nat → Nat → Nat → UInt8} (h : IsImage8 m p R C 3 px) (hN : 3 * (R * C) ≤ 2147483647)
    (hg : ∀ i j c, i < R → j < C → c < 3 → px i j c = px i j 0 ∧ (px i j 0 = 22 ∨ px i j 0 = 23)) (i₀ j₀ i₁ j₁ : Nat) (hi₀ : i₀ < R) (hj₀ : j₀ < C) (hi₁ : i₁ < R) (hj₁ : j₁ < C)
    (h22 : px i₀ j₀ 0 = 22) (h23 : px i₁ j₁ 0 = 23) :
    otsuThreshold (some p) m = .ok (0, m) ∧
      let n := pixelsAt R C (fun i j => luma1000 (px i j 0).toNat (px i j 1).toNat (px i j 2).toNat / 1000)
      Separates n 22 ∧ ¬ Separates n 0 := by
  have hpos : ∀ (lev : Nat → Nat → Nat) i j x, i < R → j < C → lev i j = x → 0 < pixelsAt R C lev x := by
    intro lev i j x hi hj hx
    unfold pixelsAt
    refine lt_of_lt_of_le ?_ (single_le_sum (f := fun i => ∑ j ∈ range C, if lev i j = x then 1 else 0) (fun _ _ => Nat.zero_le _) (mem_range.2 hi))
    refine lt_of_lt_of_le ?_ (single_le_sum (f := fun j => if lev i j = x then 1 else 0) (fun _ _ => Nat.zero_le _) (mem_range.2 hj))
    rw [if_pos hx]
    decide
  have hzero : ∀ (lev : Nat → Nat → Nat) x, (∀ i j, i < R → j < C → lev i j ≠ x) → pixelsAt R C lev x = 0 := by
    intro lev x hx
    unfold pixelsAt
    exact sum_eq_zero fun i hi => sum_eq_zero fun j hj => if_neg (hx i j (mem_range.1 hi) (mem_range.1 hj))
  refine ⟨?_, ?_, ?_⟩
  · obtain ⟨t, h1, h2⟩ := otsuThreshold_run h hN
    have lev : ∀ i j, i < R → j < C → otsuLevels px i j = 22 := by
      intro i j hi hj
      obtain ⟨c1, c2⟩ := hg i j 1 hi hj (by decide)
      obtain ⟨d1, -⟩ := hg i j 2 hi hj (by decide)
      unfold otsuLevels
      rw [c1, d1]
      rcases c2 with e | e <;> rw [e]
      · exact otsuLevel_22
      · exact otsuLevel_23
    have z : ∀ x, x ≠ 22 → pixelsAt R C (otsuLevels px) x = 0 := fun x hx => hzero _ _ fun i j hi hj => by rw [lev i j hi hj]; exact fun h => hx h.symm
    rcases h2 with ⟨rfl, -⟩ | ⟨h3, h4, -⟩
    · exact h1
    · exfalso
      obtain ⟨s1, s2⟩ := h4
      by_cases ht : t < 22
      · have : below (pixelsAt R C (otsuLevels px)) t = 0 := sum_eq_zero fun x hx => z x (by have := mem_range.1 hx; omega)
        omega
      · have : above (pixelsAt R C (otsuLevels px)) t = 0 := sum_eq_zero fun x hx => z x (by have := mem_Ico.1 hx; omega)
        omega
  · constructor
    · refine lt_of_lt_of_le (hpos _ i₀ j₀ 22 hi₀ hj₀ ?_) (single_le_sum (f := fun x => pixelsAt R C _ x) (fun _ _ => Nat.zero_le _) (mem_range.2 (by decide)))
      rw [(hg i₀ j₀ 1 hi₀ hj₀ (by decide)).1, (hg i₀ j₀ 2 hi₀ hj₀ (by decide)).1, h22]
      decide
    · refine lt_of_lt_of_le (hpos _ i₁ j₁ 23 hi₁ hj₁ ?_) (single_le_sum (f := fun x => pixelsAt R C _ x) (fun _ _ => Nat.zero_le _) (mem_Ico.2 (by decide)))
      rw [(hg i₁ j₁ 1 hi₁ hj₁ (by decide)).1, (hg i₁ j₁ 2 hi₁ hj₁ (by decide)).1, h23]
      decide
  · intro hS
    have : below (pixelsAt R C (fun i j => luma1000 (px i j 0).toNat (px i j 1).toNat (px i j 2).toNat / 1000)) 0 = 0 := by
      refine sum_eq_zero fun x hx => hzero _ _ fun i j hi hj => ?_
      have hx0 : x = 0 := by have := mem_range.1 hx; omega
      obtain ⟨c1, c2⟩ := hg i j 1 hi hj (by decide)
      obtain ⟨d1, -⟩ := hg i j 2 hi hj (by decide)
      rw [c1, d1, hx0]
      rcases c2 with e | e <;> rw [e] <;> decide
    have := hS.1
    omega

example : IsImage8 (demoImgs 3) 1 2 3 3 (fun i j c => demoPx i j c 0) ∧ 3 * (2 * 3) ≤ 2147483647 := ⟨demoImgs_src (by decide), by decide⟩

/-- an image of the greys 22 and 23 -/
example : ∃ m, IsImage8 m 1 2 3 3 (fun i _ _ => if i = 0 then 22 else 23) ∧ 3 * (2 * 3) ≤ 2147483647 :=
  ⟨Mem.empty.newImage 2 3 1 3 1 (imgBytes 3 3 1 (fun i _ _ _ => if i = 0 then 22 else 23)),
    newImage_isImage (m := Mem.empty) rfl (by decide) (by decide) (by decide), by decide⟩

end HyperCV
