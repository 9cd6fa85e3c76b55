/- Padding. -/
import Verif.Model.Filter
import Verif.Props.Border
import Verif.Proof.Geometric

namespace HyperCV
open Spec

theorem borderM_ok {p len t x : Int} (h : border p len t = .ok x) (m : Mem) :
    borderM p len t m = .ok (x, m) := by
  unfold borderM; rw [h]

section
variable {m : Mem} {sp R C ch : Nat} {px : Nat → Nat → Nat → UInt8} {top bottom left right : Nat}

/-- pixel of the padded image -/
def padPx (e : Extension) (R C top left : Nat) (px : Nat → Nat → Nat → UInt8) (i j c : Nat) : UInt8 :=
  px (e.index ((i:Int) - top) R).toNat (e.index ((j:Int) - left) C).toNat c

theorem padSize (hR : 0 < R) (hC : 0 < C) (hch : 0 < ch)
    (hN : (R + top + bottom) * (C + left + right) * ch ≤ 2147483551) :
    R + top + bottom ≤ 2147483551 ∧ C + left + right ≤ 2147483551 ∧ ch ≤ 2147483551 ∧
    R * C * ch ≤ 2147483551 := by
  have h1 : R + top + bottom ≤ (R + top + bottom) * (C + left + right) * ch := by
    rw [Nat.mul_assoc]; exact Nat.le_mul_of_pos_right _ (Nat.mul_pos (by omega) hch)
  have h2 : C + left + right ≤ (R + top + bottom) * (C + left + right) * ch := by
    calc C + left + right ≤ (R + top + bottom) * (C + left + right) := Nat.le_mul_of_pos_left _ (by omega)
      _ ≤ _ := Nat.le_mul_of_pos_right _ hch
  have h3 : ch ≤ (R + top + bottom) * (C + left + right) * ch :=
    Nat.le_mul_of_pos_left _ (Nat.mul_pos (by omega) (by omega))
  have h4 : R * C * ch ≤ (R + top + bottom) * (C + left + right) * ch :=
    Nat.mul_le_mul_right _ (Nat.mul_le_mul (by omega) (by omega))
  omega

theorem copyBorder_run {m : Mem} {sd dd : Nat} {si di : Bool} {f g : Nat → UInt8} (e : Extension)
    (hR : 0 < R) (hC : 0 < C) (hch : 0 < ch)
    (hN : (R + top + bottom) * (C + left + right) * ch ≤ 2147483551)
    (hs : Holds m sd (R * C * ch) f) (hd : Holds m dd ((R + top + bottom) * (C + left + right) * ch) g)
    (hne : sd ≠ dd) (hf : ∀ i j c, i < R → j < C → c < ch → f ((i * C + j) * ch + c) = px i j c) :
    copyBorderLoop ⟨R, C, 1, ch, 1, sd, si⟩ ⟨(R + top + bottom : Nat), (C + left + right : Nat), 1, ch, 1, dd, di⟩
      top left e.code m = .ok ((), m.put dd ((R + top + bottom) * (C + left + right) * ch)
        (imgBytes (C + left + right) ch 1 (fun i j c _ => padPx e R C top left px i j c))) := by
  obtain ⟨b1, b2, b3, b4⟩ := padSize hR hC hch hN
  have key : Fills (copyBorderLoop ⟨R, C, 1, ch, 1, sd, si⟩
      ⟨(R + top + bottom : Nat), (C + left + right : Nat), 1, ch, 1, dd, di⟩ top left e.code) m dd
      ((R + top + bottom) * (C + left + right) * ch)
      (imgBytes (C + left + right) ch 1 (fun i j c _ => padPx e R C top left px i j c))
      (fun p => ∃ i, i < R + top + bottom ∧ ∃ j, j < C + left + right ∧ ∃ c, c < ch ∧
        p = (i * (C + left + right) + j) * ch + c) := by
    unfold copyBorderLoop
    simp only []
    refine nest2 (P := fun i j p => ∃ c, c < ch ∧ p = (i * (C + left + right) + j) * ch + c) ?_
    intro i j hi hj
    have e1 : (CI.lit (j:Int) - CI.lit (left:Int) : CI) = CI.lit ((j:Int) - left) :=
      CI.sub_ok (by constructor <;> omega)
    have e2 : (CI.lit (i:Int) - CI.lit (top:Int) : CI) = CI.lit ((i:Int) - top) :=
      CI.sub_ok (by constructor <;> omega)
    obtain ⟨g1, g2, g3⟩ := C21_border e (p := (j:Int) - left) (len := C) (by omega) (by omega) (by omega)
      (fun _ => by omega)
    obtain ⟨k1, k2, k3⟩ := C21_border e (p := (i:Int) - top) (len := R) (by omega) (by omega) (by omega)
      (fun _ => by omega)
    refine Fills.bind (fun g => ev_ok e1 _) ?_
    refine Fills.bind (fun g => borderM_ok g1 _) ?_
    refine Fills.bind (fun g => ev_ok e2 _) ?_
    refine Fills.bind (fun g => borderM_ok k1 _) ?_
    apply Fills.loop
    intro c hc
    have hI : (e.index ((i:Int) - top) R).toNat < R := by omega
    have hJ : (e.index ((j:Int) - left) C).toNat < C := by omega
    have e3 := eval_img (R := R) (C := C) (ch := ch) hI hJ hc (by omega)
    rw [Int.toNat_of_nonneg k2, Int.toNat_of_nonneg g2] at e3
    have e4 := eval_img (R := R + top + bottom) (C := C + left + right) (ch := ch) hi hj hc (by omega)
    refine Fills.bind (fun g => ev_ok e3 _) ?_
    refine Fills.bind (fun g => load_ok (hs.put_ne hne) (img8_lt hI hJ hc)) ?_
    refine Fills.bind (fun g => ev_ok e4 _) ?_
    refine Fills.store (img8_lt hi hj hc) ?_
    rw [imgBytes_at8 hj hc, hf _ _ _ hI hJ hc]
    rfl
  refine key.total ?_ hd
  intro p hp
  obtain ⟨i, j, c, hi, hj, hc, e⟩ := img8_cover hp
  exact ⟨i, hi, j, hj, c, hc, e⟩

/-- pixel of the image padded with a constant -/
def padConst (R C top left : Nat) (value : UInt8) (px : Nat → Nat → Nat → UInt8) (i j c : Nat) : UInt8 :=
  if top ≤ i ∧ i < top + R ∧ left ≤ j ∧ j < left + C then px (i - top) (j - left) c else value

theorem constBorder_run {m : Mem} {sp dp sd dd : Nat} {si di : Bool} {f g : Nat → UInt8} {value : UInt8}
    (hR : 0 < R) (hC : 0 < C) (hch : 0 < ch)
    (hN : (R + top + bottom) * (C + left + right) * ch ≤ 2147483551)
    (h1 : m.sm sp = some ⟨R, C, 1, ch, 1, sd, si⟩)
    (h2 : m.sm dp = some ⟨(R + top + bottom : Nat), (C + left + right : Nat), 1, ch, 1, dd, di⟩)
    (hs : Holds m sd (R * C * ch) f) (hd : Holds m dd ((R + top + bottom) * (C + left + right) * ch) g)
    (hne : sd ≠ dd) (hf : ∀ i j c, i < R → j < C → c < ch → f ((i * C + j) * ch + c) = px i j c) :
    hypercv_make_const_border (some sp) (some dp) top left value m
      = .ok ((), m.put dd ((R + top + bottom) * (C + left + right) * ch)
        (imgBytes (C + left + right) ch 1 (fun i j c _ => padConst R C top left value px i j c))) := by
  obtain ⟨b1, b2, b3, b4⟩ := padSize hR hC hch hN
  unfold hypercv_make_const_border
  rw [nonNull_some, bind_ok (getS_ok h1), bind_ok (show derefS (some dp) m = _ from getS_ok h2)]
  refine Fills.total (new := imgBytes (C + left + right) ch 1
    (fun i j c _ => padConst R C top left value px i j c))
    (P := fun p => ∃ i, i < R + top + bottom ∧ ∃ j, j < C + left + right ∧ ∃ c, c < ch ∧
        p = (i * (C + left + right) + j) * ch + c) ?_ ?_ hd
  · refine nest2 (P := fun i j p => ∃ c, c < ch ∧ p = (i * (C + left + right) + j) * ch + c) ?_
    intro i j hi hj
    by_cases hin : top ≤ i ∧ i < top + R ∧ left ≤ j ∧ j < left + C
    · dsimp only
      rw [if_neg (by omega)]
      apply Fills.loop
      intro c hc
      have hI : i - top < R := by omega
      have hJ : j - left < C := by omega
      have e1 : (CI.lit (j:Int) - CI.lit (left:Int) : CI) = CI.lit ((j - left : Nat) : Int) := by
        rw [CI.sub_ok (by constructor <;> omega)]; congr 1; omega
      have e2 : (CI.lit (i:Int) - CI.lit (top:Int) : CI) = CI.lit ((i - top : Nat) : Int) := by
        rw [CI.sub_ok (by constructor <;> omega)]; congr 1; omega
      have e3 := eval_img (R := R) (C := C) (ch := ch) hI hJ hc (by omega)
      rw [← e1, ← e2] at e3
      have e4 := eval_img (R := R + top + bottom) (C := C + left + right) (ch := ch) hi hj hc (by omega)
      refine Fills.bind (fun g => ev_ok e3 _) ?_
      refine Fills.bind (fun g => load_ok (hs.put_ne hne) (img8_lt hI hJ hc)) ?_
      refine Fills.bind (fun g => ev_ok e4 _) ?_
      refine Fills.store (img8_lt hi hj hc) ?_
      rw [imgBytes_at8 hj hc, hf _ _ _ hI hJ hc, padConst, if_pos hin]
    · dsimp only
      rw [if_pos (by omega)]
      apply Fills.loop
      intro c hc
      have e4 := eval_img (R := R + top + bottom) (C := C + left + right) (ch := ch) hi hj hc (by omega)
      refine Fills.bind (fun g => ev_ok e4 _) ?_
      refine Fills.store (img8_lt hi hj hc) ?_
      rw [imgBytes_at8 hj hc, padConst, if_neg hin]
  · intro p hp
    obtain ⟨i, j, c, hi, hj, hc, e⟩ := img8_cover hp
    exact ⟨i, hi, j, hj, c, hc, e⟩

theorem margins_eval (hR : R + top + bottom ≤ 2147483647) :
    (CI.lit (R:Int) + CI.lit (top:Int) + CI.lit (bottom:Int) : CI) = CI.lit ((R + top + bottom : Nat) : Int) := by
  have h : R + top + bottom < 2147483648 := by omega
  ci_down

/-- exact final heap of `hypercv_copy_make_border` on byte images, non-constant borders -/
theorem pad_run (hm : m.WF) (e : Extension) (value : UInt8) (hs : IsImage8 m sp R C ch px)
    (hN : (R + top + bottom) * (C + left + right) * ch ≤ 2147483551)
    (hz : ¬ ((top:Int) = 0 ∧ (left:Int) = 0 ∧ (bottom:Int) = 0 ∧ (right:Int) = 0)) :
    hypercv_copy_make_border (some sp) top bottom left right e.code value m = .ok (some (m.next + 1),
      m.newImage (R + top + bottom) (C + left + right) 1 ch 1
        (imgBytes (C + left + right) ch 1 (fun i j c _ => padPx e R C top left px i j c))) := by
  obtain ⟨b1, b2, b3, b4⟩ := padSize hs.posR hs.posC hs.posCh hN
  obtain ⟨sd, si, a1, a6⟩ := img8_lit hs
  have pR := hs.posR
  have pC := hs.posC
  have c1 : decide ((left:Int) ≥ 0 ∧ (right:Int) ≥ 0 ∧ (top:Int) ≥ 0 ∧ (bottom:Int) ≥ 0) = true := by
    rw [decide_eq_true_eq]; omega
  have c2 : decide (e.code = 2 ∨ e.code = 4 ∨ e.code = 1 ∨ e.code = 3 ∨ e.code = 0) = true := by
    cases e <;> decide
  have c3 : ¬ e.code = 0 := by cases e <;> decide
  unfold hypercv_copy_make_border
  rw [nonNull_some, c1, c2, cassert_bind_true, cassert_bind_true, if_neg hz, bind_ok (getS_ok a1)]
  simp only []
  rw [ev_bind (margins_eval (by omega)), ev_bind (margins_eval (by omega))]
  have hcr := create_sm_ok (m := m) (R := R + top + bottom) (C := C + left + right) (ch := ch) (E := 1) (dt := 1)
    (by omega) (by omega) hs.posCh rfl (by rwa [Nat.mul_one])
  rw [bind_ok hcr, if_neg c3, bind_ok (show derefS (some (m.next + 1)) _ = _ from
    getS_ok (newImage_sm m (R + top + bottom) (C + left + right) 1 ch 1 _))]
  have hlt := a6.lt_next hm
  have hrun := copyBorder_run (m := m.newImage (R + top + bottom) (C + left + right) 1 ch 1
      (fun p => if p < (R + top + bottom) * (C + left + right) * 1 then 0 else m.junk m.next p))
    (px := px) (si := si) (di := true) e hs.posR hs.posC hs.posCh hN (newImage_holds_old hm a6)
    (by have := newImage_data m (R + top + bottom) (C + left + right) 1 ch 1
          (fun p => if p < (R + top + bottom) * (C + left + right) * 1 then 0 else m.junk m.next p)
        rwa [Nat.mul_one ((R + top + bottom) * (C + left + right) * ch)] at this) (by omega)
    (fun i j c hi hj hc => imgBytes_at8 hj hc)
  rw [show newSHdr m (R + top + bottom) (C + left + right) 1 ch 1
    = ⟨(R + top + bottom : Nat), (C + left + right : Nat), 1, ch, 1, m.next, true⟩ from rfl, bind_ok hrun]
  have hp := newImage_put m (R := R + top + bottom) (C := C + left + right) (dt := 1) (ch := ch) (E := 1)
    (f := (fun p => if p < (R + top + bottom) * (C + left + right) * 1 then 0 else m.junk m.next p))
    (g := imgBytes (C + left + right) ch 1 (fun i j c _ => padPx e R C top left px i j c))
  rw [Nat.mul_one ((R + top + bottom) * (C + left + right) * ch)] at hp
  rw [hp]; rfl

theorem padc_run (hm : m.WF) (value : UInt8) (hs : IsImage8 m sp R C ch px)
    (hN : (R + top + bottom) * (C + left + right) * ch ≤ 2147483551)
    (hz : ¬ ((top:Int) = 0 ∧ (left:Int) = 0 ∧ (bottom:Int) = 0 ∧ (right:Int) = 0)) :
    hypercv_copy_make_border (some sp) top bottom left right 0 value m = .ok (some (m.next + 1),
      m.newImage (R + top + bottom) (C + left + right) 1 ch 1
        (imgBytes (C + left + right) ch 1 (fun i j c _ => padConst R C top left value px i j c))) := by
  obtain ⟨b1, b2, b3, b4⟩ := padSize hs.posR hs.posC hs.posCh hN
  obtain ⟨sd, si, a1, a6⟩ := img8_lit hs
  have pR := hs.posR
  have pC := hs.posC
  have c1 : decide ((left:Int) ≥ 0 ∧ (right:Int) ≥ 0 ∧ (top:Int) ≥ 0 ∧ (bottom:Int) ≥ 0) = true := by
    rw [decide_eq_true_eq]; omega
  have c2 : decide ((0:Int) = 2 ∨ (0:Int) = 4 ∨ (0:Int) = 1 ∨ (0:Int) = 3 ∨ (0:Int) = 0) = true := by decide
  unfold hypercv_copy_make_border
  rw [nonNull_some, c1, c2, cassert_bind_true, cassert_bind_true, if_neg hz, bind_ok (getS_ok a1)]
  simp only []
  rw [ev_bind (margins_eval (by omega)), ev_bind (margins_eval (by omega))]
  have hcr := create_sm_ok (m := m) (R := R + top + bottom) (C := C + left + right) (ch := ch) (E := 1) (dt := 1)
    (by omega) (by omega) hs.posCh rfl (by rwa [Nat.mul_one])
  rw [bind_ok hcr, if_pos trivial]
  have hlt := a6.lt_next hm
  have hrun := constBorder_run (m := m.newImage (R + top + bottom) (C + left + right) 1 ch 1
      (fun p => if p < (R + top + bottom) * (C + left + right) * 1 then 0 else m.junk m.next p))
    (sp := sp) (dp := m.next + 1) (px := px) (si := si) (di := true) (value := value) hs.posR hs.posC hs.posCh hN
    (by rw [newImage_sm_old]; exact a1
        have := img_lt_next hm hs; omega)
    (newImage_sm m _ _ 1 ch 1 _) (newImage_holds_old hm a6)
    (by have := newImage_data m (R + top + bottom) (C + left + right) 1 ch 1
          (fun p => if p < (R + top + bottom) * (C + left + right) * 1 then 0 else m.junk m.next p)
        rwa [Nat.mul_one ((R + top + bottom) * (C + left + right) * ch)] at this) (by omega)
    (fun i j c hi hj hc => imgBytes_at8 hj hc)
  rw [bind_ok hrun]
  have hp := newImage_put m (R := R + top + bottom) (C := C + left + right) (dt := 1) (ch := ch) (E := 1)
    (f := (fun p => if p < (R + top + bottom) * (C + left + right) * 1 then 0 else m.junk m.next p))
    (g := imgBytes (C + left + right) ch 1 (fun i j c _ => padConst R C top left value px i j c))
  rw [Nat.mul_one ((R + top + bottom) * (C + left + right) * ch)] at hp
  rw [hp]; rfl

end

end HyperCV
