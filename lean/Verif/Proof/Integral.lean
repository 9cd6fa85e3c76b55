/- The integral image. -/
import Verif.Model.Integral
import Verif.Proof.ImageN
import Verif.Proof.Matrix
import Mathlib.Algebra.BigOperators.Intervals

namespace HyperCV
open Spec Finset

/-- closed form of what the recurrence computes -/
def intF (s : Nat → Nat → ℤ) (i j : Nat) : ℤ :=
  s i 0 + s 0 j - s 0 0 + ∑ a ∈ range i, ∑ b ∈ range j, s (a+1) (b+1)

theorem intF_row0 (s : Nat → Nat → ℤ) (j : Nat) : intF s 0 j = s 0 j := by simp [intF]
theorem intF_col0 (s : Nat → Nat → ℤ) (i : Nat) : intF s i 0 = s i 0 := by simp [intF]

theorem intF_step (s : Nat → Nat → ℤ) (i j : Nat) :
    intF s (i+1) (j+1) = intF s i (j+1) + intF s (i+1) j + s (i+1) (j+1) - intF s i j := by
  unfold intF
  rw [sum_range_succ _ i, sum_range_succ _ i]
  rw [sum_range_succ (fun b => s (i+1) (b+1)) j]
  ring

theorem sum_bounds {s : Nat → Nat → ℤ} (h : ∀ a b, 0 ≤ s a b ∧ s a b ≤ 255) (i j : Nat) :
    0 ≤ ∑ a ∈ range i, ∑ b ∈ range j, s (a+1) (b+1) ∧ ∑ a ∈ range i, ∑ b ∈ range j, s (a+1) (b+1) ≤ 255 * (i * j) := by
  constructor
  · exact sum_nonneg fun a _ => sum_nonneg fun b _ => (h _ _).1
  · have h1 : ∀ a ∈ range i, ∑ b ∈ range j, s (a+1) (b+1) ≤ 255 * j := by
      intro a _
      have := sum_le_card_nsmul (range j) (fun b => s (a+1) (b+1)) 255 (fun b _ => (h _ _).2)
      rw [card_range, nsmul_eq_mul] at this
      linarith
    have := sum_le_card_nsmul (range i) (fun a => ∑ b ∈ range j, s (a+1) (b+1)) (255 * j) h1
    rw [card_range, nsmul_eq_mul] at this
    linarith

theorem intF_bounds {s : Nat → Nat → ℤ} (h : ∀ a b, 0 ≤ s a b ∧ s a b ≤ 255) {R C i j : Nat} (hi : i < R) (hj : j < C) :
    -255 ≤ intF s i j ∧ intF s i j ≤ 255 * (R * C) + 510 := by
  obtain ⟨h1, h2⟩ := sum_bounds h i j
  have h3 : (i:ℤ) * j ≤ R * C := by
    have : i * j ≤ R * C := Nat.mul_le_mul (by omega) (by omega)
    exact_mod_cast this
  have a1 := h i 0
  have a2 := h 0 j
  have a3 := h 0 0
  unfold intF
  constructor
  · linarith [a1.1, a2.1, a3.2]
  · linarith [a1.2, a2.2, a3.1]

theorem bits_signed {v : ℤ} (h1 : -2147483648 ≤ v) (h2 : v ≤ 2147483647) : sval 4 (bitsOf 4 v) = v :=
  signed_bitsOf (by decide) (by omega) (by omega)

theorem bitsOf_nat4 {v : Nat} (h : v < 256 ^ 4) : bitsOf 4 (v:ℤ) = v := by
  unfold bitsOf; omega

/-- bit patterns of the result -/
def intB (px : Nat → Nat → Nat → UInt8) (i j _c : Nat) : Nat := bitsOf 4 (intF (fun a b => ((px a b 0).toNat : ℤ)) i j)

theorem integral_run {m : Mem} {sd dd R C : Nat} {dt dch de : Int} {si di : Bool} {px : Nat → Nat → Nat → UInt8}
    {old : Nat → Nat → Nat → Nat} {dr dc : Int} (hs : Holds m sd (R * C * 1) (imgBytes C 1 1 (fun i j c _ => px i j c)))
    (hd : HoldsP m dd 4 R C 1 old) (hne : sd ≠ dd) (hN : R * C ≤ 4194304) :
    (forI 0 (R:Int) fun i => forI 0 (C:Int) fun j =>
      integralStep ⟨R, C, 1, 1, 1, sd, si⟩ ⟨dr, dc, dt, dch, de, dd, di⟩ i j) m
      = .ok ((), m.putP dd 4 R C 1 (intB px)) := by
  have hb : ∀ a b, (0:ℤ) ≤ ((px a b 0).toNat : ℤ) ∧ ((px a b 0).toNat : ℤ) ≤ 255 := by
    intro a b; have := (px a b 0).toNat_lt; omega
  have hNz : (R:ℤ) * C ≤ 4194304 := by exact_mod_cast hN
  have hfit : FitsP 4 R C 1 (intB px) := fun i j c _ _ _ => bitsOf_lt 4 _
  apply pixels_run hd
  intro i j hi hj
  have hmix := hfit.mix (i := i) (j := j) hd.fits
  have hP := holdsP_putP m (d := dd) hmix
  have hS : Holds (m.putP dd 4 R C 1 (mixP i j (intB px) old)) sd (R * C * 1) (imgBytes C 1 1 (fun i j c _ => px i j c)) :=
    hs.put_ne hne
  have hl : load sd (((i * C + j) * 1 + 0 : Nat) : Int) (m.putP dd 4 R C 1 (mixP i j (intB px) old))
      = .ok (px i j 0, m.putP dd 4 R C 1 (mixP i j (intB px) old)) := by
    rw [load_ok hS (img8_lt hi hj (by decide)), imgBytes_at8 hj (by decide)]
  unfold integralStep
  by_cases h0 : i = 0 ∨ j = 0
  · rw [if_pos (by omega)]
    show (ev (CI.lit (i:Int) * CI.lit (C:Int) + CI.lit (j:Int)) >>= _) _ = _
    rw [bind_ok (ev_ok (eval_px1 hi hj (by omega)) _), bind_ok hl, storeP_put hi hj (by decide)]
    refine congrArg (fun x => Except.ok ((), x)) (putP_congr m (mixP_step1 _ ?_))
    have h8 := (px i j 0).toNat_lt
    rw [Nat.mod_eq_of_lt (by omega)]
    unfold intB
    rcases h0 with h0 | h0
    · subst h0; rw [intF_row0, bitsOf_nat4 (by omega)]
    · subst h0; rw [intF_col0, bitsOf_nat4 (by omega)]
  · rw [if_neg (by omega)]
    obtain ⟨i, rfl⟩ : ∃ i', i = i' + 1 := ⟨i - 1, by omega⟩
    obtain ⟨j, rfl⟩ : ∃ j', j = j' + 1 := ⟨j - 1, by omega⟩
    have hlin : (i+1) * C + (j+1) < R * C := mix_lt hi hj
    have hlin' : (i+1) * C = i * C + C := by ring
    have hRC : R ≤ R * C := Nat.le_mul_of_pos_right _ (by omega)
    have hpos : ((i+1 : Nat) : Int) - 1 = (i : Int) := by push_cast; ring
    have e1 : (CI.lit (((i+1 : Nat)) : Int) - CI.lit 1 : CI) = CI.lit (i : Int) := by
      rw [CI.sub_ok (by constructor <;> (rw [hpos]; omega)), hpos]
    have e2 : ((CI.lit (((i+1 : Nat)) : Int) - CI.lit 1) * CI.lit (C:Int) + CI.lit ((j+1 : Nat) : Int) : CI)
        = CI.lit (((i * C + (j+1)) * 1 + 0 : Nat) : Int) := by
      rw [e1]; exact eval_px1 (show i < R by omega) hj (by omega)
    have e3 : (CI.lit (((i+1 : Nat)) : Int) * CI.lit (C:Int) + CI.lit ((j+1 : Nat) : Int) - CI.lit 1 : CI)
        = CI.lit ((((i+1) * C + j) * 1 + 0 : Nat) : Int) := by
      rw [eval_px1 hi hj (by omega), CI.sub_ok (by constructor <;> (generalize i * C = u at *; generalize (i+1) * C = v at *; omega))]
      congr 1
      push_cast; ring
    have e4 : ((CI.lit (((i+1 : Nat)) : Int) - CI.lit 1) * CI.lit (C:Int) + CI.lit ((j+1 : Nat) : Int) - CI.lit 1 : CI)
        = CI.lit (((i * C + j) * 1 + 0 : Nat) : Int) := by
      rw [e2, CI.sub_ok (by constructor <;> (generalize i * C = u at *; generalize (i+1) * C = v at *; omega))]
      congr 1
      push_cast; ring
    show (ev (CI.lit (((i+1 : Nat)) : Int) * CI.lit (C:Int) + CI.lit ((j+1 : Nat) : Int)) >>= _) _ = _
    rw [bind_ok (ev_ok (eval_px1 hi hj (by omega)) _), bind_ok (ev_ok e2 _), bind_ok (ev_ok e3 _), bind_ok (ev_ok e4 _)]
    rw [bind_ok (hP.load (c := 0) (show i < R by omega) hj (by decide)),
      bind_ok (hP.load (c := 0) hi (show j < C by omega) (by decide)), bind_ok hl,
      bind_ok (hP.load (c := 0) (show i < R by omega) (show j < C by omega) (by decide))]
    have m1 : mixP (i+1) (j+1) (intB px) old i (j+1) 0 = intB px i (j+1) 0 := if_pos (by omega)
    have m2 : mixP (i+1) (j+1) (intB px) old (i+1) j 0 = intB px (i+1) j 0 := if_pos (by omega)
    have m3 : mixP (i+1) (j+1) (intB px) old i j 0 = intB px i j 0 := if_pos (by omega)
    rw [m1, m2, m3]
    have b1 := intF_bounds hb (show i < R by omega) hj
    have b2 := intF_bounds hb hi (show j < C by omega)
    have b3 := intF_bounds hb (show i < R by omega) (show j < C by omega)
    have b4 := intF_bounds hb hi hj
    have st := intF_step (fun a b => ((px a b 0).toNat : ℤ)) i j
    have h8 := hb (i+1) (j+1)
    have v1 : sval 4 (intB px i (j+1) 0) = intF (fun a b => ((px a b 0).toNat : ℤ)) i (j+1) :=
      bits_signed (by linarith [b1.1]) (by linarith [b1.2])
    have v2 : sval 4 (intB px (i+1) j 0) = intF (fun a b => ((px a b 0).toNat : ℤ)) (i+1) j :=
      bits_signed (by linarith [b2.1]) (by linarith [b2.2])
    have v3 : sval 4 (intB px i j 0) = intF (fun a b => ((px a b 0).toNat : ℤ)) i j :=
      bits_signed (by linarith [b3.1]) (by linarith [b3.2])
    rw [v1, v2, v3]
    have ck : (CI.lit (intF (fun a b => ((px a b 0).toNat : ℤ)) i (j+1)) + CI.lit (intF (fun a b => ((px a b 0).toNat : ℤ)) (i+1) j)
        + CI.lit ((px (i+1) (j+1) 0).toNat : Int) - CI.lit (intF (fun a b => ((px a b 0).toNat : ℤ)) i j) : CI)
        = CI.lit (intF (fun a b => ((px a b 0).toNat : ℤ)) (i+1) (j+1)) := by
      rw [CI.add_ok (by constructor <;> linarith [b1.1, b1.2, b2.1, b2.2]),
        CI.add_ok (by constructor <;> linarith [b1.1, b1.2, b2.1, b2.2, h8.1, h8.2]),
        CI.sub_ok (by rw [← st]; constructor <;> linarith [b4.1, b4.2]), st]
    rw [bind_ok (ev_ok ck _), storeP_put hi hj (by decide)]
    refine congrArg (fun x => Except.ok ((), x)) (putP_congr m (mixP_step1 _ ?_))
    exact Nat.mod_eq_of_lt (bitsOf_lt 4 _)

end HyperCV
