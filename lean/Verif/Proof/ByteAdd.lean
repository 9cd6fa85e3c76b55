/- The addition of byte images. -/
import Verif.Model.ImageProcess
import Verif.Proof.FloatAdd

namespace HyperCV
open Spec

/-- the state of the destination after `p` elements -/
def addMix8 (p : Nat) (fa fb fd : Nat → UInt8) (q : Nat) : UInt8 := if q < p then fa q + fb q else fd q

theorem uchar_add (a b : UInt8) : uchar (ival a + ival b) = a + b := by
  unfold uchar ival
  apply UInt8.toNat_inj.1
  rw [UInt8.toNat_add, UInt8.toNat_ofNat']
  omega

section
variable {m : Mem} {ad bd dd NA NB ND n : Nat} {fa fb fd : Nat → UInt8}

theorem add_load8 {p : Nat} {fx fy : Nat → UInt8} (hA : Holds m ad NA fa) (hD : Holds m dd ND fd) (hp : p < NA) (hpD : p < ND) :
    load ad (p:Int) (m.put dd ND (addMix8 p fx fy fd)) = .ok (fa p, m.put dd ND (addMix8 p fx fy fd)) := by
  by_cases e : ad = dd
  · subst e
    have h1 := load_ok hA hp
    rw [load_ok hD hpD] at h1
    have e1 : fd p = fa p := by
      injection h1 with h1
      exact (Prod.mk.inj h1).1
    rw [load_ok (holds_put m ad ND _) hpD]
    unfold addMix8
    rw [if_neg (lt_irrefl _), e1]
  · exact load_ok (hA.put_ne e) hp

theorem add_uchar_run {a b d : SimpleMat} {pa pb pd R1 R2 C1 C2 ch : Nat} (h1 : m.sm pa = some a) (h2 : m.sm pb = some b) (h3 : m.sm pd = some d)
    (hA : Holds m a.data NA fa) (hB : Holds m b.data NB fb) (hD : Holds m d.data ND fd)
    (a1 : a.rows = R1) (a2 : a.cols = C1) (a3 : a.channels = ch) (b1 : b.rows = R2) (b2 : b.cols = C2) (b3 : b.channels = ch)
    (nA : min R1 R2 * min C1 C2 * ch ≤ NA) (nB : min R1 R2 * min C1 C2 * ch ≤ NB) (nD : min R1 R2 * min C1 C2 * ch ≤ ND)
    (hb : min R1 R2 * min C1 C2 * ch ≤ 2147483647) :
    simple_mat_addition_uchar (some pa) (some pb) (some pd) m
      = .ok ((), m.put d.data ND (addMix8 (min R1 R2 * min C1 C2 * ch) fa fb fd)) := by
  unfold simple_mat_addition_uchar
  rw [show decide (some pa ≠ none ∧ some pb ≠ none ∧ some pd ≠ none) = true by simp, cassert_bind_true]
  rw [show derefS (some pa) = getS pa from rfl, show derefS (some pb) = getS pb from rfl, show derefS (some pd) = getS pd from rfl]
  rw [bind_ok (getS_ok h1), bind_ok (getS_ok h2), bind_ok (getS_ok h3), show decide (a.channels = b.channels) = true by rw [a3, b3]; simp, cassert_bind_true]
  have e1 : (if a.rows ≥ b.rows then b.rows else a.rows) = ((min R1 R2 : Nat) : Int) := by
    rw [a1, b1]; split <;> omega
  have e2 : (if a.cols ≥ b.cols then b.cols else a.cols) = ((min C1 C2 : Nat) : Int) := by
    rw [a2, b2]; split <;> omega
  simp only [e1, e2, a3]
  have z0 : m.put d.data ND (addMix8 0 fa fb fd) = m := (put_congr m _ _ (fun _ _ => if_neg (by omega))).trans hD.put_self
  have run := flat3_run (R := min R1 R2) (C := min C1 C2) (ch := ch) (body := fun i j k => do
        let ix ← ev (CI.lit i * CI.lit ((min C1 C2 : Nat):Int) * CI.lit (ch:Int) + CI.lit j * CI.lit (ch:Int) + CI.lit k)
        let v1 ← load a.data ix
        let v2 ← load b.data ix
        store d.data ix (uchar (ival v1 + ival v2))) (fun p => m.put d.data ND (addMix8 p fa fb fd)) (by
      intro i j k hi hj hk
      beta_reduce
      rw [bind_ok (ev_ok (eval_img hi hj hk hb) _)]
      have := img8_lt hi hj hk
      generalize (i * min C1 C2 + j) * ch + k = p at *
      rw [bind_ok (add_load8 hA hD (by omega) (by omega)), bind_ok (add_load8 hB hD (by omega) (by omega)), store_put (by omega), uchar_add]
      refine congrArg (fun x => Except.ok ((), x)) (put_congr m _ _ ?_)
      intro q _
      unfold addMix8
      by_cases e : q = p
      · subst e
        rw [if_pos rfl, if_pos (by omega)]
      · rw [if_neg e]
        by_cases e2 : q < p
        · rw [if_pos e2, if_pos (by omega)]
        · rw [if_neg e2, if_neg (by omega)])
  rw [z0] at run
  exact run

end

theorem add_uchar_small {m : Mem} {a b d : SimpleMat} {pa pb pd R1 R2 C1 C2 ch NA NB ND : Nat} (h1 : m.sm pa = some a) (h2 : m.sm pb = some b)
    (h3 : m.sm pd = some d) (hA : Sized m a.data NA) (hB : Sized m b.data NB) (hD : Sized m d.data ND)
    (a1 : a.rows = R1) (a2 : a.cols = C1) (a3 : a.channels = ch) (b1 : b.rows = R2) (b2 : b.cols = C2) (b3 : b.channels = ch)
    (nA : min R1 R2 * min C1 C2 * ch ≤ NA) (nB : min R1 R2 * min C1 C2 * ch ≤ NB) (nD : ND < min R1 R2 * min C1 C2 * ch)
    (hb : min R1 R2 * min C1 C2 * ch ≤ 2147483647) :
    simple_mat_addition_uchar (some pa) (some pb) (some pd) m = .error (.ub .oob) := by
  unfold simple_mat_addition_uchar
  rw [show decide (some pa ≠ none ∧ some pb ≠ none ∧ some pd ≠ none) = true by simp, cassert_bind_true]
  rw [show derefS (some pa) = getS pa from rfl, show derefS (some pb) = getS pb from rfl, show derefS (some pd) = getS pd from rfl]
  rw [bind_ok (getS_ok h1), bind_ok (getS_ok h2), bind_ok (getS_ok h3), show decide (a.channels = b.channels) = true by rw [a3, b3]; simp, cassert_bind_true]
  have e1 : (if a.rows ≥ b.rows then b.rows else a.rows) = ((min R1 R2 : Nat) : Int) := by
    rw [a1, b1]; split <;> omega
  have e2 : (if a.cols ≥ b.cols then b.cols else a.cols) = ((min C1 C2 : Nat) : Int) := by
    rw [a2, b2]; split <;> omega
  simp only [e1, e2, a3]
  generalize min R1 R2 = R at *
  generalize min C1 C2 = C at *
  let P : Mem → Prop := fun m => Sized m a.data NA ∧ Sized m b.data NB ∧ Sized m d.data ND
  let body : Int → Int → Int → M Unit := fun i j k => do
        let ix ← ev (CI.lit i * CI.lit (C:Int) * CI.lit (ch:Int) + CI.lit j * CI.lit (ch:Int) + CI.lit k)
        let v1 ← load a.data ix
        let v2 ← load b.data ix
        store d.data ix (uchar (ival v1 + ival v2))
  have key : ∀ i j k : Nat, i < R → j < C → k < ch → ∀ m, P m →
      (ND ≤ (i * C + j) * ch + k → body i j k m = .error (.ub .oob)) ∧
      (body i j k m = .error (.ub .oob) ∨ ∃ m', body i j k m = .ok ((), m') ∧ P m') := by
    rintro i j k hi hj hk m ⟨⟨fa, q1⟩, ⟨fb, q2⟩, ⟨fd, q3⟩⟩
    have hlt := img8_lt hi hj hk
    show (ND ≤ _ → (ev _ >>= _) m = _) ∧ ((ev _ >>= _) m = _ ∨ ∃ m', (ev _ >>= _) m = _ ∧ P m')
    rw [bind_ok (ev_ok (eval_img hi hj hk hb) _), bind_ok (load_ok q1 (by omega)), bind_ok (load_ok q2 (by omega))]
    generalize uchar (ival _ + ival _) = v
    generalize hp : (i * C + j) * ch + k = p at *
    have bad : ND ≤ p → store d.data (p:Int) v m = .error (.ub .oob) := by
      intro h
      unfold store
      rw [q3]
      simp only [tab_length]
      rw [if_neg (by omega)]
    refine ⟨bad, ?_⟩
    by_cases hc : ND ≤ p
    · exact Or.inl (bad hc)
    · right
      have st : store d.data (p:Int) v (m.put d.data ND fd) = _ := store_put (by omega)
      rw [q3.put_self] at st
      exact ⟨_, st, sized_put ⟨_, q1⟩ ⟨_, q3⟩, sized_put ⟨_, q2⟩ ⟨_, q3⟩, _, holds_put _ _ _ _⟩
  have pR : 0 < R := Nat.pos_of_ne_zero (by rintro rfl; simp at nD)
  have pC : 0 < C := Nat.pos_of_ne_zero (by rintro rfl; simp at nD)
  have pch : 0 < ch := Nat.pos_of_ne_zero (by rintro rfl; simp at nD)
  refine forI_fails (k := R - 1) P ?_ (by omega) ?_ (show P m from ⟨hA, hB, hD⟩)
  · intro i hi m hm
    refine forI_outcome P ?_ hm
    intro j hj m hm
    exact forI_outcome P (fun k hk m hm => (key i j k hi hj hk m hm).2) hm
  · intro m hm
    refine forI_fails (k := C - 1) P ?_ (by omega) ?_ hm
    · intro j hj m hm
      exact forI_outcome P (fun k hk m hm => (key (R-1) j k (by omega) hj hk m hm).2) hm
    · intro m hm
      refine forI_fails (k := ch - 1) P (fun k hk m hm => (key (R-1) (C-1) k (by omega) (by omega) hk m hm).2) (by omega) ?_ hm
      intro m hm
      refine (key (R-1) (C-1) (ch-1) (by omega) (by omega) (by omega) m hm).1 ?_
      have e1 : (R - 1) * C + (C - 1) + 1 = R * C := by
        obtain ⟨r, rfl⟩ : ∃ r, R = r + 1 := ⟨R - 1, by omega⟩
        rw [Nat.succ_mul, Nat.add_sub_cancel]; omega
      have e2 : ((R - 1) * C + (C - 1)) * ch + (ch - 1) + 1 = R * C * ch := by
        rw [← e1, Nat.succ_mul]; omega
      omega

end HyperCV
