/- Matrices stored row by row in a block. -/
import Verif.Proof.Math

namespace HyperCV
open Spec

/-- row-major flattening -/
def fl (C : Nat) (A : Nat → Nat → Nat) : Nat → Nat := fun p => A (p / C) (p % C)

theorem fl_at {C i j : Nat} (A : Nat → Nat → Nat) (hj : j < C) : fl C A (i * C + j) = A i j := by
  unfold fl
  have e1 : (i * C + j) / C = i := by
    rw [Nat.mul_comm, Nat.mul_add_div (by omega), Nat.div_eq_of_lt hj]; omega
  have e2 : (i * C + j) % C = j := by
    rw [Nat.mul_comm, Nat.mul_add_mod, Nat.mod_eq_of_lt hj]
  rw [e1, e2]

theorem flat_lt {R C i j : Nat} (hi : i < R) (hj : j < C) : i * C + j < R * C := by
  have := slot_le (w := C) hi
  omega

theorem flat_split {R C p : Nat} (h : p < R * C) : p / C < R ∧ p % C < C ∧ p = p / C * C + p % C := by
  have hC : 0 < C := by
    rcases Nat.eq_zero_or_pos C with h0 | h0
    · subst h0; simp at h
    · exact h0
  refine ⟨Nat.div_lt_of_lt_mul (by rw [Nat.mul_comm]; exact h), Nat.mod_lt _ hC, ?_⟩
  have := Nat.div_add_mod p C
  rw [Nat.mul_comm] at this; omega

/-- entries fit in the element size -/
def Fits (w R C : Nat) (A : Nat → Nat → Nat) : Prop := ∀ i j, i < R → j < C → A i j < 256 ^ w

theorem Fits.fl {w R C : Nat} {A : Nat → Nat → Nat} (h : Fits w R C A) : ∀ p, p < R * C → fl C A p < 256 ^ w := by
  intro p hp
  obtain ⟨h1, h2, _⟩ := flat_split hp
  exact h _ _ h1 h2

def Mem.putM (m : Mem) (d w R C : Nat) (A : Nat → Nat → Nat) : Mem := m.putN d w (R * C) (fl C A)

theorem putM_congr (m : Mem) {d w R C : Nat} {A B : Nat → Nat → Nat}
    (h : ∀ i j, i < R → j < C → A i j = B i j) : m.putM d w R C A = m.putM d w R C B := by
  apply putN_congr
  intro p hp
  obtain ⟨h1, h2, _⟩ := flat_split hp
  exact h _ _ h1 h2

/-- the block `d` of `m` is the matrix `A` -/
def HoldsM (m : Mem) (d w R C : Nat) (A : Nat → Nat → Nat) : Prop := HoldsN m d w (R * C) (fl C A)

theorem isMat_iff {m : Mem} {d w R C : Nat} {A : Nat → Nat → Nat} : IsMat m d w R C A ↔ HoldsM m d w R C A :=
  isArray_iff

theorem HoldsM.fits {m : Mem} {d w R C : Nat} {A : Nat → Nat → Nat} (h : HoldsM m d w R C A) : Fits w R C A := by
  intro i j hi hj
  have := h.2 (i * C + j) (flat_lt hi hj)
  rwa [fl_at A hj] at this

theorem holdsM_putM (m : Mem) {d w R C : Nat} {A : Nat → Nat → Nat} (h : Fits w R C A) :
    HoldsM (m.putM d w R C A) d w R C A := holdsN_putN m h.fl

theorem HoldsM.put_self {m : Mem} {d w R C : Nat} {A : Nat → Nat → Nat} (h : HoldsM m d w R C A) :
    m.putM d w R C A = m := HoldsN.put_self h

theorem HoldsM.putM_ne {m : Mem} {d w R C d' w' R' C' : Nat} {A A' : Nat → Nat → Nat} (h : HoldsM m d w R C A)
    (hne : d ≠ d') : HoldsM (m.putM d' w' R' C' A') d w R C A := HoldsN.putN_ne h hne

theorem HoldsM.load {m : Mem} {d w R C i j : Nat} {A : Nat → Nat → Nat} (h : HoldsM m d w R C A) (hi : i < R)
    (hj : j < C) : loadN w d ((i * C + j : Nat) : Int) m = .ok (A i j, m) := by
  rw [HoldsN.load h (flat_lt hi hj), fl_at A hj]

theorem storeM_put {m : Mem} {d w R C i j v : Nat} {A : Nat → Nat → Nat} (hi : i < R) (hj : j < C) :
    storeN w d ((i * C + j : Nat) : Int) v (m.putM d w R C A)
      = .ok ((), m.putM d w R C (fun a b => if a = i ∧ b = j then v % 256 ^ w else A a b)) := by
  unfold Mem.putM
  rw [storeN_put (flat_lt hi hj)]
  refine congrArg (fun x => Except.ok ((), x)) (putN_congr m ?_)
  intro p hp
  obtain ⟨h1, h2, h3⟩ := flat_split hp
  by_cases hc : p = i * C + j
  · have e1 : p / C = i := by
      rw [hc, Nat.mul_comm, Nat.mul_add_div (by omega), Nat.div_eq_of_lt hj]; omega
    have e2 : p % C = j := by
      rw [hc, Nat.mul_comm, Nat.mul_add_mod, Nat.mod_eq_of_lt hj]
    rw [if_pos hc]
    unfold fl
    beta_reduce
    rw [if_pos ⟨e1, e2⟩]
  · rw [if_neg hc]
    unfold fl
    beta_reduce
    rw [if_neg]
    rintro ⟨e1, e2⟩
    rw [e1, e2] at h3
    exact hc h3

/-- index expressions `i*C + j` stay inside `int` -/
theorem idx_eval {R C i j : Nat} (hi : i < R) (hj : j < C) (h : R * C ≤ 2147483647) :
    (CI.lit (i:Int) * CI.lit (C:Int) + CI.lit (j:Int) : CI) = CI.lit ((i * C + j : Nat) : Int) := by
  have := flat_lt hi hj
  have h2 : i * C ≤ 2147483647 := by omega
  rw [CI.mul_ok (by constructor <;> ((try norm_cast) <;> omega))]
  rw [CI.add_ok (by constructor <;> ((try norm_cast) <;> omega))]
  norm_cast

theorem onlyBlock_putM (m : Mem) (d w R C : Nat) (A : Nat → Nat → Nat) : OnlyBlock m (m.putM d w R C A) d :=
  onlyBlock_put m d _ _

end HyperCV
