/- C29, C30, C56: the vector macros. -/
import Verif.Proof.Vector

namespace HyperCV
open Spec

/-! ## C29: the vector macros behave as a sequence -/

/-- C29: take any heap, any element size and any history of `vector_push_back`, `vector_pop_back` (on a non-empty
vector), `vector_erase` (any `int` index) and `vector_free`, starting from a NULL vector.  The program runs without
undefined behaviour (in particular it accesses only its own allocation), what it observes of the vector afterwards
is exactly the list obtained by the same operations on lists, everything that was in the heap before is unchanged,
and the only allocation left is the one of the vector, if any. -/
theorem C29_sequence {m : Mem} {E : Nat} {ops : List VOp} (hm : m.WF) (hE : 0 < E)
    (hl : LegalHist E ops [])
    (hs : 2 * ops.length * E + 2147483664 ≤ 18446744073709551616) :
    ∃ vec m', runHist E ops none m = .ok (vec, m') ∧ Shows E m' vec (listAfter ops []) ∧
      Frame m m' ∧ m'.WF ∧ (∀ h, m.next ≤ h → m'.blk h ≠ none → vec = some h) ∧
      m'.hm = m.hm ∧ m'.sm = m.sm := by
  obtain ⟨vec, m', cap, h1, h2, h3⟩ := VecInv.hist hE ops (k := 0) (VecInv.start hm E) hl (by omega) (by simp)
    (by rwa [Nat.zero_add])
  rw [Nat.zero_add] at h3
  have : 2 * ops.length ≤ 2 * ops.length * E := Nat.le_mul_of_pos_right _ hE
  exact ⟨vec, m', h1, (h2.shows (by omega)).1, fun h hh => ⟨h2.low h hh, by rw [h2.hm], by rw [h2.sm]⟩, h2.wf,
    h2.high, h2.hm, h2.sm⟩

/-- C29: histories that end with `vector_free` leak nothing: no block allocated by the history is left -/
theorem C29_no_leak {m : Mem} {E : Nat} {ops : List VOp} (hm : m.WF) (hE : 0 < E)
    (hl : LegalHist E ops [])
    (hs : 2 * (ops.length + 1) * E + 2147483664 ≤ 18446744073709551616) :
    ∃ m', runHist E (ops ++ [.free]) none m = .ok (none, m') ∧ m'.blk = m.blk := by
  have hs' : 2 * (0 + ops.length) * E + 2147483664 ≤ 18446744073709551616 := by
    have : 2 * (0 + ops.length) * E ≤ 2 * (ops.length + 1) * E := Nat.mul_le_mul_right E (by omega)
    omega
  obtain ⟨vec, m', cap, h1, h2, h3⟩ := VecInv.hist hE ops (k := 0) (VecInv.start hm E) hl (by omega) (by simp) hs'
  obtain ⟨m2, k1, k2, _⟩ := h2.free
  refine ⟨m2, ?_, ?_⟩
  · rw [runHist_append, bind_ok h1]
    unfold runHist
    rw [bind_ok (show VOp.run E .free vec m' = _ from k1)]
    rfl
  · funext h
    by_cases hh : h < m.next
    · exact k2.low h hh
    · rw [(hm h (by omega)).1]
      by_contra hc
      have := k2.high h (by omega) hc
      cases this

/-- a history that uses every operation, grows twice and erases both inside and outside the range -/
example : LegalHist 8 [.push 5, .push 300, .push 7, .erase 1, .erase (-1), .pop, .push 9, .free, .push 1] [] ∧
    listAfter [.push 5, .push 300, .push 7, .erase 1, .erase (-1), .pop, .push 9] [] = [5, 9] := by
  refine ⟨?_, by decide⟩
  simp [LegalHist, VOp.Legal, VOp.onList]

/-! ## C30: vector growth is geometric -/

/-- C30: `n ≥ 1` appends to a NULL vector leave a vector showing the appended values whose capacity is the least
power of two that is at least `n` (`Nat.clog 2 n` is the least `k` with `n ≤ 2^k`); the whole history made
`clog2 n + 1` allocations, i.e. one `malloc` and at most `log2 n + 1` `realloc`s. -/
theorem C30_growth {m : Mem} {E : Nat} {vs : List Nat} (hm : m.WF) (hE : 0 < E) (hv : ∀ v ∈ vs, v < 256 ^ E)
    (hn : 0 < vs.length) (hs : 2 ^ Nat.clog 2 vs.length * E + 16 < 18446744073709551616) :
    ∃ vec m', runHist E (vs.map .push) none m = .ok (vec, m') ∧ Shows E m' vec vs ∧
      vector_capacity vec m' = .ok (2 ^ Nat.clog 2 vs.length, m') ∧
      vs.length ≤ 2 ^ Nat.clog 2 vs.length ∧ (∀ k, vs.length ≤ 2 ^ k → 2 ^ Nat.clog 2 vs.length ≤ 2 ^ k) ∧
      m'.next = m.next + (1 + Nat.clog 2 vs.length) ∧ Nat.clog 2 vs.length ≤ Nat.log 2 vs.length + 1 := by
  obtain ⟨v, vs, rfl⟩ : ∃ v t, vs = v :: t := by
    cases vs with
    | nil => simp at hn
    | cons v t => exact ⟨v, t, rfl⟩
  have hc1 : Nat.clog 2 1 = 0 := by simp
  have hge : 1 ≤ 2 ^ Nat.clog 2 (v :: vs).length := Nat.one_le_two_pow
  have hgE := Nat.mul_le_mul_right E hge
  obtain ⟨vec1, m1, h1, h2, h3⟩ := (VecInv.start hm E).push hE (hv v (by simp))
    (by show 1 * E + 16 < _; omega)
  have e1 : ([] ++ [v] : List Nat) = [v] := rfl
  have e2 : pushCap ([] : List Nat).length 0 = 2 ^ Nat.clog 2 [v].length := by
    rw [show [v].length = 1 from rfl, hc1]; rfl
  have e3 : [v].length + vs.length = (v :: vs).length := by simp; omega
  rw [e1, e2] at h2
  obtain ⟨vec2, m2, k1, k2, k3⟩ := VecInv.pushAll hE vs (l := [v]) (by simp) h2
    (fun x hx => hv x (by simp [hx])) (by rw [e3]; exact hs)
  rw [e3] at k2 k3
  have hcap : 2 ^ Nat.clog 2 (v :: vs).length ≤ 2 ^ Nat.clog 2 (v :: vs).length * E := Nat.le_mul_of_pos_right _ hE
  have hsh := k2.shows (by omega)
  refine ⟨vec2, m2, ?_, hsh.1, hsh.2, Nat.le_pow_clog (by decide) _, ?_, ?_, ?_⟩
  · rw [← pushAll_hist]
    unfold pushAll
    rw [bind_ok h1]
    exact k1
  · intro k hk
    exact Nat.pow_le_pow_right (by decide) ((Nat.clog_le_iff_le_pow (by decide)).2 hk)
  · rw [show [v].length = 1 from rfl, hc1] at k3
    have : pushAllocs ([] : List Nat).length 0 = 1 := rfl
    omega
  · rw [Nat.clog_le_iff_le_pow (by decide)]
    exact le_of_lt (Nat.lt_pow_succ_log_self (by decide) _)

example : (∀ v ∈ [1, 2, 3, 4, 5], v < 256 ^ 4) ∧ 2 ^ Nat.clog 2 [1, 2, 3, 4, 5].length * 4 + 16 < 18446744073709551616 := by
  decide +kernel

/-! ## C56: popping an empty vector -/

/-- the English property: `vector_pop_back` on an empty vector leaves it empty -/
def PopEmptySafe : Prop :=
  ∀ (m : Mem) (E : Nat) (vec : Option Nat), Shows E m vec [] →
    ∃ m', vector_pop_back vec m = .ok ((), m') ∧ Shows E m' vec []

/-- C56 (partial): true of the NULL vector.  Missing: a vector that was emptied by `pop` or `erase`, for which the
claim is false (`C56_refuted`). -/
theorem C56_pop_null_partial (m : Mem) : vector_pop_back none m = .ok ((), m) := rfl

/-- C56 is false: after one `push` and two `pop`s the size reads as 2^64-1 and accessing the reported last element
is undefined behaviour -/
theorem C56_refuted : ¬ PopEmptySafe := by
  intro h
  obtain ⟨vec, m', h1, h2, -⟩ := C29_sequence (m := Mem.empty) (E := 4) (ops := [.push 7, .pop])
    (fun _ _ => ⟨rfl, rfl, rfl⟩) (by decide) (by simp [LegalHist, VOp.Legal, VOp.onList]) (by decide)
  obtain ⟨m2, h3, h4, -⟩ := h m' 4 vec h2
  have hbad : ∀ r, ((runHist 4 [.push 7, .pop, .pop] none >>= fun v => vector_size v) Mem.empty) = .ok r →
      r.1 = 18446744073709551615 := by
    intro r hr
    have : ((runHist 4 [.push 7, .pop, .pop] none >>= fun v => vector_size v) Mem.empty).map Prod.fst
        = .ok 18446744073709551615 := by decide +kernel
    rw [hr] at this
    exact Except.ok.inj this
  have hrun : (runHist 4 [.push 7, .pop, .pop] none >>= fun v => vector_size v) Mem.empty = .ok (0, m2) := by
    rw [bind_run, show [VOp.push 7, .pop, .pop] = [.push 7, .pop] ++ [.pop] from rfl, runHist_append, bind_ok h1]
    unfold runHist
    rw [bind_ok (a := vec) (m' := m2)]
    · exact h4
    · unfold VOp.run
      dsimp only
      rw [bind_ok h3]
      rfl
  have := hbad _ hrun
  simp at this

end HyperCV
