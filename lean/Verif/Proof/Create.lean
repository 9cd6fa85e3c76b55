import Verif.Proof.Convert

namespace HyperCV
open Spec

/-- a non-positive dimension exits -/
theorem create_bad_dims {m : Mem} {samples lines bands dt : Int} {il : List Char} {data wave : Option Nat}
    (h : samples ≤ 0 ∨ lines ≤ 0 ∨ bands ≤ 0) :
    create_hyper_mat_with_data samples lines bands dt il data wave m = .error .exit := by
  unfold create_hyper_mat_with_data
  by_cases h1 : samples ≤ 0
  · have : decide (samples > 0) = false := by simpa using h1
    rw [this, cassert_bind_false]
  · have : decide (samples > 0) = true := by simpa using h1
    rw [this, cassert_bind_true]
    by_cases h2 : lines ≤ 0
    · have : decide (lines > 0) = false := by simpa using h2
      rw [this, cassert_bind_false]
    · have : decide (lines > 0) = true := by simpa using h2
      rw [this, cassert_bind_true]
      have h3 : bands ≤ 0 := by omega
      have : decide (bands > 0) = false := by simpa using h3
      rw [this, cassert_bind_false]

/-- checked product of positive numbers that leaves `int` -/
theorem mul_over {x : CI} {a b : Nat} (hab : 2147483647 < a * b)
    (hx : x = CI.lit (a : Int) ∨ x = CI.err (.ub .overflow)) (hxa : 2147483647 < a → x = CI.err (.ub .overflow)) :
    x * CI.lit (b : Int) = CI.err (.ub .overflow) := by
  rcases hx with h | h
  · by_cases ha : 2147483647 < a
    · rw [hxa ha]; simp
    · rw [h, CI.mul_bad]
      intro hr
      have h2 := hr.2
      have : ((a * b : Nat) : Int) ≤ 2147483647 := by push_cast; exact h2
      omega
  · rw [h]; simp

/-- the checked product of a list of positive factors is the product or an overflow -/
theorem mul_dich {x : CI} {a b : Nat} (hb : 0 < b) (hbR : b ≤ 2147483647)
    (hx : (a ≤ 2147483647 ∧ x = CI.lit (a : Int)) ∨ (2147483647 < a ∧ x = CI.err (.ub .overflow))) :
    (a * b ≤ 2147483647 ∧ x * CI.lit (b : Int) = CI.lit ((a * b : Nat) : Int)) ∨
    (2147483647 < a * b ∧ x * CI.lit (b : Int) = CI.err (.ub .overflow)) := by
  rcases hx with ⟨h1, h2⟩ | ⟨h1, h2⟩
  · by_cases h : a * b ≤ 2147483647
    · left
      refine ⟨h, ?_⟩
      rw [h2, CI.mul_ok]
      · push_cast; rfl
      · constructor
        · have : (0:Int) ≤ (a:Int) * b := by positivity
          omega
        · have : ((a * b : Nat) : Int) ≤ 2147483647 := by omega
          push_cast at this; exact this
    · right
      refine ⟨by omega, ?_⟩
      exact mul_over (by omega) (Or.inl h2) (by omega)
  · right
    refine ⟨?_, by rw [h2]; simp⟩
    calc 2147483647 < a := h1
      _ ≤ a * b := Nat.le_mul_of_pos_right a hb

theorem size_over {S L B E : Nat} (hS : S ≤ 2147483647) (hL : 0 < L) (hLR : L ≤ 2147483647) (hB : 0 < B)
    (hBR : B ≤ 2147483647) (hE : 0 < E) (hER : E ≤ 2147483647) (hN : 2147483647 < S * L * B * E) :
    (CI.lit (S:Int) * CI.lit (L:Int) * CI.lit (B:Int) * CI.lit (E:Int) : CI) = CI.err (.ub .overflow) := by
  have h1 := mul_dich hL hLR (Or.inl ⟨hS, rfl⟩ : (S ≤ 2147483647 ∧ CI.lit (S:Int) = CI.lit (S : Int)) ∨ _)
  have h2 := mul_dich hB hBR h1
  have h3 := mul_dich hE hER h2
  rcases h3 with ⟨h, _⟩ | ⟨_, h⟩
  · omega
  · exact h

/-- positive `int` dimensions whose byte size does not fit `int`: signed overflow -/
theorem create_overflow {m : Mem} {S L B E : Nat} {dt : Int} {il : List Char} {data wave : Option Nat}
    (hS : 0 < S) (hSR : S ≤ 2147483647) (hL : 0 < L) (hLR : L ≤ 2147483647) (hB : 0 < B)
    (hBR : B ≤ 2147483647) (hE : elemBytes dt = some E) (hN : 2147483647 < S * L * B * E) :
    create_hyper_mat_with_data S L B dt il data wave m = .error (.ub .overflow) := by
  obtain ⟨e1, e2, e3⟩ := get_elemsize_eq hE
  unfold create_hyper_mat_with_data
  rw [e1]
  have p1 : decide ((S:Int) > 0) = true := by simpa using hS
  have p2 : decide ((L:Int) > 0) = true := by simpa using hL
  have p3 : decide ((B:Int) > 0) = true := by simpa using hB
  rw [p1, p2, p3]
  simp only [cassert_bind_true]
  exact ev_err_bind (size_over hSR hL hLR hB hBR e2 (by omega) hN) _ _

/-- general form of creation without sources: the wavelength region has `W = (int)(4 * bands)` bytes -/
theorem create_gen {m : Mem} {S L B E W : Nat} {dt : Int} {il : List Char}
    (hS : 0 < S) (hL : 0 < L) (hB : 0 < B) (hE : elemBytes dt = some E)
    (hN : S * L * B * E ≤ 2147483647) (hW : toInt32 ((B:Int) * 4) = W) (hil : 2 ≤ il.length) :
    create_hyper_mat S L B dt il m
      = .ok (some (m.next + 2),
        ((m.grow (S * L * B * E) (fun _ => 0)).grow W (fun _ => 0)).growH (newHdr m S L B dt il)) := by
  obtain ⟨e1, e2, e3⟩ := get_elemsize_eq hE
  unfold create_hyper_mat create_hyper_mat_with_data
  rw [e1]
  have p1 : decide ((S:Int) > 0) = true := by simpa using hS
  have p2 : decide ((L:Int) > 0) = true := by simpa using hL
  have p3 : decide ((B:Int) > 0) = true := by simpa using hB
  rw [p1, p2, p3]
  simp only [cassert_bind_true]
  rw [ev_bind (size_eval hL hB e2 hN)]
  simp only [hW]
  generalize hNN : S * L * B * E = N at *
  have p4 : decide ((0:Int) ≤ 40 + (N:Int) + 64 + (W : Int) + 64) = true := by
    simp only [decide_eq_true_eq]; omega
  rw [p4]
  simp only [cassert_bind_true]
  rw [bind_ok (malloc_run _ _)]
  simp only [Int.toNat_natCast]
  have ms := memset_ok (off := 0) (k := N) (v := 0) (grow_holds m N (m.junk m.next)) (by omega)
  simp only [Int.natCast_zero] at ms
  rw [bind_ok ms, grow_put]
  have hm1' : m.grow N (fun p => if 0 ≤ p ∧ p < 0 + N then 0 else m.junk m.next p) = m.grow N (fun _ => 0) := by
    apply grow_congr; intro i hi; simp [hi]
  rw [hm1']
  rw [bind_ok (malloc_run _ _)]
  simp only [grow_next, grow_junk]
  set m2 := m.grow N (fun _ => 0) with hm2
  have gh := grow_holds m2 W (m.junk (m.next + 1))
  have ms := memset_ok (off := 0) (k := W) (v := 0) gh (by omega)
  simp only [Int.natCast_zero] at ms
  have en : m2.next = m.next + 1 := rfl
  rw [en] at ms gh
  rw [bind_ok ms]
  have e5 : (m2.grow W (m.junk (m.next + 1))).put (m.next + 1) W
      (fun p => if 0 ≤ p ∧ p < 0 + W then 0 else m.junk (m.next + 1) p)
      = m2.grow W (fun _ => 0) := by
    rw [← en, grow_put]
    apply grow_congr; intro i hi; simp [hi]
  rw [e5]
  have hlen : ¬ (((il ++ ['\x00']).take 3).length < 3) := by
    simp; omega
  rw [bind_ok (show memcpyIf _ none _ _ = .ok ((), _) from rfl), bind_ok (show memcpyIf _ none _ _ = .ok ((), _) from rfl)]
  rw [if_neg hlen]
  rfl

/-- a data type without element size never yields a cube -/
theorem create_badtype {m : Mem} {samples lines bands dt : Int} {il : List Char} {data wave : Option Nat}
    (hdt : elemBytes dt = none) {r : Option Nat} {m' : Mem} :
    create_hyper_mat_with_data samples lines bands dt il data wave m ≠ .ok (r, m') := by
  intro h
  by_cases hd : samples ≤ 0 ∨ lines ≤ 0 ∨ bands ≤ 0
  · rw [create_bad_dims hd] at h; cases h
  push Not at hd
  obtain ⟨h1, h2, h3⟩ := hd
  unfold create_hyper_mat_with_data at h
  rw [get_elemsize_none hdt] at h
  have p1 : decide (samples > 0) = true := by simpa using h1
  have p2 : decide (lines > 0) = true := by simpa using h2
  have p3 : decide (bands > 0) = true := by simpa using h3
  rw [p1, p2, p3] at h
  simp only [cassert_bind_true] at h
  -- the size expression is an error or a negative number
  have key : (∃ e, (CI.lit samples * CI.lit lines * CI.lit bands * CI.lit (-1) : CI) = CI.err e) ∨
      ∃ z : Int, z < 0 ∧ (CI.lit samples * CI.lit lines * CI.lit bands * CI.lit (-1) : CI) = CI.lit z := by
    by_cases c1 : CI.InR (samples * lines)
    · rw [CI.mul_ok c1]
      by_cases c2 : CI.InR (samples * lines * bands)
      · rw [CI.mul_ok c2]
        by_cases c3 : CI.InR (samples * lines * bands * (-1))
        · rw [CI.mul_ok c3]
          right
          refine ⟨_, ?_, rfl⟩
          have : 0 < samples * lines * bands := by positivity
          omega
        · rw [CI.mul_bad c3]; left; exact ⟨_, rfl⟩
      · rw [CI.mul_bad c2]; left; exact ⟨_, by simp; rfl⟩
    · rw [CI.mul_bad c1]; left; exact ⟨_, by simp; rfl⟩
  rcases key with ⟨e, he⟩ | ⟨z, hz, he⟩
  · rw [ev_err_bind he] at h; cases h
  · rw [ev_bind he] at h
    by_cases hc : 0 ≤ 40 + z + 64 + toInt32 (bands * 4) + 64
    · have hc : decide (0 ≤ 40 + z + 64 + toInt32 (bands * 4) + 64) = true := by simpa using hc
      simp only [hc, cassert_bind_true] at h
      rw [bind_ok (malloc_run _ _)] at h
      rw [bind_err (e := .ub .oob)] at h
      · cases h
      · unfold memset; rw [if_pos hz]; rfl
    · have hc : decide (0 ≤ 40 + z + 64 + toInt32 (bands * 4) + 64) = false := by simpa using hc
      simp only [hc, cassert_bind_false] at h
      cases h

end HyperCV
