/- Facts about the table of DFT sizes and the binary search. -/
import Verif.Model.DftSize
import Verif.Base.Lemmas
import Mathlib.Tactic.Ring
import Mathlib.Tactic.Linarith

namespace HyperCV

/-- strictly increasing, in one pass -/
def incB : List Nat → Bool
  | x :: y :: l => Nat.blt x y && incB (y :: l)
  | _ => true

theorem incB_pairwise : ∀ l, incB l = true → l.Pairwise (· < ·)
  | [], _ => List.Pairwise.nil
  | [x], _ => by simp
  | x :: y :: l, h => by
    simp only [incB, Bool.and_eq_true, Nat.blt_eq] at h
    have ih := incB_pairwise (y :: l) h.2
    refine List.Pairwise.cons ?_ ih
    intro z hz
    rcases List.mem_cons.1 hz with rfl | hz
    · exact h.1
    · exact Nat.lt_trans h.1 ((List.pairwise_cons.1 ih).1 z hz)

/-- every element of the first (increasing) list occurs in the second, by merging; at most `n` steps -/
def subB : Nat → List Nat → List Nat → Bool
  | _, [], _ => true
  | n+1, x :: xs, y :: ys => if Nat.beq x y then subB n xs (y :: ys) else subB n (x :: xs) ys
  | _, _, _ => false

theorem subB_mem : ∀ n xs ys, subB n xs ys = true → ∀ x ∈ xs, x ∈ ys
  | _, [], _, _ => by simp
  | 0, x :: xs, ys, h => by simp [subB] at h
  | n+1, x :: xs, [], h => by simp [subB] at h
  | n+1, x :: xs, y :: ys, h => by
    unfold subB at h
    split at h
    · rename_i e
      have e' : x = y := Nat.eq_of_beq_eq_true e
      intro z hz
      rcases List.mem_cons.1 hz with rfl | hz
      · simp [e']
      · exact subB_mem n xs (y :: ys) h z hz
    · intro z hz
      exact List.mem_cons_of_mem _ (subB_mem n (x :: xs) ys h z hz)

/-- multiplicity of `p`, looking at most at `f` factors -/
def vp (p : Nat) : Nat → Nat → Nat
  | 0, _ => 0
  | f+1, x => if x % p = 0 then vp p f (x / p) + 1 else 0

def smoothB (x : Nat) : Bool :=
  Nat.beq x (2 ^ vp 2 32 x * 3 ^ vp 3 20 x * 5 ^ vp 5 14 x) && Nat.ble (vp 3 20 x) 14

set_option maxRecDepth 100000 in
theorem dtab_inc : incB optimal_DFT_sizetab = true := by decide +kernel

set_option maxRecDepth 100000 in
theorem dtab_smoothB : optimal_DFT_sizetab.all smoothB = true := by decide +kernel

set_option maxRecDepth 100000 in
theorem dtab_closed2 : subB 4000 ((optimal_DFT_sizetab.map (2 * ·)).filter (Nat.ble · 2125764000)) optimal_DFT_sizetab = true := by decide +kernel

set_option maxRecDepth 100000 in
theorem dtab_closed5 : subB 4000 ((optimal_DFT_sizetab.map (5 * ·)).filter (Nat.ble · 2125764000)) optimal_DFT_sizetab = true := by decide +kernel

set_option maxRecDepth 100000 in
theorem dtab_pow3 : ∀ b, b ≤ 14 → 3 ^ b ∈ optimal_DFT_sizetab := by
  have : ((List.range 15).all fun b => optimal_DFT_sizetab.contains (3 ^ b)) = true := by decide +kernel
  intro b hb
  have := List.all_eq_true.1 this b (List.mem_range.2 (by omega))
  simpa using this

theorem dtab_length : optimal_DFT_sizetab.length = 1651 := by decide +kernel

theorem dtab_last : optimal_DFT_sizetab[1650]? = some 2125764000 := by decide +kernel

theorem dtab_mem_smooth {x : Nat} (h : x ∈ optimal_DFT_sizetab) : ∃ a b c, b ≤ 14 ∧ x = 2 ^ a * 3 ^ b * 5 ^ c := by
  have := List.all_eq_true.1 dtab_smoothB x h
  simp only [smoothB, Bool.and_eq_true, Nat.ble_eq] at this
  exact ⟨_, _, _, this.2, Nat.eq_of_beq_eq_true this.1⟩

theorem dtab_mul2 {x : Nat} (h : x ∈ optimal_DFT_sizetab) (hx : 2 * x ≤ 2125764000) : 2 * x ∈ optimal_DFT_sizetab :=
  subB_mem _ _ _ dtab_closed2 _ (List.mem_filter.2 ⟨List.mem_map.2 ⟨x, h, rfl⟩, by simpa using hx⟩)

theorem dtab_mul5 {x : Nat} (h : x ∈ optimal_DFT_sizetab) (hx : 5 * x ≤ 2125764000) : 5 * x ∈ optimal_DFT_sizetab :=
  subB_mem _ _ _ dtab_closed5 _ (List.mem_filter.2 ⟨List.mem_map.2 ⟨x, h, rfl⟩, by simpa using hx⟩)

theorem dtab_complete (a b c : Nat) (hb : b ≤ 14) (h : 2 ^ a * 3 ^ b * 5 ^ c ≤ 2125764000) :
    2 ^ a * 3 ^ b * 5 ^ c ∈ optimal_DFT_sizetab := by
  induction c with
  | zero =>
    induction a with
    | zero => simpa using dtab_pow3 b hb
    | succ a ih =>
      have e : 2 ^ (a+1) * 3 ^ b * 5 ^ 0 = 2 * (2 ^ a * 3 ^ b * 5 ^ 0) := by ring
      rw [e] at h ⊢
      exact dtab_mul2 (ih (by omega)) h
  | succ c ih =>
    have e : 2 ^ a * 3 ^ b * 5 ^ (c+1) = 5 * (2 ^ a * 3 ^ b * 5 ^ c) := by ring
    rw [e] at h ⊢
    exact dtab_mul5 (ih (by omega)) h

theorem dtab_get {i : Nat} (hi : i < 1651) : ∃ t, optimal_DFT_sizetab[i]? = some t :=
  ⟨optimal_DFT_sizetab[i]'(by rw [dtab_length]; exact hi), List.getElem?_eq_getElem _⟩

theorem dtab_lt {i j s t : Nat} (hi : optimal_DFT_sizetab[i]? = some s) (hj : optimal_DFT_sizetab[j]? = some t) (h : i < j) : s < t := by
  obtain ⟨h1, rfl⟩ := List.getElem?_eq_some_iff.1 hi
  obtain ⟨h2, rfl⟩ := List.getElem?_eq_some_iff.1 hj
  exact List.pairwise_iff_getElem.1 (incB_pairwise _ dtab_inc) i j h1 h2 h

theorem dtab_le {i j s t : Nat} (hi : optimal_DFT_sizetab[i]? = some s) (hj : optimal_DFT_sizetab[j]? = some t) (h : i ≤ j) : s ≤ t := by
  rcases Nat.eq_or_lt_of_le h with rfl | h
  · rw [hi] at hj; cases hj; exact Nat.le_refl _
  · exact Nat.le_of_lt (dtab_lt hi hj h)

theorem search_run (n : Int) : ∀ fuel a b, a ≤ b → b ≤ 1650 → b - a ≤ fuel →
    (∀ (i t : Nat), i < a → optimal_DFT_sizetab[i]? = some t → (t:Int) < n) → (∀ t : Nat, optimal_DFT_sizetab[b]? = some t → n ≤ t) →
    ∃ r t, dftSearch n fuel a b = .ok r ∧ optimal_DFT_sizetab[r]? = some t ∧ n ≤ t ∧
      ∀ i t, i < r → optimal_DFT_sizetab[i]? = some t → (t:Int) < n := by
  intro fuel
  induction fuel with
  | zero =>
    intro a b hab hb hf ha hbt
    have : a = b := by omega
    subst this
    obtain ⟨t, ht⟩ := dtab_get (i := a) (by omega)
    refine ⟨a, t, ?_, ht, hbt t ht, ha⟩
    unfold dftSearch; rw [if_neg (by omega)]
  | succ f ih =>
    intro a b hab hb hf ha hbt
    unfold dftSearch
    by_cases h : a < b
    · rw [if_pos h]
      obtain ⟨t, ht⟩ := dtab_get (i := (a+b)/2) (by omega)
      rw [ht]
      by_cases hc : n ≤ (t:Int)
      · simp only [hc, if_true]
        exact ih a ((a+b)/2) (by omega) (by omega) (by omega) ha
          (fun t' h' => by rw [ht] at h'; cases h'; exact hc)
      · simp only [hc, if_false]
        refine ih ((a+b)/2+1) b (by omega) hb (by omega) ?_ hbt
        intro i s hi hs
        have := dtab_le hs ht (by omega)
        omega
    · have : a = b := by omega
      subst this
      rw [if_neg h]
      obtain ⟨t, ht⟩ := dtab_get (i := a) (by omega)
      exact ⟨a, t, rfl, ht, hbt t ht, ha⟩

theorem dft_size_run {n : Int} (h0 : 0 ≤ n) (h : n < 2125764000) :
    ∃ t : Nat, get_optimal_DFT_size n = .ok (t:Int) ∧ t ∈ optimal_DFT_sizetab ∧ n ≤ t ∧ ∀ s ∈ optimal_DFT_sizetab, n ≤ (s:Int) → t ≤ s := by
  have hl := dtab_length
  obtain ⟨r, t, h1, h2, h3, h4⟩ := search_run n 1651 0 1650 (by omega) (by omega) (by omega)
    (fun _ _ h => by omega) (fun t ht => by rw [dtab_last] at ht; cases ht; omega)
  refine ⟨t, ?_, List.mem_of_getElem? h2, h3, ?_⟩
  · unfold get_optimal_DFT_size
    rw [hl]
    simp only [show 1651 - 1 = 1650 from rfl, dtab_last]
    rw [if_neg (by unfold u32; omega), h1]
    show (match optimal_DFT_sizetab[r]? with | none => Except.error (Err.ub UB.oob) | some v => .ok (v:Int)) = _
    rw [h2]
  · intro s hs hn
    obtain ⟨i, hi, rfl⟩ := List.getElem_of_mem hs
    have hi' := List.getElem?_eq_getElem hi
    by_contra hc
    by_cases hir : i < r
    · have := h4 i _ hir hi'
      omega
    · have := dtab_le h2 hi' (by omega)
      omega

theorem dft_size_big {n : Int} (h : n < 0 ∧ -2147483648 ≤ n ∨ 2125764000 ≤ n ∧ n ≤ 2147483647) :
    get_optimal_DFT_size n = .ok (-1) := by
  unfold get_optimal_DFT_size
  rw [dtab_length]
  simp only [show 1651 - 1 = 1650 from rfl, dtab_last]
  rw [if_pos (by unfold u32; omega)]

end HyperCV
