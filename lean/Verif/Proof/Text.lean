import Verif.Model.Header
import Verif.Proof.HyperMat
import Verif.Proof.FloatFacts
import Mathlib.Tactic.Ring
import Mathlib.Tactic.Linarith
import Mathlib.Tactic.IntervalCases

namespace HyperCV
open Spec

/-! ### Decimal digits -/

theorem digitChar_facts : ∀ d, d < 10 → isDigitC (digitChar d) = true ∧ (digitChar d).toNat - 48 = d := by
  decide

theorem decNat_digit (n : Nat) : ∀ c ∈ decNat n, isDigitC c = true := by
  induction n using Nat.strong_induction_on with
  | _ n ih =>
    intro c hc
    rw [decNat] at hc
    split at hc
    · rename_i h
      rw [List.mem_singleton] at hc
      rw [hc]; exact (digitChar_facts n h).1
    · rename_i h
      rw [List.mem_append, List.mem_singleton] at hc
      rcases hc with hc | hc
      · exact ih (n / 10) (by omega) c hc
      · rw [hc]; exact (digitChar_facts _ (by omega)).1

theorem decNat_ne (n : Nat) : decNat n ≠ [] := by
  rw [decNat]; split <;> simp

theorem digitsVal_append (a b : Text) : digitsVal (a ++ b) = b.foldl (fun a c => a * 10 + (c.toNat - 48)) (digitsVal a) := by
  simp [digitsVal, List.foldl_append]

theorem digitsVal_decNat (n : Nat) : digitsVal (decNat n) = n := by
  induction n using Nat.strong_induction_on with
  | _ n ih =>
    rw [decNat]
    split
    · rename_i h
      simp [digitsVal, (digitChar_facts n h).2]
    · rename_i h
      rw [digitsVal_append, ih (n / 10) (by omega)]
      simp only [List.foldl_cons, List.foldl_nil, (digitChar_facts (n % 10) (by omega)).2]
      omega

theorem decNat_length (k : Nat) : ∀ n, n < 10 ^ (k + 1) → (decNat n).length ≤ k + 1 := by
  induction k with
  | zero => intro n h; rw [decNat, if_pos (by simpa using h)]; simp
  | succ k ih =>
    intro n h
    rw [decNat]
    split
    · simp
    · rw [List.length_append]
      have : n / 10 < 10 ^ (k + 1) := by
        rw [Nat.div_lt_iff_lt_mul (by norm_num)]; rw [pow_succ] at h; exact h
      have := ih (n / 10) this
      simp; omega

theorem takeWhile_digits {l r : Text} (hl : ∀ c ∈ l, isDigitC c = true) (hr : ∀ c, r.head? = some c → isDigitC c = false) :
    (l ++ r).takeWhile isDigitC = l := by
  rw [List.takeWhile_append_of_pos hl]
  cases r with
  | nil => simp
  | cons c r => simp [List.takeWhile_cons, hr c rfl]

theorem dropWhile_digits {l r : Text} (hl : ∀ c ∈ l, isDigitC c = true) (hr : ∀ c, r.head? = some c → isDigitC c = false) :
    (l ++ r).dropWhile isDigitC = r := by
  rw [List.dropWhile_append_of_pos hl]
  cases r with
  | nil => simp
  | cons c r => simp [List.dropWhile_cons, hr c rfl]

theorem digit_not_space {c : Char} (h : isDigitC c = true) : isSpaceC c = false := by
  unfold isDigitC at h; unfold isSpaceC
  rw [Bool.and_eq_true, decide_eq_true_eq, decide_eq_true_eq] at h
  have h1 : c ≠ ' ' := by rintro rfl; exact absurd h.1 (by decide)
  simp [h1]; omega

theorem digit_ne {c d : Char} (h : isDigitC c = true) (hd : isDigitC d = false) : c ≠ d := by
  rintro rfl; rw [h] at hd; exact absurd hd (by decide)

theorem decInt_cases (x : Int) : ∃ (s : Bool), decInt x = (if s = true then ['-'] else []) ++ decNat x.natAbs ∧
    x = if s = true then -(x.natAbs : Int) else x.natAbs := by
  unfold decInt
  by_cases h : x < 0
  · exact ⟨true, by simp [h], by rw [if_pos rfl]; omega⟩
  · exact ⟨false, by simp [h], by rw [if_neg (by decide)]; omega⟩

theorem splitSign_digits {l : Text} (s : Bool) (hl : ∀ c, l.head? = some c → isDigitC c = true) :
    splitSign ((if s = true then ['-'] else []) ++ l) = (s, l) := by
  cases s
  · cases l with
    | nil => rfl
    | cons c l =>
      have h := hl c rfl
      have h1 : c ≠ '-' := digit_ne h (by decide)
      have h2 : c ≠ '+' := digit_ne h (by decide)
      show splitSign (c :: l) = _
      unfold splitSign
      split
      · rename_i e; exact absurd (List.cons.inj e).1 h1
      · rename_i e; exact absurd (List.cons.inj e).1 h2
      · rfl
  · rfl

theorem head_append {l r : Text} (h : l ≠ []) : (l ++ r).head? = l.head? := by
  cases l with
  | nil => exact absurd rfl h
  | cons => rfl

theorem signed_no_space (s : Bool) {l : Text} (hl : ∀ c, l.head? = some c → isDigitC c = true) (hne : l ≠ []) :
    ((if s = true then ['-'] else []) ++ l).dropWhile isSpaceC = (if s = true then ['-'] else []) ++ l := by
  cases s
  · cases l with
    | nil => exact absurd rfl hne
    | cons c l => simp [List.dropWhile_cons, digit_not_space (hl c rfl)]
  · have : isSpaceC '-' = false := by decide
    simp [List.dropWhile_cons, this]

theorem decNat_head (n : Nat) : ∀ c, (decNat n).head? = some c → isDigitC c = true := by
  intro c hc
  exact decNat_digit n c (List.mem_of_mem_head? hc)

/-- reading back `%d` -/
theorem scanD_decInt {x : Int} (hx : CI.InR x) {r : Text} (hr : ∀ c, r.head? = some c → isDigitC c = false) (m : Mem) :
    scanD (' ' :: (decInt x ++ r)) m = .ok (some x, m) := by
  obtain ⟨s, e1, e2⟩ := decInt_cases x
  unfold scanD
  have hh : ∀ c, (decNat x.natAbs ++ r).head? = some c → isDigitC c = true := by
    intro c hc; rw [head_append (decNat_ne _)] at hc; exact decNat_head _ c hc
  have d : (' ' :: (decInt x ++ r)).dropWhile isSpaceC = (if s = true then ['-'] else []) ++ (decNat x.natAbs ++ r) := by
    have : isSpaceC ' ' = true := by decide
    rw [List.dropWhile_cons, if_pos this, e1, List.append_assoc]
    exact signed_no_space s hh (by simp [decNat_ne])
  rw [d, splitSign_digits s hh]
  dsimp only
  rw [takeWhile_digits (decNat_digit _) hr, if_neg (decNat_ne _), digitsVal_decNat, ← e2, if_pos hx]
  rfl

theorem afterEq_key {k r : Text} (hne : k ≠ []) (hk : ∀ c ∈ k, c ≠ '=') : afterEq (k ++ '=' :: r) = some r := by
  have e1 : (k ++ '=' :: r).takeWhile (· ≠ '=') = k := by
    rw [List.takeWhile_append_of_pos (by simpa using hk)]; simp
  have e2 : (k ++ '=' :: r).dropWhile (· ≠ '=') = '=' :: r := by
    rw [List.dropWhile_append_of_pos (by simpa using hk)]; simp
  unfold afterEq
  rw [e1, e2]
  cases k with
  | nil => exact absurd rfl hne
  | cons => rfl

theorem scanField_key {k r : Text} {x t : Int} (hne : k ≠ []) (hk : ∀ c ∈ k, c ≠ '=') (hx : CI.InR x)
    (hr : ∀ c, r.head? = some c → isDigitC c = false) (m : Mem) :
    scanField (k ++ '=' :: ' ' :: (decInt x ++ r)) t m = .ok (x, m) := by
  unfold scanField
  rw [afterEq_key hne hk]
  show (scanD (' ' :: (decInt x ++ r)) >>= _) m = _
  rw [bind_ok (scanD_decInt hx hr m)]
  rfl

theorem scanItem_key {k r : Text} {o : Option Text} (hne : k ≠ []) (hk : ∀ c ∈ k, c ≠ '=') :
    scanItem (k ++ '=' :: r) o = some k := by
  have e1 : (k ++ '=' :: r).takeWhile (· ≠ '=') = k := by
    rw [List.takeWhile_append_of_pos (by simpa using hk)]; simp
  unfold scanItem
  rw [e1]
  cases k with
  | nil => exact absurd rfl hne
  | cons => rfl

/-! ### Lines -/

theorem fgetsAux_line (l rest : Text) (hl : ∀ c ∈ l, c ≠ '\n') : ∀ (room : Nat) (acc : Text), l.length < room →
    fgetsAux room acc (l ++ '\n' :: rest) = (acc.reverse ++ l ++ ['\n']) :: fgetsLines rest := by
  induction l with
  | nil =>
    intro room acc h
    show fgetsAux room acc ('\n' :: rest) = _
    rw [fgetsAux, if_pos (Or.inl rfl)]
    simp [fgetsLines]
  | cons c l ih =>
    intro room acc h
    rw [List.length_cons] at h
    show fgetsAux room acc (c :: (l ++ '\n' :: rest)) = _
    rw [fgetsAux, if_neg]
    · rw [ih (fun d hd => hl d (by simp [hd])) (room - 1) (c :: acc) (by omega)]
      simp
    · rintro (h1 | h1)
      · exact hl c (by simp) h1
      · omega

/-- a complete line is read as one line -/
theorem fgets_line {l rest : Text} (hl : ∀ c ∈ l, c ≠ '\n') (hlen : l.length < 9999) :
    fgetsLines (l ++ '\n' :: rest) = (l ++ ['\n']) :: fgetsLines rest := by
  have := fgetsAux_line l rest hl 9999 [] hlen
  simpa [fgetsLines] using this

theorem fgetsAux_chunks : ∀ (s acc : Text) (room : Nat), 0 < room → (∀ c ∈ s, c ≠ '\n') →
    (fgetsAux room acc s).flatten = acc.reverse ++ s ∧ ∀ l ∈ fgetsAux room acc s, l ≠ [] ∧ ∀ c ∈ l, c ∈ acc ∨ c ∈ s := by
  intro s
  induction s with
  | nil =>
    intro acc room h0 h
    rw [fgetsAux]
    split
    · rename_i e; simp [e]
    · rename_i e; simp [e]
  | cons c s ih =>
    intro acc room h0 h
    rw [fgetsAux]
    split
    · rename_i e
      obtain ⟨h1, h2⟩ := ih [] 9999 (by norm_num) (fun d hd => h d (by simp [hd]))
      refine ⟨by simp [h1], ?_⟩
      intro l hl
      rw [List.mem_cons] at hl
      rcases hl with rfl | hl
      · refine ⟨by simp, fun d hd => ?_⟩
        simp at hd ⊢
        tauto
      · obtain ⟨h3, h4⟩ := h2 l hl
        refine ⟨h3, fun d hd => ?_⟩
        have := h4 d hd
        simp at this ⊢
        tauto
    · rename_i e
      obtain ⟨h1, h2⟩ := ih (c :: acc) (room - 1) (by simp at e; omega) (fun d hd => h d (by simp [hd]))
      refine ⟨by simp [h1], fun l hl => ?_⟩
      obtain ⟨h3, h4⟩ := h2 l hl
      refine ⟨h3, fun d hd => ?_⟩
      have := h4 d hd
      simp at this ⊢
      tauto

/-- a text without end of line is read in pieces -/
theorem fgets_chunks {s : Text} (h : ∀ c ∈ s, c ≠ '\n') :
    (fgetsLines s).flatten = s ∧ ∀ l ∈ fgetsLines s, l ≠ [] ∧ ∀ c ∈ l, c ∈ s := by
  have := fgetsAux_chunks s [] 9999 (by norm_num) h
  simpa [fgetsLines] using this

theorem cstr_of {l : Text} (h : ∀ c ∈ l, c ≠ '\x00') : cstr l = l := by
  have := cstr_append (a := l) (b := []) h
  simpa [cstr] using this

/-- the characters of the wavelength entries are collected from all lines -/
theorem collectWave_all (body : Text) (hb : ∀ c ∈ body, c ≠ '\n' ∧ c ≠ '\x00' ∧ c ≠ '}') :
    ∀ (ls : List Text) (line : Text), '}' ∉ line → ls.flatten = body ++ ['}'] → (∀ l ∈ ls, l ≠ []) →
    collectWave line ls = (body ++ ['}'], []) := by
  intro ls
  induction ls generalizing body with
  | nil => intro line h1 h2; simp at h2
  | cons l ls ih =>
    intro line h1 h2 h3
    rw [collectWave, if_neg h1]
    rw [List.flatten_cons] at h2
    by_cases hl : '}' ∈ l
    · have hls : ls = [] := by
        by_contra hc
        have : ls.flatten ≠ [] := by
          obtain ⟨a, ls', rfl⟩ := List.exists_cons_of_ne_nil hc
          have := h3 a (by simp)
          simp [this]
        obtain ⟨a, z, e⟩ := List.eq_nil_or_concat ls.flatten |>.resolve_left this
        have e' : ls.flatten = a ++ [z] := by simpa using e
        rw [e', ← List.append_assoc] at h2
        have h4 := (List.append_inj' h2 rfl).1
        have : '}' ∈ body := by rw [← h4]; simp [hl]
        exact (hb _ this).2.2 rfl
      subst hls
      rw [List.flatten_nil, List.append_nil] at h2
      subst h2
      rw [cstr_of (by
        intro c hc
        rw [List.mem_append, List.mem_singleton] at hc
        rcases hc with hc | rfl
        · exact (hb c hc).2.1
        · decide)]
      have : (body ++ ['}']).filter (· ≠ '\n') = body ++ ['}'] := by
        rw [List.filter_eq_self]
        intro c hc
        rw [List.mem_append, List.mem_singleton] at hc
        rcases hc with hc | rfl
        · simpa using (hb c hc).1
        · decide
      simp only [collectWave, this, List.append_nil]
    · have hp : ∃ b', body = l ++ b' := by
        rcases List.eq_nil_or_concat ls.flatten with e | ⟨a, z, e⟩
        · rw [e, List.append_nil] at h2
          exact absurd (by rw [h2]; simp) hl
        · have e' : ls.flatten = a ++ [z] := by simpa using e
          rw [e', ← List.append_assoc] at h2
          exact ⟨a, (List.append_inj' h2 rfl).1.symm⟩
      obtain ⟨b', rfl⟩ := hp
      have h5 : ls.flatten = b' ++ ['}'] := by
        rw [List.append_assoc] at h2; exact List.append_cancel_left h2
      rw [cstr_of (fun c hc => (hb c (by simp [hc])).2.1)]
      have hf : l.filter (· ≠ '\n') = l := by
        rw [List.filter_eq_self]
        intro c hc
        simpa using (hb c (by simp [hc])).1
      rw [ih b' (fun c hc => hb c (by simp [hc])) l hl h5 (fun a ha => h3 a (by simp [ha]))]
      dsimp only
      rw [hf, List.append_assoc]

end HyperCV
