/- Facts about `hypercv_atof`. -/
import Verif.Model.Atof
import Verif.Spec.Numeral
import Verif.Proof.FloatSum
import Verif.Proof.FloatRoot
import Verif.Proof.Text
import Verif.Props.Accuracy
import Verif.Proof.InvertExact

namespace HyperCV
open Spec Finset

theorem digit_facts : ∀ d : Fin 10, isDigitC (digit d) = true ∧ (digit d).toNat = 48 + d.val ∧ digit d ≠ ' ' ∧ digit d ≠ '-' ∧ digit d ≠ '+' := by
  decide

theorem natOf_snoc (l : List (Fin 10)) (d : Fin 10) : natOf (l ++ [d]) = 10 * natOf l + d := by
  simp [natOf, List.foldl_append]

/-! ### Text -/

theorem atofInt_digits (l : List (Fin 10)) (v : FV) (r : Text) :
    atofInt v (digits l ++ r) = atofInt ((digits l).foldl atofDigit v) r := by
  induction l generalizing v with
  | nil => rfl
  | cons d l ih =>
    show atofInt v (digit d :: (digits l ++ r)) = _
    rw [atofInt, if_pos (digit_facts d).1, ih]
    rfl

/-- spaces and sign -/
theorem splitSign_text (s : Option Bool) {r : Text} (hr : r = [] ∨ ∃ c r', r = c :: r' ∧ c ≠ ' ' ∧ c ≠ '-' ∧ c ≠ '+') (k : Nat) :
    splitSign ((List.replicate k ' ' ++ (signText s ++ r)).dropWhile (· = ' ')) = (decide (s = some true), r) := by
  have h1 : (List.replicate k ' ' ++ (signText s ++ r)).dropWhile (· = ' ') = signText s ++ r := by
    rw [List.dropWhile_append_of_pos (by intro c hc; simp [(List.mem_replicate.1 hc).2])]
    rcases s with _ | _ | _
    · rcases hr with rfl | ⟨c, r', rfl, hc, -⟩
      · rfl
      · show (c :: r').dropWhile _ = c :: r'
        rw [List.dropWhile_cons_of_neg (by simpa using hc)]
    · rfl
    · rfl
  rw [h1]
  rcases s with _ | _ | _
  · rcases hr with rfl | ⟨c, r', rfl, -, h2, h3⟩
    · rfl
    · show splitSign (c :: r') = _
      unfold splitSign
      split
      · rename_i e; exact absurd (List.cons.inj e).1 h2
      · rename_i e; exact absurd (List.cons.inj e).1 h3
      · rfl
  · rfl
  · rfl

/-- the integer part read from a text -/
def intFV (l : List (Fin 10)) : FV := (digits l).foldl atofDigit (.fin false 0)

theorem intFV_snoc (l : List (Fin 10)) (d : Fin 10) : intFV (l ++ [d]) = atofDigit (intFV l) (digit d) := by
  simp [intFV, digits, List.foldl_append]

/-- the function behind the spaces, the sign and the digits of the integer part -/
theorem atof_start (k : Nat) (s : Option Bool) (l : List (Fin 10)) {r : Text}
    (hr : l = [] → r = [] ∨ ∃ c r', r = c :: r' ∧ c ≠ ' ' ∧ c ≠ '-' ∧ c ≠ '+') :
    hypercv_atof (List.replicate k ' ' ++ (signText s ++ (digits l ++ r))) =
      match atofInt (intFV l) r with
      | (v, .other) => .ok v
      | (v, .done) => atofFinish (signVal s) v false false []
      | (v, .dot r) => atofFinish (signVal s) v true false r
      | (v, .exp r) => atofFinish (signVal s) v false true r := by
  have h1 : digits l ++ r = [] ∨ ∃ c r', digits l ++ r = c :: r' ∧ c ≠ ' ' ∧ c ≠ '-' ∧ c ≠ '+' := by
    cases l with
    | nil => exact hr rfl
    | cons d l => exact .inr ⟨digit d, digits l ++ r, rfl, (digit_facts d).2.2.1, (digit_facts d).2.2.2.1, (digit_facts d).2.2.2.2⟩
  unfold hypercv_atof
  rw [splitSign_text s h1 k]
  have h2 : (if decide (s = some true) = true then (-1:Int) else 1) = signVal s := by
    rcases s with _ | _ | _ <;> rfl
  simp only [h2]
  rw [atofInt_digits]
  rfl

/-- the decimals -/
def decFV : List (Fin 10) → Nat → FV → FV
  | [], _, v => v
  | d :: l, k, v => decFV l (k + 1) (atofDecimal v (digit d) (k : Int))

theorem decFV_append (l l' : List (Fin 10)) (k : Nat) (v : FV) : decFV (l ++ l') k v = decFV l' (k + l.length) (decFV l k v) := by
  induction l generalizing k v with
  | nil => rfl
  | cons d l ih =>
    show decFV (l ++ l') (k + 1) _ = _
    rw [ih, List.length_cons, Nat.add_assoc, Nat.add_comm 1]
    rfl

theorem atofTail_digits (l : List (Fin 10)) (e : Bool) (s : AtofState) (k : Nat) (hk : s.digits = k) (hb : k + l.length ≤ 2147483647) (r : Text) :
    atofTail true e s (digits l ++ r) = atofTail true e { s with dec := decFV l k s.dec, digits := ((k + l.length : Nat) : Int) } r := by
  induction l generalizing s k with
  | nil =>
    have : s = { s with dec := decFV [] k s.dec, digits := ((k + ([] : List (Fin 10)).length : Nat) : Int) } := by
      cases s
      simp only [List.length_nil, Nat.add_zero] at *
      rw [← hk]; rfl
    exact congrArg (fun s => atofTail true e s r) this
  | cons d l ih =>
    show atofTail true e s (digit d :: (digits l ++ r)) = _
    simp only [List.length_cons] at hb
    rw [atofTail, if_pos ⟨rfl, (digit_facts d).1⟩, hk]
    have h1 : (CI.lit (k:Int) + 1 : CI) = CI.lit ((k + 1 : Nat) : Int) := by
      rw [show (1 : CI) = CI.lit 1 from rfl, CI.add_ok (by constructor <;> omega)]
      push_cast; rfl
    rw [h1]
    show atofTail true e _ (digits l ++ r) = _
    rw [ih _ (k + 1) rfl (by omega)]
    simp only [List.length_cons, decFV]
    rw [show k + 1 + l.length = k + (l.length + 1) by omega]

theorem atofExp_ok {ex : Nat} (d : Fin 10) (h : 10 * ex + 57 ≤ 2147483647) : atofExp (ex:Int) (digit d) = .ok ((10 * ex + d.val : Nat) : Int) := by
  unfold atofExp
  rw [(digit_facts d).2.1, CI.mul_ok (by constructor <;> omega), CI.add_ok (by constructor <;> omega), CI.sub_ok (by constructor <;> omega)]
  show Except.ok _ = _
  congr 1
  push_cast
  ring

theorem natOf_mono (l l' : List (Fin 10)) : natOf l ≤ natOf (l ++ l') := by
  induction l' using List.reverseRecOn with
  | nil => simp
  | append_singleton l' d ih =>
    rw [← List.append_assoc, natOf_snoc]
    omega

theorem atofTail_exp (l : List (Fin 10)) (s : AtofState) (l0 : List (Fin 10)) (hs : s.exp = (natOf l0 : Nat))
    (hb : natOf (l0 ++ l) ≤ 214748000) (r : Text) :
    atofTail false true s (digits l ++ r) = atofTail false true { s with exp := (natOf (l0 ++ l) : Nat) } r := by
  induction l generalizing s l0 with
  | nil =>
    rw [List.append_nil]
    show atofTail false true s r = _
    congr 1
    cases s
    simp only at hs
    rw [hs]
  | cons d l ih =>
    show atofTail false true s (digit d :: (digits l ++ r)) = _
    have h0 := natOf_mono l0 (d :: l)
    rw [atofTail, if_neg (by simp), if_neg (by simp), if_pos ⟨rfl, (digit_facts d).1⟩, hs, atofExp_ok d (by omega)]
    rw [show l0 ++ d :: l = (l0 ++ [d]) ++ l by simp] at hb ⊢
    show atofTail false true _ (digits l ++ r) = _
    rw [ih _ (l0 ++ [d]) (by rw [natOf_snoc]) hb]

theorem atofRest_digits (l l0 : List (Fin 10)) (hb : natOf (l0 ++ l) ≤ 214748000) :
    atofRest (natOf l0 : Nat) (digits l) = .ok ((natOf (l0 ++ l) : Nat) : Int) := by
  induction l generalizing l0 with
  | nil => rw [List.append_nil]; rfl
  | cons d l ih =>
    have h0 := natOf_mono l0 (d :: l)
    show atofRest _ (digit d :: digits l) = _
    rw [atofRest, if_pos (digit_facts d).1, atofExp_ok d (by omega)]
    rw [show l0 ++ d :: l = (l0 ++ [d]) ++ l by simp] at hb ⊢
    show atofRest _ (digits l) = _
    rw [← natOf_snoc, ih _ hb]

/-- other characters than digits do not count in the last loop -/
theorem atofRest_filter (ex : Int) (r : Text) : atofRest ex r = atofRest ex (r.filter isDigitC) := by
  induction r generalizing ex with
  | nil => rfl
  | cons c r ih =>
    by_cases hc : isDigitC c = true
    · rw [List.filter_cons_of_pos hc, atofRest, atofRest, if_pos hc, if_pos hc]
      cases atofExp ex c with
      | error => rfl
      | ok x => exact ih x
    · rw [List.filter_cons_of_neg hc, atofRest, if_neg hc]
      exact ih ex

end HyperCV
