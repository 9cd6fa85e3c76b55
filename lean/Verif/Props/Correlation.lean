/- C116: the correlation matrices of integer matrices. -/
import Verif.Props.Matrix

namespace HyperCV
open Spec

/-! ### The specification -/

/-- the integer element types of the correlation routines -/
inductive Spec.IntKind
  | char | uchar | short | ushort | int | uint
  deriving DecidableEq

/-- bytes of an element -/
def Spec.IntKind.width : IntKind → Nat
  | .char | .uchar => 1
  | .short | .ushort => 2
  | .int | .uint => 4

/-- the number an element of this type stands for -/
def Spec.IntKind.number : IntKind → Nat → Int
  | .char, b => signed 1 b
  | .uchar, b => b
  | .short, b => signed 2 b
  | .ushort, b => b
  | .int, b => signed 4 b
  | .uint, b => b

/-- the number is a value of the type -/
def Spec.IntKind.Has : IntKind → Int → Prop
  | .char, v => -128 ≤ v ∧ v ≤ 127
  | .uchar, v => 0 ≤ v ∧ v ≤ 255
  | .short, v => -32768 ≤ v ∧ v ≤ 32767
  | .ushort, v => 0 ≤ v ∧ v ≤ 65535
  | .int, v => -2147483648 ≤ v ∧ v ≤ 2147483647
  | .uint, v => 0 ≤ v ∧ v ≤ 4294967295

/-- the entries of the product of two matrices of this type, or the sum of the first `k` terms -/
def Spec.IntKind.prod (t : IntKind) (X Y : Nat → Nat → Nat) (k i j : Nat) : Int :=
  prodEntry (fun a b => t.number (X a b)) (fun a b => t.number (Y a b)) k i j

/-- the routine for the type -/
def correlation_matrix_of : IntKind → Nat → Nat → Nat → Int → Int → Int → M Unit
  | .char => correlation_matrix_char
  | .uchar => correlation_matrix_uchar
  | .short => correlation_matrix_short
  | .ushort => correlation_matrix_ushort
  | .int => correlation_matrix_int
  | .uint => correlation_matrix_uint

/-! ### The division -/

theorem quo_run {m : Mem} {z w N : Nat} {n : Int} {f g : Nat → Nat} {quo : Nat → Int → Except Err Nat} (h : HoldsN m z w N f)
    (hq : ∀ p, p < N → quo (f p) n = .ok (g p)) (hg : ∀ p, p < N → g p < 256 ^ w) :
    forI 0 (N:Int) (fun i => do
      let v ← loadN w z i
      let r ← liftE (quo v n)
      storeN w z i r) m = .ok ((), m.putN z w N g) := by
  have z0 : m.putN z w N (fun q => if q < 0 then g q else f q) = m := (putN_congr m (fun _ _ => if_neg (by omega))).trans h.put_self
  have z1 : m.putN z w N (fun q => if q < N then g q else f q) = m.putN z w N g := putN_congr m (fun _ hq => if_pos hq)
  have run := forI_run (n := N) (body := fun i => do
      let v ← loadN w z i
      let r ← liftE (quo v n)
      storeN w z i r) (fun t => m.putN z w N (fun q => if q < t then g q else f q)) (by
    intro p hp
    beta_reduce
    have ft : ∀ q, q < N → (if q < p then g q else f q) < 256 ^ w := by
      intro q hq
      split
      · exact hg q hq
      · exact h.2 q hq
    rw [bind_ok ((holdsN_putN m ft).load hp), if_neg (lt_irrefl _), bind_ok (liftE_ok (hq p hp) _), storeN_put hp]
    refine congrArg (fun x => Except.ok ((), x)) (putN_congr m ?_)
    intro q _
    by_cases e : q = p
    · subst e
      rw [if_pos rfl, if_pos (by omega), Nat.mod_eq_of_lt (hg q hp)]
    · rw [if_neg e]
      by_cases e2 : q < p
      · rw [if_pos e2, if_pos (by omega)]
      · rw [if_neg e2, if_neg (by omega)])
  rw [z0, z1] at run
  exact run

/-- product, then division of every entry -/
theorem corr_run {mem mem' : Mem} {x y z w l n m : Nat} {mac : Nat → Nat → Nat → Except Err Nat} {quo : Nat → Int → Except Err Nat}
    {P Q : Nat → Nat → Nat} (h1 : mulMatrix w mac x y z l n m mem = .ok ((), mem')) (h2 : OnlyBlock mem mem' z) (h3 : IsMat mem' z w l m P)
    (hq : ∀ i j, i < l → j < m → quo (P i j) n = .ok (Q i j)) (hQ : ∀ i j, i < l → j < m → Q i j < 256 ^ w) (b : l * m ≤ 2147483647) :
    ∃ mem'', correlation w mac quo z x y l n m mem = .ok ((), mem'') ∧ OnlyBlock mem mem'' z ∧ IsMat mem'' z w l m Q := by
  have e1 : (CI.lit (l:Int) * CI.lit (m:Int) : CI) = CI.lit ((l * m : Nat) : Int) := by
    rw [CI.mul_ok (by constructor <;> ((try norm_cast) <;> omega))]
    push_cast; rfl
  refine ⟨mem'.putM z w l m Q, ?_, ?_, isMat_iff.2 (holdsM_putM mem' hQ)⟩
  · unfold correlation
    rw [bind_ok h1, bind_ok (ev_ok e1 _)]
    exact quo_run (isMat_iff.1 h3) (fun p hp => hq _ _ (flat_split hp).1 (flat_split hp).2.1) (Fits.fl hQ)
  · have := onlyBlock_putM mem' z w l m Q
    obtain ⟨a1, a2, a3, a4⟩ := h2
    obtain ⟨c1, c2, c3, c4⟩ := this
    exact ⟨c1.trans a1, c2.trans a2, c3.trans a3, fun b hb => (c4 b hb).trans (a4 b hb)⟩

theorem tdiv_between {a K : Int} {n : Nat} (hn : 0 < n) (h1 : -K ≤ a) (h2 : a ≤ K - 1) : -K ≤ a.tdiv n ∧ a.tdiv n ≤ K - 1 := by
  rcases le_total 0 a with h | h
  · have e1 := Int.tdiv_nonneg h (Int.natCast_nonneg n)
    have e2 := Int.tdiv_le_self (n:Int) h
    omega
  · have h' : 0 ≤ -a := by omega
    have e1 := Int.tdiv_nonneg h' (Int.natCast_nonneg n)
    have e2 := Int.tdiv_le_self (n:Int) h'
    rw [Int.neg_tdiv] at e1 e2
    omega

theorem quoSigned_ok {w b n : Nat} (hw : w = 1 ∨ w = 2 ∨ w = 4) (hb : b < 256 ^ w) (hn : 0 < n) :
    quoSigned w b n = .ok (bitsOf w ((signed w b).tdiv n)) ∧ signed w (bitsOf w ((signed w b).tdiv n)) = (signed w b).tdiv n := by
  have r := sval_range hw hb
  have r2 := tdiv_between hn r.1 r.2
  have e : signed w b = sval w b := rfl
  rw [e]
  constructor
  · unfold quoSigned
    rw [CI.div_ok (by omega) (by rcases hw with rfl | rfl | rfl <;> constructor <;> omega)]
    rfl
  · exact signed_bitsOf (by omega) (by omega) (by omega)

theorem quoPromoted_ok {w b n : Nat} (hw : w = 1 ∨ w = 2) (hb : b < 256 ^ w) (hn : 0 < n) : quoPromoted w b n = .ok (b / n) := by
  have e : ((b:Int)).tdiv (n:Int) = ((b / n : Nat) : Int) := by rw [Int.tdiv_eq_ediv_of_nonneg (by omega)]; rfl
  have l := Nat.div_le_self b n
  have l0 := Nat.zero_le (b / n)
  generalize hk : b / n = k at *
  unfold quoPromoted
  rw [CI.div_ok (by omega) (by rw [e]; rcases hw with rfl | rfl <;> constructor <;> omega), e]
  exact congrArg Except.ok (bitsOf_self (by omega))

theorem quoUint_ok {b n : Nat} (hn : 0 < n) (hn' : n ≤ 2147483647) : quoUint b n = .ok (b / n) := by
  have e : u32 (n:Int) = n := by unfold u32; omega
  unfold quoUint
  rw [e, if_neg (by omega)]
  rfl

/-- what the routines compute from the sum `s` of the previous entry and the entry of the product: `s` is reduced to the value of the type
that differs from it by a multiple of 2^(8w), and that value is divided by `n`, towards zero -/
def Spec.IntKind.Quotient (t : IntKind) (s : Int) (n : Nat) (r : Int) : Prop :=
  ∃ u, t.Has u ∧ (256:Int) ^ t.width ∣ u - s ∧ r = u.tdiv n

theorem corr_signed {mem mem' : Mem} {x y z w l n m : Nat} {mac : Nat → Nat → Nat → Except Err Nat} {P : Nat → Nat → Nat}
    (hw : w = 1 ∨ w = 2 ∨ w = 4) (hn : 0 < n) (h1 : mulMatrix w mac x y z l n m mem = .ok ((), mem')) (h2 : OnlyBlock mem mem' z)
    (h3 : IsMat mem' z w l m P) (b : l * m ≤ 2147483647) :
    ∃ mem'' Q, correlation w mac (quoSigned w) z x y l n m mem = .ok ((), mem'') ∧ OnlyBlock mem mem'' z ∧ IsMat mem'' z w l m Q ∧
      ∀ i j, i < l → j < m → signed w (Q i j) = (signed w (P i j)).tdiv n := by
  have f := (isMat_iff.1 h3).fits
  obtain ⟨mem'', a1, a2, a3⟩ := corr_run (quo := quoSigned w) (Q := fun i j => bitsOf w ((signed w (P i j)).tdiv n)) h1 h2 h3
    (fun i j hi hj => (quoSigned_ok hw (f i j hi hj) hn).1) (fun _ _ _ _ => bitsOf_lt w _) b
  exact ⟨mem'', _, a1, a2, a3, fun i j hi hj => (quoSigned_ok hw (f i j hi hj) hn).2⟩

theorem corr_unsigned {mem mem' : Mem} {x y z w l n m : Nat} {mac : Nat → Nat → Nat → Except Err Nat} {quo : Nat → Int → Except Err Nat}
    {P : Nat → Nat → Nat} (hq : ∀ b, b < 256 ^ w → 0 < l → quo b n = .ok (b / n))
    (h1 : mulMatrix w mac x y z l n m mem = .ok ((), mem')) (h2 : OnlyBlock mem mem' z) (h3 : IsMat mem' z w l m P) (b : l * m ≤ 2147483647) :
    ∃ mem'' Q, correlation w mac quo z x y l n m mem = .ok ((), mem'') ∧ OnlyBlock mem mem'' z ∧ IsMat mem'' z w l m Q ∧
      ∀ i j, i < l → j < m → (Q i j : Int) = ((P i j : Nat) : Int).tdiv n := by
  have f := (isMat_iff.1 h3).fits
  obtain ⟨mem'', a1, a2, a3⟩ := corr_run (quo := quo) (Q := fun i j => P i j / n) h1 h2 h3
    (fun i j hi hj => hq _ (f i j hi hj) (by omega))
    (fun i j hi hj => lt_of_le_of_lt (Nat.div_le_self _ _) (f i j hi hj)) b
  exact ⟨mem'', _, a1, a2, a3, fun i j hi hj => by rw [Int.tdiv_eq_ediv_of_nonneg (by omega)]; rfl⟩

theorem signed_dvd (w b : Nat) : (256:Int) ^ w ∣ signed w b - b := by
  unfold signed
  split
  · simp
  · exact ⟨-1, by ring⟩

theorem toNat_emod_dvd {v M : Int} (hM : 0 < M) : M ∣ (((v % M).toNat : Nat) : Int) - v := by
  rw [Int.toNat_of_nonneg (Int.emod_nonneg _ (by omega))]
  exact ⟨-(v / M), by have := Int.emod_add_mul_ediv v M; linarith⟩

theorem toNat_emod_lt {v M : Int} (hM : 0 < M) : (((v % M).toNat : Nat) : Int) < M := by
  rw [Int.toNat_of_nonneg (Int.emod_nonneg _ (by omega))]
  exact Int.emod_lt_of_pos _ hM

theorem signed_red {w Zb : Nat} {s M : Int} (hM : M = 256 ^ w) :
    (256:Int) ^ w ∣ signed w ((((Zb:Int) + s) % M).toNat) - (signed w Zb + s) := by
  subst hM
  have h1 := signed_dvd w ((((Zb:Int) + s) % 256 ^ w).toNat)
  have h2 := toNat_emod_dvd (v := (Zb:Int) + s) (M := 256 ^ w) (by positivity)
  have h3 := signed_dvd w Zb
  have h4 := dvd_sub (dvd_add h1 h2) h3
  refine h4.trans (dvd_of_eq ?_)
  ring

/-! ### C116 -/

section
variable {mem : Mem} {x y z l n m : Nat} {X Y Z : Nat → Nat → Nat} {t : IntKind}

/-- the arithmetic stays inside `int` where the language requires it: for `int` the products and the partial sums, for `unsigned short`
(whose products are computed in `int`) the products.  Always true of the other types. -/
def Spec.IntKind.NoOverflow (t : IntKind) (X Y Z : Nat → Nat → Nat) (l n m : Nat) : Prop :=
  (t = .int → ∀ i j k, i < l → j < m → (k < n → CI.InR (signed 4 (X i k) * signed 4 (Y k j))) ∧
    (k ≤ n → CI.InR (signed 4 (Z i j) + t.prod X Y k i j))) ∧
  (t = .ushort → ∀ i j k, i < l → j < m → k < n → X i k * Y k j ≤ 2147418112)

/-- **C116**, what the routines compute, for all matrices of all sizes and all types: the previous entry plus the entry of the product, as
a value of the type (modulo 2^(8w)), divided by `n` towards zero; only the result is written.
Missing for the full property (the entry of the product divided by `n`): independence of the previous contents (`C116_refuted_previous`),
sums that do not fit the type although the quotient does (`C116_refuted_range`), and matrices whose sums overflow `int`
(`C116_refuted_overflow`). -/
theorem C116_any_partial (h : MulArgs mem x y z t.width l n m X Y Z) (hn : 0 < n) (ho : t.NoOverflow X Y Z l n m) :
    ∃ mem' P, correlation_matrix_of t z x y l n m mem = .ok ((), mem') ∧ OnlyBlock mem mem' z ∧ IsMat mem' z t.width l m P ∧
      ∀ i j, i < l → j < m → t.Quotient (t.number (Z i j) + t.prod X Y n i j) n (t.number (P i j)) := by
  cases t with
  | char =>
    obtain ⟨m1, a1, a2, a3⟩ := C41_char_short_partial.1 h
    obtain ⟨m2, Q, b1, b2, b3, b4⟩ := corr_signed (Or.inl rfl) hn a1 a2 a3 h.b3
    refine ⟨m2, Q, b1, b2, b3, fun i j hi hj => ⟨_, ?_, ?_, b4 i j hi hj⟩⟩
    · have := sval_range (w := 1) (Or.inl rfl) ((isMat_iff.1 a3).fits i j hi hj)
      exact ⟨by have := this.1; norm_num at this; exact this, by have := this.2; norm_num at this; exact this⟩
    · exact signed_red (w := 1) (by norm_num)
  | short =>
    obtain ⟨m1, a1, a2, a3⟩ := C41_char_short_partial.2 h
    obtain ⟨m2, Q, b1, b2, b3, b4⟩ := corr_signed (Or.inr (Or.inl rfl)) hn a1 a2 a3 h.b3
    refine ⟨m2, Q, b1, b2, b3, fun i j hi hj => ⟨_, ?_, ?_, b4 i j hi hj⟩⟩
    · have := sval_range (w := 2) (Or.inr (Or.inl rfl)) ((isMat_iff.1 a3).fits i j hi hj)
      exact ⟨by have := this.1; norm_num at this; exact this, by have := this.2; norm_num at this; exact this⟩
    · exact signed_red (w := 2) (by norm_num)
  | int =>
    obtain ⟨m1, P, a1, a2, a3, a4⟩ := C41_int_partial h (fun i j k hi hj hk => (ho.1 rfl i j k hi hj).1 hk)
      (fun i j k hi hj hk => (ho.1 rfl i j k hi hj).2 hk)
    obtain ⟨m2, Q, b1, b2, b3, b4⟩ := corr_signed (Or.inr (Or.inr rfl)) hn a1 a2 a3 h.b3
    refine ⟨m2, Q, b1, b2, b3, fun i j hi hj => ⟨_, ?_, ?_, b4 i j hi hj⟩⟩
    · have := sval_range (w := 4) (Or.inr (Or.inr rfl)) ((isMat_iff.1 a3).fits i j hi hj)
      exact ⟨by have := this.1; norm_num at this; exact this, by have := this.2; norm_num at this; exact this⟩
    · rw [a4 i j hi hj]
      exact ⟨0, by rw [mul_zero]; exact sub_self _⟩
  | uchar =>
    obtain ⟨m1, a1, a2, a3⟩ := C41_unsigned_partial.1 h
    obtain ⟨m2, Q, b1, b2, b3, b4⟩ := corr_unsigned (quo := quoPromoted 1) (fun b hb _ => quoPromoted_ok (Or.inl rfl) hb hn) a1 a2 a3 h.b3
    refine ⟨m2, Q, b1, b2, b3, fun i j hi hj => ⟨_, ⟨Int.natCast_nonneg _, ?_⟩, toNat_emod_dvd (by norm_num), b4 i j hi hj⟩⟩
    exact Int.le_of_lt_add_one (toNat_emod_lt (by norm_num))
  | ushort =>
    obtain ⟨m1, a1, a2, a3⟩ := C41_ushort_partial h (ho.2 rfl)
    obtain ⟨m2, Q, b1, b2, b3, b4⟩ := corr_unsigned (quo := quoPromoted 2) (fun b hb _ => quoPromoted_ok (Or.inr rfl) hb hn) a1 a2 a3 h.b3
    refine ⟨m2, Q, b1, b2, b3, fun i j hi hj => ⟨_, ⟨Int.natCast_nonneg _, ?_⟩, toNat_emod_dvd (by norm_num), b4 i j hi hj⟩⟩
    exact Int.le_of_lt_add_one (toNat_emod_lt (by norm_num))
  | uint =>
    obtain ⟨m1, a1, a2, a3⟩ := C41_unsigned_partial.2 h
    obtain ⟨m2, Q, b1, b2, b3, b4⟩ := corr_unsigned (quo := quoUint) (fun b hb hl => quoUint_ok hn (by
      have := h.b1
      have : n ≤ l * n := Nat.le_mul_of_pos_left _ hl
      omega)) a1 a2 a3 h.b3
    refine ⟨m2, Q, b1, b2, b3, fun i j hi hj => ⟨_, ⟨Int.natCast_nonneg _, ?_⟩, toNat_emod_dvd (by norm_num), b4 i j hi hj⟩⟩
    exact Int.le_of_lt_add_one (toNat_emod_lt (by norm_num))

theorem has_unique {u v : Int} (h1 : t.Has u) (h2 : t.Has v) (h : (256:Int) ^ t.width ∣ u - v) : u = v := by
  cases t <;> (obtain ⟨a, b⟩ := h1; obtain ⟨c, d⟩ := h2; simp only [IntKind.width] at h; norm_num at h; omega)

/-- the condition on `int` alone: the products and the partial sums are values of `int` -/
def Spec.IntKind.IntRange (t : IntKind) (X Y : Nat → Nat → Nat) (l n m : Nat) : Prop :=
  t = .int → ∀ i j k, i < l → j < m → (k < n → t.Has (signed 4 (X i k) * signed 4 (Y k j))) ∧ (k ≤ n → t.Has (t.prod X Y k i j))

/-- **C116**, the property: if the result was zero and the entries of the product are values of the type (for `int`, also the products and
the partial sums), every entry becomes the entry of the product divided by `n`, for all sizes, and nothing else changes.
Missing: see `C116_any_partial`. -/
theorem C116_correlation_partial (h : MulArgs mem x y z t.width l n m X Y (fun _ _ => 0)) (hn : 0 < n)
    (hr : ∀ i j, i < l → j < m → t.Has (t.prod X Y n i j)) (hi : t.IntRange X Y l n m) :
    ∃ mem' P, correlation_matrix_of t z x y l n m mem = .ok ((), mem') ∧ OnlyBlock mem mem' z ∧ IsMat mem' z t.width l m P ∧
      ∀ i j, i < l → j < m → t.number (P i j) = (t.prod X Y n i j).tdiv n := by
  have z0 : t.number 0 = 0 := by cases t <;> rfl
  obtain ⟨m', P, a1, a2, a3, a4⟩ := C116_any_partial h hn (by
    refine ⟨?_, ?_⟩
    · rintro rfl i j k h1 h2
      refine ⟨fun h3 => (hi rfl i j k h1 h2).1 h3, fun h3 => ?_⟩
      have e : signed 4 0 = 0 := rfl
      rw [e, zero_add]
      exact (hi rfl i j k h1 h2).2 h3
    · rintro rfl i j k h1 h2 h3
      have := (hr i j h1 h2).2
      have e : ((X i k * Y k j : Nat) : Int) ≤ IntKind.ushort.prod X Y n i j := by
        refine List.single_le_sum ?_ _ (List.mem_map.2 ⟨k, List.mem_range.2 h3, ?_⟩)
        · intro v hv
          obtain ⟨q, _, rfl⟩ := List.mem_map.1 hv
          show (0:Int) ≤ (X i q : Int) * (Y q j : Int)
          positivity
        · push_cast; rfl
      omega)
  refine ⟨m', P, a1, a2, a3, fun i j h1 h2 => ?_⟩
  obtain ⟨u, b1, b2, b3⟩ := a4 i j h1 h2
  rw [z0, zero_add] at b2
  rw [b3, has_unique b1 (hr i j h1 h2) b2]

/-- **C116 is false** as stated: the result depends on what the result held before the call.  If an entry was at least `n` (and the sum
with the product, which is not negative, is a value of the type), the new entry is larger than the entry of the product divided by `n`. -/
theorem C116_refuted_previous (h : MulArgs mem x y z t.width l n m X Y Z) (hn : 0 < n) (ho : t.NoOverflow X Y Z l n m) :
    ∃ mem' P, correlation_matrix_of t z x y l n m mem = .ok ((), mem') ∧ IsMat mem' z t.width l m P ∧
      ∀ i j, i < l → j < m → (n:Int) ≤ t.number (Z i j) → 0 ≤ t.prod X Y n i j → t.Has (t.number (Z i j) + t.prod X Y n i j) →
        (t.prod X Y n i j).tdiv n < t.number (P i j) := by
  obtain ⟨m', P, a1, a2, a3, a4⟩ := C116_any_partial h hn ho
  refine ⟨m', P, a1, a3, fun i j h1 h2 h3 h4 h5 => ?_⟩
  obtain ⟨u, b1, b2, b3⟩ := a4 i j h1 h2
  rw [b3, has_unique b1 h5 b2, Int.tdiv_eq_ediv_of_nonneg h4, Int.tdiv_eq_ediv_of_nonneg (by omega)]
  have e : (n:Int) + t.prod X Y n i j ≤ t.number (Z i j) + t.prod X Y n i j := by omega
  have h6 := Int.ediv_le_ediv (c := (n:Int)) (by omega) e
  rw [Int.add_comm (n:Int), Int.add_ediv_of_dvd_right (dvd_refl _), Int.ediv_self (by omega)] at h6
  omega

/-- **C116 is false** as stated: the sums are kept in the element type, so that they wrap although the quotient would fit.  If all elements
of both matrices are `c`, every entry of the product divided by `n` is `c * c`; whenever `n * c * c` is not a value of the type, no entry
of the result is `c * c` (15 and 2 for `unsigned char`). -/
theorem C116_refuted_range {c : Int} (h : MulArgs mem x y z t.width l n m X Y (fun _ _ => 0)) (hn : 0 < n)
    (ho : t.NoOverflow X Y (fun _ _ => 0) l n m) (hX : ∀ i k, i < l → k < n → t.number (X i k) = c) (hY : ∀ k j, k < n → j < m → t.number (Y k j) = c)
    (hc : c ≠ 0) (hw : ¬ t.Has (n * (c * c))) :
    ∃ mem' P, correlation_matrix_of t z x y l n m mem = .ok ((), mem') ∧ IsMat mem' z t.width l m P ∧
      ∀ i j, i < l → j < m → (t.prod X Y n i j).tdiv n = c * c ∧ t.number (P i j) ≠ c * c := by
  have z0 : t.number 0 = 0 := by cases t <;> rfl
  obtain ⟨m', P, a1, a2, a3, a4⟩ := C116_any_partial h hn ho
  refine ⟨m', P, a1, a3, fun i j h1 h2 => ?_⟩
  have ep : t.prod X Y n i j = n * (c * c) := by
    have : ∀ k, k ≤ n → t.prod X Y k i j = k * (c * c) := by
      intro k
      induction k with
      | zero => intro _; simp [IntKind.prod, prodEntry]
      | succ k ih =>
        intro hk
        have e := prodEntry_succ (fun a b => t.number (X a b)) (fun a b => t.number (Y a b)) k i j
        have e2 := ih (by omega)
        unfold IntKind.prod at e2 ⊢
        rw [e, e2]
        beta_reduce
        rw [hX i k h1 (by omega), hY k j (by omega) h2]
        push_cast; ring
    exact this n le_rfl
  refine ⟨?_, ?_⟩
  · rw [ep]
    exact Int.mul_tdiv_cancel_left _ (by omega)
  · intro e
    obtain ⟨u, b1, b2, b3⟩ := a4 i j h1 h2
    rw [z0, zero_add, ep] at b2
    rw [e] at b3
    have pc : 0 < c * c := lt_of_le_of_ne (mul_self_nonneg c) (mul_self_ne_zero.2 hc).symm
    have u0 : 0 ≤ u := by
      by_contra hu
      have h' : 0 ≤ -u := by omega
      have := Int.tdiv_nonneg h' (Int.natCast_nonneg n)
      rw [Int.neg_tdiv] at this
      omega
    rw [Int.tdiv_eq_ediv_of_nonneg u0] at b3
    have d1 := Int.emod_add_mul_ediv u n
    rw [← b3] at d1
    have d2 := Int.emod_nonneg u (show (n:Int) ≠ 0 by omega)
    have d3 := Int.emod_lt_of_pos u (show (0:Int) < n by omega)
    have d4 : (n:Int) * 1 ≤ n * (c * c) := Int.mul_le_mul_of_nonneg_left (by omega) (by omega)
    have e2 : u - n * (c * c) = u % n := by omega
    rw [e2] at b2
    have d5 : u < 256 ^ t.width := by
      cases t <;> (have := b1.2; simp only [IntKind.width]; norm_num; omega)
    have d6 := Int.eq_zero_of_dvd_of_nonneg_of_lt d2 (by omega) b2
    rw [d6, zero_add] at d1
    rw [d1] at hw
    exact hw b1

/-- **C116 is false** as stated for `int`: the mean of the products is an `int`, but their sum need not be.  If the terms of the first
entry are values of `int` and a partial sum is the first that is not, the call has undefined behaviour (40000 and `n` = 2). -/
theorem C116_refuted_overflow {k : Nat} (h : MulArgs mem x y z 4 l n m X Y (fun _ _ => 0)) (hl : 0 < l) (hm : 0 < m) (hk : k < n)
    (hp : ∀ q, q ≤ k → CI.InR (signed 4 (X 0 q) * signed 4 (Y q 0))) (hs : ∀ q, q ≤ k → CI.InR (IntKind.int.prod X Y q 0 0))
    (hb : ¬ CI.InR (IntKind.int.prod X Y (k + 1) 0 0)) :
    correlation_matrix_int z x y l n m mem = .error (.ub .overflow) := by
  have back : ∀ v, CI.InR v → signed 4 (bitsOf 4 v) = v := fun v hv =>
    signed_bitsOf (by decide) (by have := hv.1; omega) (by have := hv.2; omega)
  let B : Nat → Nat → Nat → Nat := fun q a b => if a = 0 ∧ b = 0 then bitsOf 4 (IntKind.int.prod X Y q 0 0) else 0
  have fitsB : ∀ q, Fits 4 l m (B q) := by
    intro q a b _ _
    show (if a = 0 ∧ b = 0 then bitsOf 4 (IntKind.int.prod X Y q 0 0) else 0) < _
    split
    · exact bitsOf_lt 4 _
    · norm_num
  have s0 : mem.putM z 4 l m (B 0) = mem := by
    refine (putM_congr mem ?_).trans (isMat_iff.1 h.hz).put_self
    intro a b _ _
    show (if a = 0 ∧ b = 0 then bitsOf 4 (IntKind.int.prod X Y 0 0 0) else 0) = 0
    split <;> rfl
  have succ : ∀ q, IntKind.int.prod X Y (q+1) 0 0 = IntKind.int.prod X Y q 0 0 + signed 4 (X 0 q) * signed 4 (Y q 0) :=
    fun q => prodEntry_succ _ _ _ _ _
  have step : ∀ q, q < n → mulStep 4 (macSigned 4) x y z n m (0:Nat) (0:Nat) q (mem.putM z 4 l m (B q))
      = (liftE (macSigned 4 (bitsOf 4 (IntKind.int.prod X Y q 0 0)) (X 0 q) (Y q 0)) >>= fun r => storeN 4 z ((0 * m + 0 : Nat) : Int) r)
        (mem.putM z 4 l m (B q)) := by
    intro q hq
    unfold mulStep
    rw [bind_ok (ev_ok (idx_eval hl hq h.b1) _), bind_ok (ev_ok (idx_eval hq hm h.b2) _), bind_ok (ev_ok (idx_eval hl hm h.b3) _)]
    rw [bind_ok (((isMat_iff.1 h.hx).putM_ne h.xz).load hl hq), bind_ok (((isMat_iff.1 h.hy).putM_ne h.yz).load hq hm),
      bind_ok ((holdsM_putM mem (fitsB q)).load hl hm)]
    rfl
  have inner : forI 0 (n:Int) (fun nk => mulStep 4 (macSigned 4) x y z n m (0:Nat) (0:Nat) nk) mem = .error (.ub .overflow) := by
    rw [← s0]
    refine forI_err (fun q => mem.putM z 4 l m (B q)) hk ?_ ?_
    · intro q hq
      beta_reduce
      rw [step q (by omega)]
      have e : macSigned 4 (bitsOf 4 (IntKind.int.prod X Y q 0 0)) (X 0 q) (Y q 0) = .ok (bitsOf 4 (IntKind.int.prod X Y (q+1) 0 0)) :=
        macSigned_ok (by
          show signed 4 (bitsOf 4 _) + _ = _
          rw [back _ (hs q (by omega)), succ]; rfl) (hp q (by omega)) (hs (q+1) (by omega))
      rw [bind_ok (liftE_ok e _), storeM_put hl hm]
      refine congrArg (fun x => Except.ok ((), x)) (putM_congr mem ?_)
      intro a b _ _
      show (if a = 0 ∧ b = 0 then _ else (if a = 0 ∧ b = 0 then _ else 0)) = (if a = 0 ∧ b = 0 then _ else 0)
      by_cases hc : a = 0 ∧ b = 0
      · rw [if_pos hc, if_pos hc, Nat.mod_eq_of_lt (bitsOf_lt 4 _)]
      · rw [if_neg hc, if_neg hc, if_neg hc]
    · beta_reduce
      rw [step k hk]
      have e : macSigned 4 (bitsOf 4 (IntKind.int.prod X Y k 0 0)) (X 0 k) (Y k 0) = .error (.ub .overflow) := by
        have e1 : sval 4 (bitsOf 4 (IntKind.int.prod X Y k 0 0)) = IntKind.int.prod X Y k 0 0 := back _ (hs k le_rfl)
        unfold macSigned
        rw [e1, show sval 4 (X 0 k) = signed 4 (X 0 k) from rfl, show sval 4 (Y k 0) = signed 4 (Y k 0) from rfl, CI.mul_ok (hp k le_rfl), CI.add_bad (by rw [succ] at hb; exact hb)]
        rfl
      exact bind_err (liftE_err e _)
  refine bind_err ?_
  exact forI_err (fun _ => mem) hl (fun i hi => by omega) (forI_err (fun _ => mem) hm (fun i hi => by omega) inner)

end

/-! ### The hypotheses can be met -/

/-- an `l x n` and an `n x m` matrix with all elements `c`, and a result of zeros, in blocks 1, 2 and 3 -/
theorem constMul_args {w c l n m : Nat} (hc : c < 256 ^ w) (b1 : l * n ≤ 2147483647) (b2 : n * m ≤ 2147483647) (b3 : l * m ≤ 2147483647) :
    MulArgs (((Mem.empty.putM 1 w l n (fun _ _ => c)).putM 2 w n m (fun _ _ => c)).putM 3 w l m (fun _ _ => 0)) 1 2 3 w l n m
      (fun _ _ => c) (fun _ _ => c) (fun _ _ => 0) :=
  ⟨isMat_iff.2 (((holdsM_putM _ (fun _ _ _ _ => hc)).putM_ne (by decide)).putM_ne (by decide)),
    isMat_iff.2 ((holdsM_putM _ (fun _ _ _ _ => hc)).putM_ne (by decide)),
    isMat_iff.2 (holdsM_putM _ (fun _ _ _ _ => by show 0 < 256 ^ w; positivity)), by decide, by decide, b1, b2, b3⟩

/-- 3 x 2 and 2 x 3 matrices of the `short` -5 (bits 65531): the entries of the product are 50, divided by 2 -/
example : ∃ mem, MulArgs mem 1 2 3 IntKind.short.width 3 2 3 (fun _ _ => 65531) (fun _ _ => 65531) (fun _ _ => 0) ∧
    IntKind.short.prod (fun _ _ => 65531) (fun _ _ => 65531) 2 1 1 = 50 ∧ IntKind.short.Has 50 :=
  ⟨_, constMul_args (w := 2) (by decide) (by decide) (by decide) (by decide), by decide, by constructor <;> decide⟩

/-- the `unsigned char` 15, `n` = 2: 450 is not a value of the type, 225 is; and two `int`s 40000 -/
example : (∃ mem, MulArgs mem 1 2 3 IntKind.uchar.width 3 2 3 (fun _ _ => 15) (fun _ _ => 15) (fun _ _ => 0)) ∧
    ¬ IntKind.uchar.Has ((2:Nat) * (15 * 15)) ∧ IntKind.uchar.Has (15 * 15) ∧
    IntKind.uchar.NoOverflow (fun _ _ => 15) (fun _ _ => 15) (fun _ _ => 0) 3 2 3 :=
  ⟨⟨_, constMul_args (w := 1) (by decide) (by decide) (by decide) (by decide)⟩, fun h => absurd h.2 (by decide), by constructor <;> decide, nofun, nofun⟩

example : (∃ mem, MulArgs mem 1 2 3 4 3 2 3 (fun _ _ => 40000) (fun _ _ => 40000) (fun _ _ => 0)) ∧
    CI.InR (signed 4 40000 * signed 4 40000) ∧ CI.InR (IntKind.int.prod (fun _ _ => 40000) (fun _ _ => 40000) 1 0 0) ∧
    ¬ CI.InR (IntKind.int.prod (fun _ _ => 40000) (fun _ _ => 40000) 2 0 0) :=
  ⟨⟨_, constMul_args (w := 4) (by decide) (by decide) (by decide) (by decide)⟩, by decide, by decide, by decide⟩

end HyperCV
