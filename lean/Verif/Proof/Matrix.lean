/- Products and transposes of matrices. -/
import Verif.Model.Matrix
import Verif.Proof.MatrixBase
import Verif.Proof.FloatGood

namespace HyperCV
open Spec

theorem liftE_ok {α : Type} {x : Except Err α} {a : α} (h : x = .ok a) (m : Mem) : liftE x m = .ok (a, m) := by
  subst h; rfl

theorem liftE_err {α : Type} {x : Except Err α} {e : Err} (h : x = .error e) (m : Mem) : liftE x m = .error e := by
  subst h; rfl

theorem mul_run {mem : Mem} {x y z w m k n : Nat} {X Y Z : Nat → Nat → Nat} {mac : Nat → Nat → Nat → Except Err Nat}
    {S : Nat → Nat → Nat → Nat} (hx : HoldsM mem x w m k X) (hy : HoldsM mem y w k n Y) (hz : HoldsM mem z w m n Z)
    (hxz : x ≠ z) (hyz : y ≠ z) (b1 : m * k ≤ 2147483647) (b2 : k * n ≤ 2147483647) (b3 : m * n ≤ 2147483647)
    (h0 : ∀ i j, i < m → j < n → S i j 0 = Z i j)
    (hS : ∀ i j t, i < m → j < n → t < k → mac (S i j t) (X i t) (Y t j) = .ok (S i j (t+1)))
    (hb : ∀ i j t, i < m → j < n → t ≤ k → S i j t < 256 ^ w) :
    mulMatrix w mac x y z m k n mem = .ok ((), mem.putM z w m n (fun i j => S i j k)) := by
  -- entries before (i, j) in row-major order are final
  let A : Nat → Nat → Nat → Nat → Nat := fun i j a b => if a < i ∨ (a = i ∧ b < j) then S a b k else Z a b
  have inner : ∀ i j, i < m → j < n →
      forI 0 (k:Int) (fun nk => mulStep w mac x y z k n i j nk) (mem.putM z w m n (A i j))
        = .ok ((), mem.putM z w m n (A i (j+1))) := by
    intro i j hi hj
    let B : Nat → Nat → Nat → Nat := fun t a b => if a = i ∧ b = j then S i j t else A i j a b
    have fitsB : ∀ t, t ≤ k → Fits w m n (B t) := by
      intro t ht a b ha hb'
      show (if a = i ∧ b = j then S i j t else (if a < i ∨ (a = i ∧ b < j) then S a b k else Z a b)) < _
      split
      · exact hb i j t hi hj ht
      · split
        · exact hb a b k ha hb' (Nat.le_refl _)
        · exact hz.fits a b ha hb'
    have key := forI_run (n := k) (body := fun nk => mulStep w mac x y z k n i j nk)
      (fun t => mem.putM z w m n (B t)) (by
      intro t ht
      have f := fitsB t (Nat.le_of_lt ht)
      unfold mulStep
      rw [bind_ok (ev_ok (idx_eval hi ht b1) _), bind_ok (ev_ok (idx_eval ht hj b2) _),
        bind_ok (ev_ok (idx_eval hi hj b3) _)]
      rw [bind_ok ((hx.putM_ne hxz).load hi ht), bind_ok ((hy.putM_ne hyz).load ht hj),
        bind_ok ((holdsM_putM mem f).load hi hj)]
      have e : B t i j = S i j t := if_pos ⟨rfl, rfl⟩
      rw [e, bind_ok (liftE_ok (hS i j t hi hj ht) _), storeM_put hi hj]
      refine congrArg (fun x => Except.ok ((), x)) (putM_congr mem ?_)
      intro a b ha hb'
      show (if a = i ∧ b = j then _ else (if a = i ∧ b = j then S i j t else A i j a b))
        = (if a = i ∧ b = j then S i j (t+1) else A i j a b)
      by_cases hc : a = i ∧ b = j
      · rw [if_pos hc, if_pos hc, Nat.mod_eq_of_lt (hb i j (t+1) hi hj ht)]
      · simp only [if_neg hc])
    have e0 : mem.putM z w m n (A i j) = mem.putM z w m n (B 0) := by
      apply putM_congr
      intro a b ha hb'
      show (if a < i ∨ (a = i ∧ b < j) then S a b k else Z a b)
        = (if a = i ∧ b = j then S i j 0 else (if a < i ∨ (a = i ∧ b < j) then S a b k else Z a b))
      by_cases hc : a = i ∧ b = j
      · obtain ⟨rfl, rfl⟩ := hc
        rw [if_neg (by omega), if_pos ⟨rfl, rfl⟩, h0 a b ha hb']
      · rw [if_neg hc]
    have e1 : mem.putM z w m n (A i (j+1)) = mem.putM z w m n (B k) := by
      apply putM_congr
      intro a b ha hb'
      show (if a < i ∨ (a = i ∧ b < j+1) then S a b k else Z a b)
        = (if a = i ∧ b = j then S i j k else (if a < i ∨ (a = i ∧ b < j) then S a b k else Z a b))
      by_cases hc : a = i ∧ b = j
      · obtain ⟨rfl, rfl⟩ := hc
        rw [if_pos (by omega), if_pos ⟨rfl, rfl⟩]
      · rw [if_neg hc]
        by_cases hd : a < i ∨ (a = i ∧ b < j)
        · rw [if_pos hd, if_pos (by omega)]
        · rw [if_neg hd, if_neg (by omega)]
    rw [e0, e1]
    exact key
  have top := forI_run (n := m)
    (body := fun nm => forI 0 (n:Int) fun nn => forI 0 (k:Int) fun nk => mulStep w mac x y z k n nm nn nk)
    (fun i => mem.putM z w m n (A i 0)) (fun i hi => by
    refine (forI_run (n := n) (body := fun nn => forI 0 (k:Int) fun nk => mulStep w mac x y z k n i nn nk)
      (fun j => mem.putM z w m n (A i j)) (fun j hj => inner i j hi hj)).trans ?_
    refine congrArg (fun x => Except.ok ((), x)) (putM_congr mem ?_)
    intro a b ha hb'
    show (if a < i ∨ (a = i ∧ b < n) then S a b k else Z a b) = (if a < i+1 ∨ (a = i+1 ∧ b < 0) then S a b k else Z a b)
    by_cases hc : a < i + 1
    · rw [if_pos (by omega), if_pos (by omega)]
    · rw [if_neg (by omega), if_neg (by omega)])
  have s0 : mem.putM z w m n (A 0 0) = mem :=
    (putM_congr mem (fun a b _ _ => if_neg (by omega))).trans hz.put_self
  have s1 : mem.putM z w m n (A m 0) = mem.putM z w m n (fun i j => S i j k) :=
    putM_congr mem (fun a b ha _ => if_pos (Or.inl ha))
  rw [s0, s1] at top
  exact top

theorem trans_run {mem : Mem} {x z w m n : Nat} {X Z : Nat → Nat → Nat} (hx : HoldsM mem x w m n X)
    (hz : HoldsM mem z w n m Z) (hxz : x ≠ z) (b : m * n ≤ 2147483647) :
    transMatrix w x z m n mem = .ok ((), mem.putM z w n m (fun i j => X j i)) := by
  have b' : n * m ≤ 2147483647 := by rw [Nat.mul_comm]; exact b
  let A : Nat → Nat → Nat → Nat → Nat := fun i j a b => if b < i ∨ (b = i ∧ a < j) then X b a else Z a b
  have inner : ∀ i j, i < m → j < n →
      transStep w x z m n i j (mem.putM z w n m (A i j)) = .ok ((), mem.putM z w n m (A i (j+1))) := by
    intro i j hi hj
    unfold transStep
    rw [bind_ok (ev_ok (idx_eval hj hi b') _), bind_ok (ev_ok (idx_eval hi hj b) _)]
    rw [bind_ok ((hx.putM_ne hxz).load hi hj), storeM_put hj hi]
    refine congrArg (fun x => Except.ok ((), x)) (putM_congr mem ?_)
    intro a c ha hc
    show (if a = j ∧ c = i then X i j % 256 ^ w else (if c < i ∨ (c = i ∧ a < j) then X c a else Z a c))
      = (if c < i ∨ (c = i ∧ a < j + 1) then X c a else Z a c)
    by_cases h1 : a = j ∧ c = i
    · obtain ⟨rfl, rfl⟩ := h1
      rw [if_pos ⟨rfl, rfl⟩, if_pos (by omega), Nat.mod_eq_of_lt (hx.fits c a hi hj)]
    · rw [if_neg h1]
      by_cases hd : c < i ∨ (c = i ∧ a < j)
      · rw [if_pos hd, if_pos (by omega)]
      · rw [if_neg hd, if_neg (by omega)]
  have top := forI_run (n := m) (body := fun nm => forI 0 (n:Int) fun nn => transStep w x z m n nm nn)
    (fun i => mem.putM z w n m (A i 0)) (fun i hi => by
    refine (forI_run (n := n) (body := fun nn => transStep w x z m n i nn)
      (fun j => mem.putM z w n m (A i j)) (fun j hj => inner i j hi hj)).trans ?_
    refine congrArg (fun x => Except.ok ((), x)) (putM_congr mem ?_)
    intro a c ha hc
    show (if c < i ∨ (c = i ∧ a < n) then X c a else Z a c) = (if c < i+1 ∨ (c = i+1 ∧ a < 0) then X c a else Z a c)
    by_cases hd : c < i + 1
    · rw [if_pos (by omega), if_pos (by omega)]
    · rw [if_neg (by omega), if_neg (by omega)])
  have s0 : mem.putM z w n m (A 0 0) = mem :=
    (putM_congr mem (fun a b _ _ => if_neg (by omega))).trans hz.put_self
  have s1 : mem.putM z w n m (A m 0) = mem.putM z w n m (fun i j => X j i) :=
    putM_congr mem (fun a b _ hb => if_pos (Or.inl hb))
  rw [s0, s1] at top
  exact top

/-! ### Values of the products -/

/-- the sum of the products, in exact integers -/
def dot (x y : Nat → Int) (t : Nat) : Int := ((List.range t).map fun s => x s * y s).sum

theorem dot_succ (x y : Nat → Int) (t : Nat) : dot x y (t+1) = dot x y t + x t * y t := by
  unfold dot
  rw [List.range_succ, List.map_append, List.sum_append]
  simp

theorem bitsOf_lt' (w : Nat) (x : Int) : bitsOf w x < 256 ^ w := bitsOf_lt w x

theorem bitsOf_congr {w : Nat} {a b : Int} (h : a % 256 ^ w = b % 256 ^ w) : bitsOf w a = bitsOf w b := by
  unfold bitsOf; rw [h]

theorem sval_mod (w b : Nat) : sval w b % (256:Int) ^ w = (b:Int) % 256 ^ w := by
  unfold sval
  split
  · rfl
  · exact Int.sub_emod_right _ _

theorem bitsOf_mod (w : Nat) (x : Int) : ((bitsOf w x : Nat) : Int) % 256 ^ w = x % 256 ^ w := by
  unfold bitsOf
  rw [Int.toNat_of_nonneg (Int.emod_nonneg _ (by positivity)), Int.emod_emod_of_dvd _ (dvd_refl _)]

theorem bitsOf_self {w b : Nat} (h : b < 256 ^ w) : bitsOf w (b:Int) = b := by
  unfold bitsOf
  rw [Int.emod_eq_of_lt (by omega) (by exact_mod_cast h)]
  rfl

theorem sval_range {w b : Nat} (hw : w = 1 ∨ w = 2 ∨ w = 4) (h : b < 256 ^ w) :
    -(256 ^ w / 2 : Int) ≤ sval w b ∧ sval w b ≤ 256 ^ w / 2 - 1 := by
  unfold sval
  rcases hw with rfl | rfl | rfl <;> split <;> omega

theorem macSigned_ok {w z x y : Nat} {v : Int} (hz : sval w z + sval w x * sval w y = v)
    (h1 : CI.InR (sval w x * sval w y)) (h2 : CI.InR v) : macSigned w z x y = .ok (bitsOf w v) := by
  unfold macSigned
  rw [CI.mul_ok h1, CI.add_ok (by rw [hz]; exact h2), hz]
  rfl

theorem macPromoted_ok {w z x y : Nat} (h : z + x * y ≤ 2147483647) :
    macPromoted w z x y = .ok (bitsOf w ((z + x * y : Nat) : Int)) := by
  unfold macPromoted
  have h1 : x * y ≤ 2147483647 := by omega
  rw [CI.mul_ok (by constructor <;> ((try norm_cast) <;> omega)),
    CI.add_ok (by constructor <;> ((try norm_cast) <;> omega))]
  norm_cast

theorem prod_range {a b c : Int} (ha : -c ≤ a ∧ a ≤ c) (hb : -c ≤ b ∧ b ≤ c) : -(c*c) ≤ a * b ∧ a * b ≤ c * c := by
  constructor <;> nlinarith [ha.1, ha.2, hb.1, hb.2]

/-- narrow signed types never overflow `int` -/
theorem macSigned_narrow {w x y : Nat} (hw : w = 1 ∨ w = 2) (hx : x < 256 ^ w) (hy : y < 256 ^ w) (v : Int) :
    macSigned w (bitsOf w v) x y = .ok (bitsOf w (v + sval w x * sval w y)) := by
  have rx := sval_range (by omega) hx
  have ry := sval_range (by omega) hy
  have rz := sval_range (w := w) (by omega) (bitsOf_lt w v)
  have e : macSigned w (bitsOf w v) x y = .ok (bitsOf w (sval w (bitsOf w v) + sval w x * sval w y)) := by
    rcases hw with rfl | rfl
    · have := prod_range (c := 128) ⟨by omega, by omega⟩ (show -128 ≤ sval 1 y ∧ sval 1 y ≤ 128 by omega) (a := sval 1 x)
      exact macSigned_ok rfl (by constructor <;> omega) (by constructor <;> omega)
    · have := prod_range (c := 32768) ⟨by omega, by omega⟩ (show -32768 ≤ sval 2 y ∧ sval 2 y ≤ 32768 by omega)
        (a := sval 2 x)
      exact macSigned_ok rfl (by constructor <;> omega) (by constructor <;> omega)
  rw [e]
  refine congrArg Except.ok (bitsOf_congr ?_)
  rw [Int.add_emod, sval_mod, bitsOf_mod, ← Int.add_emod]

theorem sval_bitsOf {w : Nat} (hw : 0 < w) {x : Int} (h0 : -(256 ^ w / 2) ≤ x) (h : x < 256 ^ w / 2) :
    sval w (bitsOf w x) = x := signed_bitsOf hw h0 h

/-! ### Exact floating point accumulation -/

theorem round_exact {F : Fmt} {z : Bool} {q : ℚ} (h : F.Rep q) : ∃ s, F.round z q = .fin s q := by
  by_cases hq : q = 0
  · subst hq; exact ⟨z, round_zero⟩
  · exact ⟨_, round_rep h hq⟩

theorem macFloat_exact {F : Fmt} (hF : F.Std) {z x y : Nat} {c a b : ℚ} (hz : ∃ s, F.decode z = .fin s c)
    (hx : ∃ s, F.decode x = .fin s a) (hy : ∃ s, F.decode y = .fin s b) (h1 : F.Rep (a * b)) (h2 : F.Rep (c + a * b)) :
    ∃ r, macFloat F z x y = .ok r ∧ r < 2 ^ (F.t + F.w + 1) ∧ ∃ s, F.decode r = .fin s (c + a * b) := by
  obtain ⟨sz, hz⟩ := hz
  obtain ⟨sx, hx⟩ := hx
  obtain ⟨sy, hy⟩ := hy
  have g := good_add F (.fin sz c) (F.mul (.fin sx a) (.fin sy b))
  refine ⟨_, rfl, ?_, ?_⟩
  · rw [hz, hx, hy]; exact good_encode_lt hF g
  · rw [hz, hx, hy, good_decode_encode hF g]
    obtain ⟨s1, e1⟩ := round_exact (z := (sx != sy)) h1
    obtain ⟨s2, e2⟩ := round_exact (z := (sz && s1)) h2
    refine ⟨s2, ?_⟩
    show F.add _ (F.round _ (a * b)) = _
    rw [e1]; exact e2

end HyperCV
