/- What matrix_QR_float computes. -/
import Verif.Proof.Arrays

namespace HyperCV
open Spec

/-- the four arrays that are written -/
def qrEnv (q r ca cq n : Nat) (fq fr fa fc : Nat → Nat) : Env := fun h =>
  if h = q then some (n * n, fq) else if h = r then some (n * n, fr) else if h = ca then some (n, fa) else if h = cq then some (n, fc) else none

/-- the five arrays are different blocks -/
structure QrSep (a q r ca cq : Nat) : Prop where
  aq : a ≠ q
  ar : a ≠ r
  ac : a ≠ ca
  ad : a ≠ cq
  qr : q ≠ r
  qc : q ≠ ca
  qd : q ≠ cq
  rc : r ≠ ca
  rd : r ≠ cq
  cd : ca ≠ cq

section
variable {m : Mem} {a q r ca cq n : Nat} {fq fr fa fc : Nat → Nat}

theorem qrEnv_q : qrEnv q r ca cq n fq fr fa fc q = some (n * n, fq) := if_pos rfl

theorem qrEnv_r (s : QrSep a q r ca cq) : qrEnv q r ca cq n fq fr fa fc r = some (n * n, fr) := by
  unfold qrEnv; rw [if_neg (Ne.symm s.qr), if_pos rfl]

theorem qrEnv_ca (s : QrSep a q r ca cq) : qrEnv q r ca cq n fq fr fa fc ca = some (n, fa) := by
  unfold qrEnv; rw [if_neg (Ne.symm s.qc), if_neg (Ne.symm s.rc), if_pos rfl]

theorem qrEnv_cq (s : QrSep a q r ca cq) : qrEnv q r ca cq n fq fr fa fc cq = some (n, fc) := by
  unfold qrEnv; rw [if_neg (Ne.symm s.qd), if_neg (Ne.symm s.rd), if_neg (Ne.symm s.cd), if_pos rfl]

theorem qrEnv_a (s : QrSep a q r ca cq) : qrEnv q r ca cq n fq fr fa fc a = none := by
  unfold qrEnv; rw [if_neg s.aq, if_neg s.ar, if_neg s.ac, if_neg s.ad]

theorem qrEnv_set_q (g : Nat → Nat) : (qrEnv q r ca cq n fq fr fa fc).set q (n * n) g = qrEnv q r ca cq n g fr fa fc := by
  funext x; unfold Env.set qrEnv; by_cases e : x = q <;> simp [e]

theorem qrEnv_set_r (s : QrSep a q r ca cq) (g : Nat → Nat) : (qrEnv q r ca cq n fq fr fa fc).set r (n * n) g = qrEnv q r ca cq n fq g fa fc := by
  funext x; unfold Env.set qrEnv; by_cases e : x = r
  · subst e; simp [Ne.symm s.qr]
  · simp [e]

theorem qrEnv_set_ca (s : QrSep a q r ca cq) (g : Nat → Nat) : (qrEnv q r ca cq n fq fr fa fc).set ca n g = qrEnv q r ca cq n fq fr g fc := by
  funext x; unfold Env.set qrEnv; by_cases e : x = ca
  · subst e; simp [Ne.symm s.qc, Ne.symm s.rc]
  · simp [e]

theorem qrEnv_set_cq (s : QrSep a q r ca cq) (g : Nat → Nat) : (qrEnv q r ca cq n fq fr fa fc).set cq n g = qrEnv q r ca cq n fq fr fa g := by
  funext x; unfold Env.set qrEnv; by_cases e : x = cq
  · subst e; simp [Ne.symm s.qd, Ne.symm s.rd, Ne.symm s.cd]
  · simp [e]

/-- the arrays matter only up to their lengths -/
theorem qrEnv_congr {gq gr ga gc : Nat → Nat} (h1 : ∀ i, i < n * n → fq i = gq i) (h2 : ∀ i, i < n * n → fr i = gr i)
    (h3 : ∀ i, i < n → fa i = ga i) (h4 : ∀ i, i < n → fc i = gc i) :
    m.arrs (qrEnv q r ca cq n fq fr fa fc) = m.arrs (qrEnv q r ca cq n gq gr ga gc) := by
  have key : ∀ {k : Nat} {f g : Nat → Nat}, (∀ i, i < k → f i = g i) → tab (k * 4) (encN 4 f) = tab (k * 4) (encN 4 g) := by
    intro k f g h
    unfold tab
    refine List.map_congr_left ?_
    intro p hp
    exact encN_congr h p (List.mem_range.1 hp)
  apply Mem.ext' <;> try rfl
  funext x
  unfold Mem.arrs qrEnv
  simp only []
  by_cases e1 : x = q
  · simp [e1, key h1]
  · by_cases e2 : x = r
    · subst e2; simp [e1, key h2]
    · by_cases e3 : x = ca
      · subst e3; simp [e1, e2, key h3]
      · by_cases e4 : x = cq
        · subst e4; simp [e1, e2, e3, key h4]
        · simp [e1, e2, e3, e4]

/-- sum of the first `n` values in `float` -/
def sumFold (n : Nat) (x : Nat → FV) : FV := (List.range n).foldl (fun s i => f32.add s (x i)) (.fin false 0)

theorem good_sumFold (n : Nat) (x : Nat → FV) : f32.Good (sumFold n x) := by
  cases n with
  | zero => exact good_zero
  | succ n => unfold sumFold; rw [List.range_succ, List.foldl_append]; exact good_add _ _ _

/-- an element of the working column after `k` subtractions of `s` -/
def subTimes (s : FV) (b : Nat) : Nat → Nat
  | 0 => b
  | k + 1 => f32.encode (f32.sub (f32.decode (subTimes s b k)) s)

theorem subTimes_lt {s : FV} {b : Nat} (hb : b < 256 ^ 4) (k : Nat) : subTimes s b k < 256 ^ 4 := by
  cases k with
  | zero => exact hb
  | succ k => exact f32_encode_lt (good_sub _ _ _)

theorem qrProject_run (s : QrSep a q r ca cq) (hn : n * n ≤ 2147483647) {j k : Nat} (hj : j < n) (hk : k < n)
    (hfa : ∀ i, i < n → fa i < 256 ^ 4) (hfc : ∀ i, i < n → fc i < 256 ^ 4) :
    qrProject r ca cq n j k (m.arrs (qrEnv q r ca cq n fq fr fa fc)) = .ok ((), m.arrs (qrEnv q r ca cq n fq
      (fun p => if p = k * n + j then f32.encode (sumFold n fun i => f32.decode (fa i)) else fr p) fa
      (fun i => f32.encode (f32.sub (f32.decode (fc i)) (sumFold n fun i => f32.decode (fa i)))))) := by
  have hp : k * n + j < n * n := mix_lt hk hj
  unfold qrProject
  rw [bind_ok (ev_mix hk hj rfl hn _), bind_ok (arrs_st (qrEnv_r s) hp good_zero), qrEnv_set_r s]
  have run1 := forI_run (n := n) (body := fun i => do
      let x ← ldF r ((k * n + j : Nat) : Int)
      let y ← ldF ca i
      stF r ((k * n + j : Nat) : Int) (f32.add x y))
    (fun i => m.arrs (qrEnv q r ca cq n fq (fun p => if p = k * n + j then f32.encode (sumFold i fun i => f32.decode (fa i)) else fr p) fa fc)) (by
      intro i hi
      beta_reduce
      have g := good_sumFold i fun i => f32.decode (fa i)
      rw [bind_ok (arrs_ld (qrEnv_r s) hp (by rw [if_pos rfl]; exact f32_encode_lt g)), bind_ok (arrs_ld (qrEnv_ca s) hi (hfa i hi)),
        if_pos rfl, f32_dec_enc g, arrs_st (qrEnv_r s) hp (good_add _ _ _), qrEnv_set_r s]
      refine congrArg (fun x => Except.ok ((), x)) (qrEnv_congr (fun _ _ => rfl) ?_ (fun _ _ => rfl) (fun _ _ => rfl))
      intro p _
      by_cases e : p = k * n + j
      · rw [if_pos e, if_pos e]
        unfold sumFold
        rw [List.range_succ, List.foldl_append]
        rfl
      · rw [if_neg e, if_neg e, if_neg e])
  refine (bind_ok run1).trans ?_
  have g := good_sumFold n fun i => f32.decode (fa i)
  have run2 := forI_run (n := n) (body := fun i => do
      let x ← ldF cq i
      let y ← ldF r ((k * n + j : Nat) : Int)
      stF cq i (f32.sub x y))
    (fun t => m.arrs (qrEnv q r ca cq n fq (fun p => if p = k * n + j then f32.encode (sumFold n fun i => f32.decode (fa i)) else fr p) fa
      (fun i => if i < t then f32.encode (f32.sub (f32.decode (fc i)) (sumFold n fun i => f32.decode (fa i))) else fc i))) (by
      intro i hi
      beta_reduce
      rw [bind_ok (arrs_ld (qrEnv_cq s) hi (by rw [if_neg (by omega)]; exact hfc i hi)),
        bind_ok (arrs_ld (qrEnv_r s) hp (by rw [if_pos rfl]; exact f32_encode_lt g)), if_pos rfl, f32_dec_enc g, if_neg (by omega),
        arrs_st (qrEnv_cq s) hi (good_sub _ _ _), qrEnv_set_cq s]
      refine congrArg (fun x => Except.ok ((), x)) (qrEnv_congr (fun _ _ => rfl) (fun _ _ => rfl) (fun _ _ => rfl) ?_)
      intro p _
      by_cases e : p = i
      · rw [if_pos e, if_pos (by omega), e]
      · rw [if_neg e]
        by_cases e2 : p < i
        · rw [if_pos e2, if_pos (by omega)]
        · rw [if_neg e2, if_neg (by omega)])
  refine Eq.trans ?_ (run2.trans ?_)
  · rfl
  · refine congrArg (fun x => Except.ok ((), x)) (qrEnv_congr (fun _ _ => rfl) (fun _ _ => rfl) (fun _ _ => rfl) ?_)
    intro i hi
    exact if_pos hi

/-- sum of column `j` -/
def qrSum (n : Nat) (A : Nat → Nat) (j : Nat) : FV := sumFold n fun i => f32.decode (A (i * n + j))
/-- the working column that becomes column `j` of the first factor -/
def qrWork (n : Nat) (A : Nat → Nat) (j i : Nat) : Nat := subTimes (qrSum n A j) (A (i * n + j)) j
/-- its norm -/
def qrNorm (n : Nat) (A : Nat → Nat) (j : Nat) : FV := normFold n fun i => f32.decode (qrWork n A j i)

theorem qrColumn_run {A : Nat → Nat} (s : QrSep a q r ca cq) (hn : n * n ≤ 2147483647) (hA : HoldsN m a 4 (n * n) A) {j : Nat} (hj : j < n) :
    qrColumn a q r ca cq n j (m.arrs (qrEnv q r ca cq n fq fr fa fc)) = .ok ((), m.arrs (qrEnv q r ca cq n
      (fun p => if p % n = j then f32.encode (f32.div (f32.decode (qrWork n A j (p / n))) (qrNorm n A j)) else fq p)
      (fun p => if p % n = j ∧ p / n < j then f32.encode (qrSum n A j) else if p = j * n + j then f32.encode (qrNorm n A j) else fr p)
      (fun i => A (i * n + j)) (qrWork n A j))) := by
  have hfit : ∀ i, i < n → A (i * n + j) < 256 ^ 4 := fun i hi => hA.2 _ (mix_lt hi hj)
  unfold qrColumn
  have run1 := forI_run (n := n) (body := fun i => do
      let p ← ev (CI.lit i * CI.lit (n:Int) + CI.lit (j:Int))
      let x ← loadN 4 a p
      storeN 4 ca i x
      storeN 4 cq i x)
    (fun t => m.arrs (qrEnv q r ca cq n fq fr (fun i => if i < t then A (i * n + j) else fa i) (fun i => if i < t then A (i * n + j) else fc i))) (by
      intro i hi
      beta_reduce
      rw [bind_ok (ev_mix hi hj rfl hn _), bind_ok ((arrs_none (qrEnv_a s) hA).load (mix_lt hi hj)), bind_ok (arrs_store (qrEnv_ca s) hi), qrEnv_set_ca s,
        arrs_store (qrEnv_cq s) hi, qrEnv_set_cq s, Nat.mod_eq_of_lt (hfit i hi)]
      have key : ∀ (g : Nat → Nat) p, (if p = i then A (i * n + j) else if p < i then A (p * n + j) else g p) = if p < i + 1 then A (p * n + j) else g p := by
        intro g p
        by_cases e : p = i
        · rw [if_pos e, if_pos (by omega), e]
        · rw [if_neg e]
          by_cases e2 : p < i
          · rw [if_pos e2, if_pos (by omega)]
          · rw [if_neg e2, if_neg (by omega)]
      exact congrArg (fun x => Except.ok ((), x)) (qrEnv_congr (fun _ _ => rfl) (fun _ _ => rfl) (fun p _ => key fa p) (fun p _ => key fc p)))
  refine (bind_ok (Eq.trans rfl run1)).trans ?_
  have run2 := forI_run (n := j) (body := fun k => qrProject r ca cq n j k)
    (fun k => m.arrs (qrEnv q r ca cq n fq (fun p => if p % n = j ∧ p / n < k then f32.encode (qrSum n A j) else fr p)
      (fun i => A (i * n + j)) (fun i => subTimes (qrSum n A j) (A (i * n + j)) k))) (by
      intro k hk
      beta_reduce
      rw [qrProject_run s hn hj (by omega) hfit (fun i hi => subTimes_lt (hfit i hi) k)]
      refine congrArg (fun x => Except.ok ((), x)) (qrEnv_congr (fun _ _ => rfl) ?_ (fun _ _ => rfl) (fun _ _ => rfl))
      intro p _
      have hd : p / n * n + p % n = p := by rw [Nat.mul_comm]; exact Nat.div_add_mod p n
      by_cases e : p = k * n + j
      · have e1 : p % n = j := by rw [e, mix_mod hj]
        have e2 : p / n = k := by rw [e, mix_div hj]
        rw [if_pos e, if_pos ⟨e1, by omega⟩]
        rfl
      · rw [if_neg e]
        by_cases e2 : p % n = j ∧ p / n < k
        · rw [if_pos e2, if_pos ⟨e2.1, by omega⟩]
        · rw [if_neg e2, if_neg]
          rintro ⟨c1, c2⟩
          refine e2 ⟨c1, ?_⟩
          rcases Nat.lt_or_ge (p / n) k with c | c
          · exact c
          · exfalso
            have : p / n = k := by omega
            rw [this, c1] at hd
            exact e hd.symm)
  have mid : m.arrs (qrEnv q r ca cq n fq fr (fun i => if i < n then A (i * n + j) else fa i) (fun i => if i < n then A (i * n + j) else fc i))
      = m.arrs (qrEnv q r ca cq n fq (fun p => if p % n = j ∧ p / n < 0 then f32.encode (qrSum n A j) else fr p)
      (fun i => A (i * n + j)) (fun i => subTimes (qrSum n A j) (A (i * n + j)) 0)) :=
    qrEnv_congr (fun _ _ => rfl) (fun p _ => by rw [if_neg (fun c => Nat.not_lt_zero _ c.2)]) (fun i hi => by rw [if_pos hi]) (fun i hi => by rw [if_pos hi]; rfl)
  rw [mid, bind_ok run2]
  have hW : ∀ i, i < n → qrWork n A j i < 256 ^ 4 := fun i hi => subTimes_lt (hfit i hi) j
  have nrm : matrix_norm_float cq n (m.arrs (qrEnv q r ca cq n fq (fun p => if p % n = j ∧ p / n < j then f32.encode (qrSum n A j) else fr p)
      (fun i => A (i * n + j)) (qrWork n A j))) = .ok (qrNorm n A j, _) := norm_of fun i hi => arrs_ld (qrEnv_cq s) hi (hW i hi)
  refine (bind_ok nrm).trans ?_
  have gN : f32.Good (qrNorm n A j) := good_rootF _
  rw [bind_ok (ev_mix hj hj rfl hn _), bind_ok (arrs_st (qrEnv_r s) (mix_lt hj hj) gN), qrEnv_set_r s]
  have run3 := forI_run (n := n) (body := fun i => do
      let x ← ldF cq i
      let p ← ev (CI.lit i * CI.lit (n:Int) + CI.lit (j:Int))
      stF q p (f32.div x (qrNorm n A j)))
    (fun t => m.arrs (qrEnv q r ca cq n
      (fun p => if p % n = j ∧ p / n < t then f32.encode (f32.div (f32.decode (qrWork n A j (p / n))) (qrNorm n A j)) else fq p)
      (fun p => if p = j * n + j then f32.encode (qrNorm n A j) else if p % n = j ∧ p / n < j then f32.encode (qrSum n A j) else fr p)
      (fun i => A (i * n + j)) (qrWork n A j))) (by
      intro i hi
      beta_reduce
      rw [bind_ok (arrs_ld (qrEnv_cq s) hi (hW i hi)), bind_ok (ev_mix hi hj rfl hn _), arrs_st qrEnv_q (mix_lt hi hj) (good_div _ _ _), qrEnv_set_q]
      refine congrArg (fun x => Except.ok ((), x)) (qrEnv_congr ?_ (fun _ _ => rfl) (fun _ _ => rfl) (fun _ _ => rfl))
      intro p _
      have hd : p / n * n + p % n = p := by rw [Nat.mul_comm]; exact Nat.div_add_mod p n
      by_cases e : p = i * n + j
      · have e1 : p % n = j := by rw [e, mix_mod hj]
        have e2 : p / n = i := by rw [e, mix_div hj]
        rw [if_pos e, if_pos ⟨e1, by omega⟩, e2]
      · rw [if_neg e]
        by_cases e2 : p % n = j ∧ p / n < i
        · rw [if_pos e2, if_pos ⟨e2.1, by omega⟩]
        · rw [if_neg e2, if_neg]
          rintro ⟨c1, c2⟩
          refine e2 ⟨c1, ?_⟩
          rcases Nat.lt_or_ge (p / n) i with c | c
          · exact c
          · exfalso
            have : p / n = i := by omega
            rw [this, c1] at hd
            exact e hd.symm)
  have st : m.arrs (qrEnv q r ca cq n fq
      (fun p => if p = j * n + j then f32.encode (qrNorm n A j) else if p % n = j ∧ p / n < j then f32.encode (qrSum n A j) else fr p)
      (fun i => A (i * n + j)) (qrWork n A j)) = m.arrs (qrEnv q r ca cq n
      (fun p => if p % n = j ∧ p / n < 0 then f32.encode (f32.div (f32.decode (qrWork n A j (p / n))) (qrNorm n A j)) else fq p)
      (fun p => if p = j * n + j then f32.encode (qrNorm n A j) else if p % n = j ∧ p / n < j then f32.encode (qrSum n A j) else fr p)
      (fun i => A (i * n + j)) (qrWork n A j)) :=
    qrEnv_congr (fun p _ => by rw [if_neg (fun c => Nat.not_lt_zero _ c.2)]) (fun _ _ => rfl) (fun _ _ => rfl) (fun _ _ => rfl)
  rw [st]
  refine (Eq.trans rfl run3).trans ?_
  refine congrArg (fun x => Except.ok ((), x)) (qrEnv_congr ?_ ?_ (fun _ _ => rfl) (fun _ _ => rfl))
  · intro p hp
    have : p / n < n := Nat.div_lt_of_lt_mul hp
    by_cases e : p % n = j
    · rw [if_pos ⟨e, this⟩, if_pos e]
    · rw [if_neg (fun c => e c.1), if_neg e]
  · intro p _
    by_cases e : p = j * n + j
    · have e2 : p / n = j := by rw [e, mix_div hj]
      rw [if_pos e, if_neg (by omega), if_pos e]
    · rw [if_neg e, if_neg e]

/-- what the first factor becomes -/
def qrQ (n : Nat) (A : Nat → Nat) (i j : Nat) : Nat := f32.encode (f32.div (f32.decode (qrWork n A j i)) (qrNorm n A j))
/-- what the second factor becomes; below the diagonal it is not written -/
def qrR (n : Nat) (A old : Nat → Nat) (k j : Nat) : Nat :=
  if k < j then f32.encode (qrSum n A j) else if k = j then f32.encode (qrNorm n A j) else old (k * n + j)

theorem qr_run {A f0 r0 : Nat → Nat} (hne1 : a ≠ q) (hne2 : a ≠ r) (hne3 : q ≠ r) (hw : ∀ x, m.next ≤ x → m.blk x = none)
    (hn : n * n ≤ 2147483647) (hA : HoldsN m a 4 (n * n) A) (hQ : HoldsN m q 4 (n * n) f0) (hR : HoldsN m r 4 (n * n) r0) :
    ∃ m' fa fc, matrix_QR_float a q r n m = .ok ((), m') ∧ HoldsN m' q 4 (n * n) (fun p => qrQ n A (p / n) (p % n)) ∧
      HoldsN m' r 4 (n * n) (fun p => qrR n A r0 (p / n) (p % n)) ∧ HoldsN m' m.next 4 n fa ∧ HoldsN m' (m.next + 1) 4 n fc ∧
      m'.hm = m.hm ∧ m'.sm = m.sm ∧ m'.next = m.next + 2 ∧ ∀ x, x ≠ q → x ≠ r → x < m.next → m'.blk x = m.blk x := by
  have lt : ∀ {x k : Nat} {g : Nat → Nat}, HoldsN m x 4 k g → x < m.next := by
    intro x k g hx
    rcases Nat.lt_or_ge x m.next with c | c
    · exact c
    · have := hx.1; unfold Holds at this; rw [hw x c] at this; cases this
  have la := lt hA; have lq := lt hQ; have lr := lt hR
  have s : QrSep a q r m.next (m.next + 1) := ⟨hne1, hne2, by omega, by omega, hne3, by omega, by omega, by omega, by omega, by omega⟩
  let m1 := (m.grow (n * 4) (m.junk m.next))
  let m2 := (m1.grow (n * 4) (m.junk (m.next + 1)))
  have b2 : ∀ x, x < m.next → m2.blk x = m.blk x := by
    intro x hx
    rw [grow_blk_ne _ _ _ (show x ≠ m1.next by show x ≠ m.next + 1; omega), grow_blk_ne _ _ _ (by omega)]
  have frm : ∀ {x k : Nat} {g : Nat → Nat}, HoldsN m x 4 k g → HoldsN m2 x 4 k g := by
    intro x k g hx
    have hl := lt hx
    refine ⟨?_, hx.2⟩
    have := hx.1
    unfold Holds at this ⊢
    rw [b2 x hl]
    exact this
  obtain ⟨ja, k1, k2⟩ := holds_elems (m := m2) (h := m.next) (n := n) (g := m.junk m.next) (by
    have := grow_holds m (n * 4) (m.junk m.next)
    unfold Holds at this ⊢
    rw [grow_blk_ne _ _ _ (show m.next ≠ m1.next by show m.next ≠ m.next + 1; omega)]
    exact this)
  obtain ⟨jc, k3, k4⟩ := holds_elems (m := m2) (h := m.next + 1) (n := n) (g := m.junk (m.next + 1)) (grow_holds m1 (n * 4) (m.junk (m.next + 1)))
  have start : m2 = m2.arrs (qrEnv q r m.next (m.next + 1) n f0 r0 ja jc) := by
    apply Mem.ext' <;> try rfl
    funext x
    unfold Mem.arrs qrEnv
    simp only []
    by_cases e1 : x = q
    · subst e1; have := (frm hQ).1; unfold Holds at this; simp [this]
    · by_cases e2 : x = r
      · subst e2; have := (frm hR).1; unfold Holds at this; simp [e1, this]
      · by_cases e3 : x = m.next
        · subst e3; have := k1.1; unfold Holds at this; simp [e1, e2, this]
        · by_cases e4 : x = m.next + 1
          · subst e4; have := k3.1; unfold Holds at this; simp [e1, e2, this]
          · simp [e1, e2, e3, e4]
  let FQ : Nat → Nat → Nat := fun j p => if p % n < j then qrQ n A (p / n) (p % n) else f0 p
  let FR : Nat → Nat → Nat := fun j p => if p % n < j then qrR n A r0 (p / n) (p % n) else r0 p
  let CA : Nat → Nat → Nat := fun j => Nat.casesOn j ja (fun j i => A (i * n + j))
  let CQ : Nat → Nat → Nat := fun j => Nat.casesOn j jc (fun j => qrWork n A j)
  have run := forI_run (n := n) (body := fun j => qrColumn a q r m.next (m.next + 1) n j)
    (fun j => m2.arrs (qrEnv q r m.next (m.next + 1) n (FQ j) (FR j) (CA j) (CQ j))) (by
      intro j hj
      beta_reduce
      rw [qrColumn_run s hn (frm hA) hj]
      refine congrArg (fun x => Except.ok ((), x)) (qrEnv_congr ?_ ?_ (fun _ _ => rfl) (fun _ _ => rfl))
      · intro p _
        show _ = if p % n < j + 1 then _ else _
        by_cases e : p % n = j
        · rw [if_pos e, if_pos (by omega), e]; rfl
        · rw [if_neg e]
          show (if p % n < j then _ else _) = _
          by_cases e2 : p % n < j
          · rw [if_pos e2, if_pos (by omega)]
          · rw [if_neg e2, if_neg (by omega)]
      · intro p _
        have hd : p / n * n + p % n = p := by rw [Nat.mul_comm]; exact Nat.div_add_mod p n
        show _ = if p % n < j + 1 then _ else _
        by_cases e : p % n = j
        · rw [if_pos (show p % n < j + 1 by omega), e]
          unfold qrR
          by_cases e2 : p / n < j
          · rw [if_pos ⟨rfl, e2⟩, if_pos e2]
          · rw [if_neg (fun c => e2 c.2), if_neg e2]
            by_cases e3 : p / n = j
            · rw [if_pos (by rw [e, e3] at hd; exact hd.symm), if_pos e3]
            · rw [if_neg (by intro c; rw [c, mix_div hj] at e3; exact e3 rfl), if_neg e3]
              show (if p % n < j then _ else r0 p) = _
              rw [if_neg (by omega)]
              rw [e] at hd
              rw [hd]
        · rw [if_neg (fun c => e c.1), if_neg (by intro c; rw [c, mix_mod hj] at e; exact e rfl)]
          show (if p % n < j then _ else _) = _
          by_cases e2 : p % n < j
          · rw [if_pos e2, if_pos (by omega)]
          · rw [if_neg e2, if_neg (by omega)])
  have z : m2.arrs (qrEnv q r m.next (m.next + 1) n (FQ 0) (FR 0) (CA 0) (CQ 0)) = m2 := by
    refine Eq.trans ?_ start.symm
    exact qrEnv_congr (fun p _ => if_neg (Nat.not_lt_zero _)) (fun p _ => if_neg (Nat.not_lt_zero _)) (fun _ _ => rfl) (fun _ _ => rfl)
  rw [z] at run
  have fin : m2.arrs (qrEnv q r m.next (m.next + 1) n (FQ n) (FR n) (CA n) (CQ n))
      = m2.arrs (qrEnv q r m.next (m.next + 1) n (fun p => qrQ n A (p / n) (p % n)) (fun p => qrR n A r0 (p / n) (p % n)) (CA n) (CQ n)) := by
    have pos : ∀ p, p < n * n → p % n < n := by
      intro p hp
      exact Nat.mod_lt _ (by rcases Nat.eq_zero_or_pos n with c | c; (subst c; omega); exact c)
    exact qrEnv_congr (fun p hp => if_pos (pos p hp)) (fun p hp => if_pos (pos p hp)) (fun _ _ => rfl) (fun _ _ => rfl)
  rw [fin] at run
  have fitA : ∀ i, i < n → CA n i < 256 ^ 4 := by
    intro i hi
    cases n with
    | zero => omega
    | succ j => exact hA.2 _ (mix_lt hi (by omega))
  have fitQ : ∀ i, i < n → CQ n i < 256 ^ 4 := by
    intro i hi
    cases n with
    | zero => omega
    | succ j => exact subTimes_lt (hA.2 _ (mix_lt hi (by omega))) _
  refine ⟨m2.arrs (qrEnv q r m.next (m.next + 1) n (fun p => qrQ n A (p / n) (p % n)) (fun p => qrR n A r0 (p / n) (p % n)) (CA n) (CQ n)), CA n, CQ n, ?_, ⟨arrs_holds qrEnv_q, ?_⟩, ⟨arrs_holds (qrEnv_r s), ?_⟩, ⟨arrs_holds (qrEnv_ca s), fitA⟩, ⟨arrs_holds (qrEnv_cq s), fitQ⟩, rfl, rfl, rfl, ?_⟩
  · unfold matrix_QR_float
    have e4 : ((n:Int) * 4).toNat = n * 4 := by omega
    rw [e4, bind_ok (malloc_run _ m), bind_ok (malloc_run _ _)]
    exact run
  · intro p hp
    exact f32_encode_lt (good_div _ _ _)
  · intro p hp
    beta_reduce
    unfold qrR
    have hd : p / n * n + p % n = p := by rw [Nat.mul_comm]; exact Nat.div_add_mod p n
    split
    · exact f32_encode_lt (good_sumFold _ _)
    · split
      · exact f32_encode_lt (good_rootF _)
      · rw [hd]; exact hR.2 p hp
  · intro x h1 h2 h3
    show (match qrEnv q r m.next (m.next + 1) n _ _ _ _ x with | some (n, f) => some (tab (n * 4) (encN 4 f)) | none => m2.blk x) = _
    unfold qrEnv
    rw [if_neg h1, if_neg h2, if_neg (by omega), if_neg (by omega)]
    exact b2 x h3
end

end HyperCV
