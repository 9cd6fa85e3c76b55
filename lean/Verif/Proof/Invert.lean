/- The memory model of `invert_matrix_float` computes `gInvert` with `float` arithmetic. -/
import Verif.Model.GaussJordan
import Verif.Proof.Matrix
import Verif.Proof.Bmp

namespace HyperCV
open Spec

/-- `float` arithmetic on bit patterns -/
def floatArith : Arith Nat where
  add := addF
  mul := mulF
  neg := negF
  recip := recipF
  isZero := isZeroF
  zero := zeroF
  one := oneF

theorem addF_lt (a b : Nat) : addF a b < 256 ^ 4 := f32_encode_lt (good_add _ _ _)
theorem mulF_lt (a b : Nat) : mulF a b < 256 ^ 4 := f32_encode_lt (good_mul _ _ _)

theorem identity_run {mem : Mem} {h m : Nat} {A : Mat Nat} (hh : HoldsM mem h 4 m m A) (b : m * m ≤ 2147483647) :
    set_identity_matrix_float h m mem = .ok ((), mem.putM h 4 m m (gId floatArith)) := by
  let T : Nat → Nat → Mat Nat := fun i j a c => if a < i ∨ (a = i ∧ c < j) then gId floatArith a c else A a c
  have top := forI_run (n := m) (body := fun i => forI 0 (m:Int) fun j => do
      let k ← ev (CI.lit i * CI.lit m + CI.lit j)
      if i = j then storeN 4 h k oneF else storeN 4 h k zeroF)
    (fun i => mem.putM h 4 m m (T i 0)) (fun i hi => by
    refine (forI_run (n := m) (body := fun j => do
      let k ← ev (CI.lit (i:Int) * CI.lit m + CI.lit j)
      if (i:Int) = j then storeN 4 h k oneF else storeN 4 h k zeroF)
      (fun j => mem.putM h 4 m m (T i j)) (fun j hj => ?_)).trans ?_
    · beta_reduce
      rw [bind_ok (ev_ok (idx_eval hi hj b) _)]
      by_cases e : i = j
      · subst e
        rw [if_pos rfl, storeM_put hi hj]
        refine congrArg (fun x => Except.ok ((), x)) (putM_congr mem ?_)
        intro a c ha hc
        show (if a = i ∧ c = i then _ else (if a < i ∨ (a = i ∧ c < i) then gId floatArith a c else A a c))
          = (if a < i ∨ (a = i ∧ c < i+1) then gId floatArith a c else A a c)
        by_cases h1 : a = i ∧ c = i
        · obtain ⟨rfl, rfl⟩ := h1
          rw [if_pos ⟨rfl, rfl⟩, if_pos (by omega)]
          unfold gId; rw [if_pos rfl]; rfl
        · rw [if_neg h1]
          by_cases hd : a < i ∨ (a = i ∧ c < i)
          · rw [if_pos hd, if_pos (by omega)]
          · rw [if_neg hd, if_neg (by omega)]
      · rw [if_neg (by exact_mod_cast e), storeM_put hi hj]
        refine congrArg (fun x => Except.ok ((), x)) (putM_congr mem ?_)
        intro a c ha hc
        show (if a = i ∧ c = j then _ else (if a < i ∨ (a = i ∧ c < j) then gId floatArith a c else A a c))
          = (if a < i ∨ (a = i ∧ c < j+1) then gId floatArith a c else A a c)
        by_cases h1 : a = i ∧ c = j
        · obtain ⟨rfl, rfl⟩ := h1
          rw [if_pos ⟨rfl, rfl⟩, if_pos (by omega)]
          unfold gId; rw [if_neg e]; rfl
        · rw [if_neg h1]
          by_cases hd : a < i ∨ (a = i ∧ c < j)
          · rw [if_pos hd, if_pos (by omega)]
          · rw [if_neg hd, if_neg (by omega)]
    · refine congrArg (fun x => Except.ok ((), x)) (putM_congr mem ?_)
      intro a c ha hc
      show (if a < i ∨ (a = i ∧ c < m) then gId floatArith a c else A a c)
        = (if a < i+1 ∨ (a = i+1 ∧ c < 0) then gId floatArith a c else A a c)
      by_cases hd : a < i + 1
      · rw [if_pos (by omega), if_pos (by omega)]
      · rw [if_neg (by omega), if_neg (by omega)])
  have s0 : mem.putM h 4 m m (T 0 0) = mem :=
    (putM_congr mem (fun a c _ _ => if_neg (by omega))).trans hh.put_self
  have s1 : mem.putM h 4 m m (T m 0) = mem.putM h 4 m m (gId floatArith) :=
    putM_congr mem (fun a c ha _ => if_pos (Or.inl ha))
  rw [s0, s1] at top
  exact top

theorem scale_run {mem : Mem} {h m i s : Nat} {A : Mat Nat} (hh : HoldsM mem h 4 m m A) (b : m * m ≤ 2147483647)
    (hi : i < m) : matrix_row_multi_scalar_float h m m i s mem = .ok ((), mem.putM h 4 m m (gScale floatArith i s A)) := by
  unfold matrix_row_multi_scalar_float
  rw [cassert_bind (by rw [decide_eq_true_eq]; omega)]
  have fits : ∀ t, Fits 4 m m (fun a c => if a = i ∧ c < t then mulF (A a c) s else A a c) := by
    intro t a c ha hc
    beta_reduce
    split
    · exact mulF_lt _ _
    · exact hh.fits a c ha hc
  have key := forI_run (n := m) (body := fun c => do
      let k ← ev (CI.lit (i:Int) * CI.lit m + CI.lit c)
      let v ← loadN 4 h k
      storeN 4 h k (mulF v s))
    (fun t => mem.putM h 4 m m (fun a c => if a = i ∧ c < t then mulF (A a c) s else A a c)) (fun t ht => by
    beta_reduce
    rw [bind_ok (ev_ok (idx_eval hi ht b) _), bind_ok ((holdsM_putM mem (fits t)).load hi ht), storeM_put hi ht]
    refine congrArg (fun x => Except.ok ((), x)) (putM_congr mem ?_)
    intro a c ha hc
    by_cases h1 : a = i ∧ c = t
    · obtain ⟨rfl, rfl⟩ := h1
      rw [if_pos ⟨rfl, rfl⟩, if_neg (show ¬ (a = a ∧ c < c) by omega), if_pos ⟨rfl, by omega⟩,
        Nat.mod_eq_of_lt (mulF_lt _ _)]
    · rw [if_neg h1]
      by_cases hd : a = i ∧ c < t
      · rw [if_pos hd, if_pos (by omega)]
      · rw [if_neg hd, if_neg (by omega)])
  have s0 : mem.putM h 4 m m (fun a c => if a = i ∧ c < 0 then mulF (A a c) s else A a c) = mem :=
    (putM_congr mem (fun a c _ _ => if_neg (by omega))).trans hh.put_self
  have s1 : mem.putM h 4 m m (fun a c => if a = i ∧ c < m then mulF (A a c) s else A a c)
      = mem.putM h 4 m m (gScale floatArith i s A) := by
    refine putM_congr mem (fun a c ha hc => ?_)
    unfold gScale
    by_cases e : a = i
    · rw [if_pos ⟨e, hc⟩, if_pos e]; rfl
    · rw [if_neg (fun x => e x.1), if_neg e]
  rw [s0, s1] at key
  exact key

theorem shear_run {mem : Mem} {h m i j s : Nat} {A : Mat Nat} (hh : HoldsM mem h 4 m m A) (b : m * m ≤ 2147483647)
    (hi : i < m) (hj : j < m) (hne : j ≠ i) :
    shear_row h m m j i s mem = .ok ((), mem.putM h 4 m m (gShear floatArith j i s A)) := by
  unfold shear_row
  rw [cassert_bind (by rw [decide_eq_true_eq]; omega)]
  have fits : ∀ t, Fits 4 m m (fun a c => if a = j ∧ c < t then addF (A a c) (mulF s (A i c)) else A a c) := by
    intro t a c ha hc
    beta_reduce
    split
    · exact addF_lt _ _
    · exact hh.fits a c ha hc
  have key := forI_run (n := m) (body := fun c => do
      let k1 ← ev (CI.lit (j:Int) * CI.lit m + CI.lit c)
      let k2 ← ev (CI.lit (i:Int) * CI.lit m + CI.lit c)
      let a ← loadN 4 h k1
      let b ← loadN 4 h k2
      storeN 4 h k1 (addF a (mulF s b)))
    (fun t => mem.putM h 4 m m (fun a c => if a = j ∧ c < t then addF (A a c) (mulF s (A i c)) else A a c))
    (fun t ht => by
    beta_reduce
    rw [bind_ok (ev_ok (idx_eval hj ht b) _), bind_ok (ev_ok (idx_eval hi ht b) _),
      bind_ok ((holdsM_putM mem (fits t)).load hj ht), bind_ok ((holdsM_putM mem (fits t)).load hi ht), storeM_put hj ht]
    refine congrArg (fun x => Except.ok ((), x)) (putM_congr mem ?_)
    intro a c ha hc
    by_cases h1 : a = j ∧ c = t
    · obtain ⟨rfl, rfl⟩ := h1
      rw [if_pos ⟨rfl, rfl⟩, if_neg (show ¬ (a = a ∧ c < c) by omega), if_neg (show ¬ (i = a ∧ c < c) by omega),
        if_pos ⟨rfl, by omega⟩, Nat.mod_eq_of_lt (addF_lt _ _)]
    · rw [if_neg h1]
      by_cases hd : a = j ∧ c < t
      · rw [if_pos hd, if_pos (by omega)]
      · rw [if_neg hd, if_neg (by omega)])
  have s0 : mem.putM h 4 m m (fun a c => if a = j ∧ c < 0 then addF (A a c) (mulF s (A i c)) else A a c) = mem :=
    (putM_congr mem (fun a c _ _ => if_neg (by omega))).trans hh.put_self
  have s1 : mem.putM h 4 m m (fun a c => if a = j ∧ c < m then addF (A a c) (mulF s (A i c)) else A a c)
      = mem.putM h 4 m m (gShear floatArith j i s A) := by
    refine putM_congr mem (fun a c ha hc => ?_)
    unfold gShear
    by_cases e : a = j
    · rw [if_pos ⟨e, hc⟩, if_pos e]; rfl
    · rw [if_neg (fun x => e x.1), if_neg e]
  rw [s0, s1] at key
  exact key

/-- `memcpy` between disjoint parts of one block -/
theorem memcpy_self {m : Mem} {d n doff soff k : Nat} {g : Nat → UInt8} (hd : Holds m d n g) (h1 : doff + k ≤ n)
    (h2 : soff + k ≤ n) (hdis : doff + k ≤ soff ∨ soff + k ≤ doff) :
    memcpy d (doff : Int) d (soff : Int) (k : Int) m
      = .ok ((), m.put d n (fun p => if doff ≤ p ∧ p < doff + k then g (soff + (p - doff)) else g p)) := by
  unfold memcpy
  rw [if_neg (by omega), if_neg (by omega)]
  have key := forI_run (n := k) (body := fun t => do
      let v ← load d ((soff:Int) + t)
      store d ((doff:Int) + t) v)
    (fun t => m.put d n (fun p => if doff ≤ p ∧ p < doff + t then g (soff + (p - doff)) else g p)) (fun t ht => by
    beta_reduce
    have e1 : ((soff:Int) + (t:Nat)) = ((soff + t : Nat) : Int) := by push_cast; rfl
    have e2 : ((doff:Int) + (t:Nat)) = ((doff + t : Nat) : Int) := by push_cast; rfl
    rw [e1, e2, bind_ok (load_ok (holds_put m d n _) (by omega)), store_put (by omega)]
    refine congrArg (fun x => Except.ok ((), x)) (put_congr m d n ?_)
    intro p hp
    by_cases e : p = doff + t
    · subst e
      rw [if_pos rfl, if_neg (by omega), if_pos (by omega)]
      congr 1; omega
    · rw [if_neg e]
      by_cases hc : doff ≤ p ∧ p < doff + t
      · rw [if_pos hc, if_pos (by omega)]
      · rw [if_neg hc, if_neg (by omega)])
  have s0 : m.put d n (fun p => if doff ≤ p ∧ p < doff + 0 then g (soff + (p - doff)) else g p) = m :=
    (put_congr m d n (fun p _ => if_neg (by omega))).trans hd.put_self
  rw [s0] at key
  exact key

/-- bytes of a row of `float`s -/
theorem enc_row {m a u : Nat} (A : Mat Nat) (hu : u < m * 4) :
    encN 4 (fl m A) (a * (m * 4) + u) = leByte (A a (u / 4)) (u % 4) := by
  have e : a * (m * 4) + u = (a * m + u / 4) * 4 + u % 4 := by
    rw [Nat.add_mul, Nat.mul_assoc]
    omega
  rw [e, encN_at _ (Nat.mod_lt _ (by decide)), fl_at A (by omega)]

theorem swap_run {mem : Mem} (hwf : mem.WF) {h m r1 r2 : Nat} {A : Mat Nat} (hh : HoldsM mem h 4 m m A)
    (b : m * m ≤ 536870911) (h1 : r1 < m) (h2 : r2 < m) (hne : r1 ≠ r2) :
    ∃ mem', swap_rows_float h m m r1 r2 mem = .ok ((), mem') ∧ HoldsM mem' h 4 m m (gSwap r1 r2 A) ∧ mem'.WF ∧
      mem'.hm = mem.hm ∧ mem'.sm = mem.sm ∧ ∀ x, x ≠ h → mem'.blk x = mem.blk x := by
  have hm0 : 0 < m := by omega
  have hlt : h < mem.next := Holds.lt_next hwf hh.1
  have hmm : m ≤ 536870911 := by
    calc m = m * 1 := (Nat.mul_one m).symm
      _ ≤ m * m := Nat.mul_le_mul_left _ hm0
      _ ≤ _ := b
  have q1 : r1 * m < m * m := Nat.mul_lt_mul_of_pos_right h1 hm0
  have q2 : r2 * m < m * m := Nat.mul_lt_mul_of_pos_right h2 hm0
  have s1 : r1 * (m * 4) + m * 4 ≤ m * (m * 4) := slot_le (w := m * 4) h1
  have s2 : r2 * (m * 4) + m * 4 ≤ m * (m * 4) := slot_le (w := m * 4) h2
  have eN : m * m * 4 = m * (m * 4) := Nat.mul_assoc ..
  unfold swap_rows_float
  rw [cassert_bind (by rw [decide_eq_true_eq]; omega), cassert_bind (by rw [decide_eq_true_eq]; omega)]
  have et : ((m:Int) * 4).toNat = m * 4 := by omega
  rw [et, bind_ok (malloc_run _ _)]
  rw [bind_ok (ev_ok (a := ((r1 * m : Nat) : Int)) (by
      rw [CI.mul_ok (by constructor <;> ((try norm_cast) <;> omega))]; norm_cast) _),
    bind_ok (ev_ok (a := ((r2 * m : Nat) : Int)) (by
      rw [CI.mul_ok (by constructor <;> ((try norm_cast) <;> omega))]; norm_cast) _)]
  have c1 : (((r1 * m : Nat) : Int) * 4) = ((r1 * (m * 4) : Nat) : Int) := by push_cast; ring
  have c2 : (((r2 * m : Nat) : Int) * 4) = ((r2 * (m * 4) : Nat) : Int) := by push_cast; ring
  have c3 : ((m:Int) * 4) = ((m * 4 : Nat) : Int) := by push_cast; rfl
  rw [c1, c2, c3]
  have hh0 : Holds mem h (m * m * 4) (encN 4 (fl m A)) := hh.1
  have g0 : Holds (mem.grow (m * 4) (mem.junk mem.next)) h (m * m * 4) (encN 4 (fl m A)) := hh0.grow hwf
  have k1 := memcpy_ok (doff := 0) (soff := r1 * (m * 4)) (k := m * 4) g0 (grow_holds mem (m * 4) _) (by omega) (by omega)
    (by omega)
  rw [grow_put] at k1
  have k1' : memcpy mem.next 0 h ((r1 * (m * 4) : Nat) : Int) ((m * 4 : Nat) : Int)
    (mem.grow (m * 4) (mem.junk mem.next)) = _ := k1
  rw [bind_ok k1']
  generalize htmp : (fun p => if 0 ≤ p ∧ p < 0 + m * 4 then encN 4 (fl m A) (r1 * (m * 4) + (p - 0))
    else mem.junk mem.next p) = tmp
  have htmp' : ∀ u, u < m * 4 → tmp u = leByte (A r1 (u / 4)) (u % 4) := by
    intro u hu
    rw [← htmp]
    beta_reduce
    rw [if_pos (by omega), Nat.sub_zero, enc_row A hu]
  have g1 : Holds (mem.grow (m * 4) tmp) h (m * m * 4) (encN 4 (fl m A)) := hh0.grow hwf
  have hdis : r1 * (m * 4) + m * 4 ≤ r2 * (m * 4) ∨ r2 * (m * 4) + m * 4 ≤ r1 * (m * 4) := by
    rcases Nat.lt_or_gt_of_ne hne with hl | hl
    · left; exact slot_le hl
    · right; exact slot_le hl
  rw [bind_ok (memcpy_self g1 (doff := r1 * (m * 4)) (soff := r2 * (m * 4)) (k := m * 4) (by omega) (by omega) hdis)]
  have k3 := memcpy_put (m := mem.grow (m * 4) tmp) (d := h) (s := mem.next) (N := m * 4) (n := m * m * 4)
    (doff := r2 * (m * 4)) (soff := 0) (k := m * 4) (f := tmp)
    (g := fun p => if r1 * (m * 4) ≤ p ∧ p < r1 * (m * 4) + m * 4 then encN 4 (fl m A) (r2 * (m * 4) + (p - r1 * (m * 4)))
      else encN 4 (fl m A) p) (grow_holds mem (m * 4) tmp) (by omega) (by omega) (by omega)
  have k3' : memcpy h ((r2 * (m * 4) : Nat) : Int) mem.next 0 ((m * 4 : Nat) : Int) _ = _ := k3
  rw [bind_ok k3']
  have hp : (mem.grow (m * 4) tmp).put h (m * m * 4) (fun p => if r2 * (m * 4) ≤ p ∧ p < r2 * (m * 4) + m * 4 then
      tmp (0 + (p - r2 * (m * 4))) else (fun p => if r1 * (m * 4) ≤ p ∧ p < r1 * (m * 4) + m * 4 then
      encN 4 (fl m A) (r2 * (m * 4) + (p - r1 * (m * 4))) else encN 4 (fl m A) p) p)
      = (mem.grow (m * 4) tmp).putM h 4 m m (gSwap r1 r2 A) := by
    apply put_congr
    intro p hp
    beta_reduce
    have hpr : p < m * (m * 4) := by omega
    obtain ⟨a1, a2, a3⟩ := flat_split hpr
    generalize p / (m * 4) = a at a1 a3
    generalize p % (m * 4) = u at a2 a3
    subst a3
    rw [enc_row (gSwap r1 r2 A) a2]
    have cmp : ∀ r, (r * (m * 4) ≤ a * (m * 4) + u ∧ a * (m * 4) + u < r * (m * 4) + m * 4) ↔ a = r := by
      intro r
      constructor
      · rintro ⟨x1, x2⟩
        rcases Nat.lt_trichotomy a r with hl | hl | hl
        · have := slot_le (w := m * 4) hl; omega
        · exact hl
        · have := slot_le (w := m * 4) hl; omega
      · rintro rfl; omega
    unfold gSwap
    by_cases e2 : a = r2
    · rw [if_pos ((cmp r2).2 e2), if_neg (by omega), if_pos e2]
      rw [htmp' _ (by subst e2; omega)]
      subst e2
      rw [Nat.zero_add, Nat.add_sub_cancel_left]
    · rw [if_neg (fun x => e2 ((cmp r2).1 x))]
      by_cases e1 : a = r1
      · rw [if_pos ((cmp r1).2 e1), if_pos e1]
        subst e1
        rw [Nat.add_sub_cancel_left, enc_row A a2]
      · rw [if_neg (fun x => e1 ((cmp r1).1 x)), if_neg e1, if_neg e2, enc_row A a2]
  rw [hp]
  have ht : Holds ((mem.grow (m * 4) tmp).putM h 4 m m (gSwap r1 r2 A)) mem.next (m * 4) tmp :=
    (grow_holds mem (m * 4) tmp).put_ne (by omega)
  rw [free_ok ht]
  have hf : Fits 4 m m (gSwap r1 r2 A) := by
    intro a c ha hc
    unfold gSwap
    split
    · exact hh.fits _ _ h2 hc
    · split
      · exact hh.fits _ _ h1 hc
      · exact hh.fits _ _ ha hc
  have blkE : ∀ x, x ≠ h → (((mem.grow (m * 4) tmp).putM h 4 m m (gSwap r1 r2 A)).setBlk mem.next none).blk x = mem.blk x := by
    intro x hx
    show (if x = mem.next then none else ((mem.grow (m * 4) tmp).put h _ _).blk x) = _
    by_cases e : x = mem.next
    · rw [if_pos e, e, (hwf mem.next (Nat.le_refl _)).1]
    · rw [if_neg e, put_blk_ne _ _ _ hx, grow_blk_ne _ _ _ e]
  refine ⟨_, rfl, ⟨?_, (holdsM_putM (d := h) mem hf).2⟩, ?_, rfl, rfl, blkE⟩
  · have := (holdsM_putM (d := h) (mem.grow (m * 4) tmp) hf).1
    show (if h = mem.next then none else _) = _
    rw [if_neg (by omega)]
    exact this
  · intro x hx
    have hx' : mem.next + 1 ≤ x := hx
    rw [blkE x (by omega)]
    exact hwf x (by omega)

/-- the state of the elimination: `mat` holds `s.1`, `res` holds `s.2`, everything else is as in `m0` -/
structure GState (m0 : Mem) (res mat m : Nat) (s : Mat Nat × Mat Nat) (mem : Mem) : Prop where
  wf : mem.WF
  ha : HoldsM mem mat 4 m m s.1
  hr : HoldsM mem res 4 m m s.2
  ob : OnlyBlocks m0 mem mat res

theorem GState.put1 {m0 mem : Mem} {res mat m : Nat} {s : Mat Nat × Mat Nat} {B : Mat Nat} (hne : mat ≠ res)
    (h : GState m0 res mat m s mem) (f : Fits 4 m m B) : GState m0 res mat m (B, s.2) (mem.putM mat 4 m m B) :=
  ⟨put_WF h.wf (Holds.lt_next h.wf h.ha.1), holdsM_putM _ f, h.hr.putM_ne hne.symm,
    h.ob.1, h.ob.2.1, fun x h1 h2 => (put_blk_ne _ _ _ h1).trans (h.ob.2.2 x h1 h2)⟩

theorem GState.put2 {m0 mem : Mem} {res mat m : Nat} {s : Mat Nat × Mat Nat} {B : Mat Nat} (hne : mat ≠ res)
    (h : GState m0 res mat m s mem) (f : Fits 4 m m B) : GState m0 res mat m (s.1, B) (mem.putM res 4 m m B) :=
  ⟨put_WF h.wf (Holds.lt_next h.wf h.hr.1), h.ha.putM_ne hne, holdsM_putM _ f,
    h.ob.1, h.ob.2.1, fun x h1 h2 => (put_blk_ne _ _ _ h2).trans (h.ob.2.2 x h1 h2)⟩

theorem fits_scale {m i s : Nat} {A : Mat Nat} (h : Fits 4 m m A) : Fits 4 m m (gScale floatArith i s A) := by
  intro a c ha hc
  unfold gScale
  split
  · exact mulF_lt _ _
  · exact h a c ha hc

theorem fits_shear {m i j s : Nat} {A : Mat Nat} (h : Fits 4 m m A) : Fits 4 m m (gShear floatArith j i s A) := by
  intro a c ha hc
  unfold gShear
  split
  · exact addF_lt _ _
  · exact h a c ha hc

theorem elimRows_run {m0 mem : Mem} {res mat m i : Nat} {s : Mat Nat × Mat Nat} (hne : mat ≠ res)
    (b : m * m ≤ 2147483647) (hi : i < m) (h : GState m0 res mat m s mem) :
    ∃ mem', (forI 0 (m:Int) fun j =>
      if (i:Int) = j then pure ()
      else do
        let k' ← ev (CI.lit j * CI.lit (m:Int) + CI.lit (i:Int))
        let u ← loadN 4 mat k'
        shear_row mat m m j i (negF u)
        shear_row res m m j i (negF u)) mem = .ok ((), mem') ∧ GState m0 res mat m (gRows floatArith i m s) mem' := by
  -- memory after `j` rows
  let P : Nat → Mem := fun j => ((mem.putM mat 4 m m (gRows floatArith i j s).1).putM res 4 m m (gRows floatArith i j s).2)
  have hf : ∀ j, Fits 4 m m (gRows floatArith i j s).1 ∧ Fits 4 m m (gRows floatArith i j s).2 := by
    intro j
    induction j with
    | zero => exact ⟨h.ha.fits, h.hr.fits⟩
    | succ j ih =>
      unfold gRows
      split
      · exact ih
      · exact ⟨fits_shear ih.1, fits_shear ih.2⟩
  have hP : ∀ j, GState m0 res mat m (gRows floatArith i j s) (P j) :=
    fun j => by
      have := (h.put1 hne (hf j).1).put2 hne (hf j).2
      exact this
  have key := forI_run (n := m) (body := fun j =>
      if (i:Int) = j then pure ()
      else do
        let k' ← ev (CI.lit j * CI.lit (m:Int) + CI.lit (i:Int))
        let u ← loadN 4 mat k'
        shear_row mat m m j i (negF u)
        shear_row res m m j i (negF u)) P (fun j hj => by
    beta_reduce
    have hPj := hP j
    by_cases e : i = j
    · rw [if_pos (by exact_mod_cast e)]
      have : P (j+1) = P j := by
        show ((mem.putM mat 4 m m (gRows floatArith i (j+1) s).1).putM res 4 m m (gRows floatArith i (j+1) s).2) = _
        rw [show gRows floatArith i (j+1) s = gRows floatArith i j s from if_pos e]
      rw [this]; rfl
    · rw [if_neg (by exact_mod_cast e)]
      rw [bind_ok (ev_ok (idx_eval hj hi b) _), bind_ok (hPj.ha.load hj hi)]
      rw [bind_ok (shear_run hPj.ha b hi hj (Ne.symm e))]
      rw [shear_run (hPj.hr.putM_ne hne.symm) b hi hj (Ne.symm e)]
      have e2 : gRows floatArith i (j+1) s = (gShear floatArith j i (negF ((gRows floatArith i j s).1 j i))
          (gRows floatArith i j s).1, gShear floatArith j i (negF ((gRows floatArith i j s).1 j i))
          (gRows floatArith i j s).2) := if_neg e
      show Except.ok _ = Except.ok ((), (mem.putM mat 4 m m (gRows floatArith i (j+1) s).1).putM res 4 m m
        (gRows floatArith i (j+1) s).2)
      rw [e2]
      refine congrArg (fun x => Except.ok ((), x)) ?_
      show ((((mem.put mat _ _).put res _ _).put mat _ _).put res _ _) = ((mem.put mat _ _).put res _ _)
      rw [put_comm (mem.put mat _ _) _ _ _ _ (Ne.symm hne), put_put, put_put])
  have s0 : P 0 = mem := by
    show ((mem.putM mat 4 m m s.1).putM res 4 m m s.2) = mem
    rw [h.ha.put_self, h.hr.put_self]
  rw [s0] at key
  exact ⟨_, key, hP m⟩

theorem find_run {mem : Mem} {mat m i : Nat} {A : Mat Nat} (h : HoldsM mem mat 4 m m A) (b : m * m ≤ 2147483647)
    (hi : i < m) : ∀ f r, r + f = m →
    findPivot mat m i f r mem = .ok (((gFind floatArith A i f r : Nat) : Int), mem) ∧
      r ≤ gFind floatArith A i f r ∧ gFind floatArith A i f r ≤ m := by
  intro f
  induction f with
  | zero => intro r hr; exact ⟨rfl, Nat.le_refl _, by unfold gFind; omega⟩
  | succ f ih =>
    intro r hr
    unfold findPivot gFind
    rw [bind_ok (ev_ok (idx_eval (show r < m by omega) hi b) _), bind_ok (h.load (by omega) hi)]
    by_cases hz : isZeroF (A r i)
    · obtain ⟨x1, x2, x3⟩ := ih (r+1) (by omega)
      have ez : floatArith.isZero (A r i) = true := hz
      simp only [hz, ez, if_true]
      refine ⟨?_, by omega, x3⟩
      have : ((r:Int) + 1) = ((r + 1 : Nat) : Int) := by push_cast; rfl
      rw [this]; exact x1
    · have ez : ¬ floatArith.isZero (A r i) = true := hz
      simp only [if_neg hz, if_neg ez]
      exact ⟨rfl, Nat.le_refl _, by omega⟩

theorem pivot_run {m0 mem : Mem} {res mat m i : Nat} {s : Mat Nat × Mat Nat} (hne : mat ≠ res)
    (b : m * m ≤ 536870911) (hi : i < m) (h : GState m0 res mat m s mem) :
    ∃ mem', pivotStep res mat m i mem = .ok ((gPivot floatArith m i s).isSome, mem') ∧
      GState m0 res mat m ((gPivot floatArith m i s).getD s) mem' := by
  have b' : m * m ≤ 2147483647 := by omega
  unfold pivotStep gPivot
  rw [bind_ok (ev_ok (idx_eval hi hi b') _), bind_ok (h.ha.load hi hi)]
  by_cases hz : isZeroF (s.1 i i)
  · have ez : floatArith.isZero (s.1 i i) = true := hz
    simp only [hz, ez, if_true]
    have et : ((m:Int) - ((i:Int) + 1)).toNat = m - (i + 1) := by omega
    have ei : ((i:Int) + 1) = ((i + 1 : Nat) : Int) := by push_cast; rfl
    rw [et, ei]
    obtain ⟨f1, f2, f3⟩ := find_run h.ha b' hi (m - (i+1)) (i+1) (by omega)
    rw [bind_ok f1]
    generalize gFind floatArith s.1 i (m - (i+1)) (i+1) = r at f1 f2 f3 ⊢
    by_cases hr : r = m
    · rw [if_pos (by exact_mod_cast hr), if_pos hr]
      exact ⟨mem, rfl, h⟩
    · rw [if_neg (by exact_mod_cast hr), if_neg hr]
      obtain ⟨m1, a1, a2, a3, a4, a5, a6⟩ := swap_run h.wf h.ha b hi (show r < m by omega) (by omega)
      have hres1 : HoldsM m1 res 4 m m s.2 := ⟨(a6 res hne.symm).trans h.hr.1, h.hr.2⟩
      obtain ⟨m2, b1, b2, b3, b4, b5, b6⟩ := swap_run a3 hres1 b hi (show r < m by omega) (by omega)
      rw [bind_ok a1, bind_ok b1]
      refine ⟨m2, rfl, b3, ⟨(b6 mat hne).trans a2.1, a2.2⟩, b2, b4.trans (a4.trans h.ob.1), b5.trans (a5.trans h.ob.2.1),
        fun x h1 h2 => (b6 x h2).trans ((a6 x h1).trans (h.ob.2.2 x h1 h2))⟩
  · have ez : ¬ floatArith.isZero (s.1 i i) = true := hz
    simp only [if_neg hz, if_neg ez]
    exact ⟨mem, rfl, h⟩

theorem elim_run {m0 mem : Mem} {res mat m i : Nat} {s : Mat Nat × Mat Nat} (hne : mat ≠ res)
    (b : m * m ≤ 2147483647) (hi : i < m) (h : GState m0 res mat m s mem) :
    ∃ mem', eliminate res mat m i mem = .ok ((), mem') ∧ GState m0 res mat m (gElim floatArith m i s) mem' := by
  unfold eliminate
  rw [bind_ok (ev_ok (idx_eval hi hi b) _), bind_ok (h.ha.load hi hi), bind_ok (scale_run h.ha b hi),
    bind_ok (scale_run (h.hr.putM_ne hne.symm) b hi)]
  exact elimRows_run hne b hi ((h.put1 hne (fits_scale h.ha.fits)).put2 hne (fits_scale h.hr.fits))

theorem loop_run {m0 : Mem} {res mat m : Nat} (hne : mat ≠ res) (b : m * m ≤ 536870911) :
    ∀ (f i : Nat), i + f = m → ∀ (s : Mat Nat × Mat Nat) (mem : Mem), GState m0 res mat m s mem →
    ∃ mem', invertLoop res mat m f i mem = .ok ((), mem') ∧ GState m0 res mat m (gLoop floatArith m f i s).1 mem' := by
  intro f
  induction f with
  | zero => intro i _ s mem h; exact ⟨mem, rfl, h⟩
  | succ f ih =>
    intro i hi s mem h
    unfold invertLoop gLoop
    obtain ⟨m1, p1, p2⟩ := pivot_run hne b (show i < m by omega) h
    rw [bind_ok p1]
    cases hp : gPivot floatArith m i s with
    | none =>
      rw [hp] at p2
      exact ⟨m1, rfl, p2⟩
    | some t =>
      rw [hp] at p2
      obtain ⟨m2, e1, e2⟩ := elim_run hne (by omega) (show i < m by omega) p2
      obtain ⟨m3, l1, l2⟩ := ih (i+1) (by omega) _ m2 e2
      refine ⟨m3, ?_, l2⟩
      have ei : ((i:Int) + 1) = ((i + 1 : Nat) : Int) := by push_cast; rfl
      show (eliminate res mat m i >>= fun _ => invertLoop res mat m f (i + 1)) m1 = _
      rw [bind_ok e1, ei]
      exact l1

theorem invert_run {mem : Mem} (hwf : mem.WF) {res mat m : Nat} {A R : Mat Nat} (hne : mat ≠ res)
    (b : m * m ≤ 536870911) (ha : HoldsM mem mat 4 m m A) (hr : HoldsM mem res 4 m m R) :
    ∃ mem', invert_matrix_float res mat m mem = .ok ((), mem') ∧
      GState mem res mat m (gInvert floatArith m A).1 mem' := by
  unfold invert_matrix_float
  rw [bind_ok (identity_run hr (by omega))]
  have h0 : GState mem res mat m (A, R) mem := ⟨hwf, ha, hr, rfl, rfl, fun _ _ _ => rfl⟩
  exact loop_run hne b m 0 (by omega) _ _ (h0.put2 hne (by
    intro a c _ _
    unfold gId
    split <;> decide))

end HyperCV
