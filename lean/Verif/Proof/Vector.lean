/- The vector macros refine lists. -/
import Verif.Proof.Typed
import Verif.Spec.Vector
import Mathlib.Data.Nat.Log

namespace HyperCV
open Spec

/-- bytes of a vector allocation -/
def vecBytes (E sz cap : Nat) (e : Nat → Nat) (p : Nat) : UInt8 :=
  if p < 8 then leByte sz p else if p < 16 then leByte cap (p - 8) else encN E e (p - 16)

theorem loadAt_val {m : Mem} {h N w off v : Nat} {f : Nat → UInt8} (hm : Holds m h N f) (hi : off + w ≤ N)
    (hf : ∀ t, t < w → f (off + t) = leByte v t) (hv : v < 256 ^ w) :
    loadAt w h (off : Int) m = .ok (v, m) := by
  unfold loadAt
  rw [bind_ok (loadBytes_ok hm w off hi), leNat_tab hf hv]
  rfl

open Classical in
theorem storeAt_put {m : Mem} {h N w off v : Nat} {f g : Nat → UInt8} (hi : off + w ≤ N)
    (hg : ∀ p, p < N → g p = if off ≤ p ∧ p < off + w then leByte v (p - off) else f p) :
    storeAt w h (off : Int) v (m.put h N f) = .ok ((), m.put h N g) := by
  have key := storeBytes_fills (m := m) (d := h) (N := N) (new := fun p => leByte v (p - off)) w off v hi
    (by intro t _; simp)
  unfold storeAt
  rw [key f]
  refine congrArg (fun x => Except.ok ((), x)) ?_
  apply put_congr
  intro p hp
  rw [hg p hp]
  by_cases h : off ≤ p ∧ p < off + w <;> simp [h]

theorem vec_size_ok {m : Mem} {h E sz cap : Nat} {e : Nat → Nat}
    (hh : Holds m h (16 + cap * E) (vecBytes E sz cap e)) (hs : sz < 18446744073709551616) :
    vector_size (some h) m = .ok (sz, m) := by
  refine loadAt_val (off := 0) hh (by omega) ?_ hs
  intro t ht
  unfold vecBytes
  rw [if_pos (by omega), Nat.zero_add]

theorem vec_cap_ok {m : Mem} {h E sz cap : Nat} {e : Nat → Nat}
    (hh : Holds m h (16 + cap * E) (vecBytes E sz cap e)) (hs : cap < 18446744073709551616) :
    vector_capacity (some h) m = .ok (cap, m) := by
  refine loadAt_val (off := 8) hh (by omega) ?_ hs
  intro t ht
  unfold vecBytes
  rw [if_neg (by omega), if_pos (by omega), Nat.add_sub_cancel_left]

theorem vec_at_ok {m : Mem} {h E sz cap i : Nat} {e : Nat → Nat}
    (hh : Holds m h (16 + cap * E) (vecBytes E sz cap e)) (hi : i < cap) (he : e i < 256 ^ E) :
    vector_at E (some h) (i : Int) m = .ok (e i, m) := by
  have := slot_le (w := E) hi
  have e1 : (16 + (i : Int) * (E : Int)) = ((16 + i * E : Nat) : Int) := by push_cast; rfl
  unfold vector_at
  rw [e1]
  refine loadAt_val hh (by omega) ?_ he
  intro t ht
  unfold vecBytes
  rw [if_neg (by omega), if_neg (by omega), show 16 + i * E + t - 16 = i * E + t by omega, encN_at e ht]

theorem vec_setSize {m : Mem} {h E sz sz' cap : Nat} {e : Nat → Nat} :
    vector_set_size (some h) sz' (m.put h (16 + cap * E) (vecBytes E sz cap e))
      = .ok ((), m.put h (16 + cap * E) (vecBytes E sz' cap e)) := by
  refine storeAt_put (off := 0) (by omega) ?_
  intro p _
  unfold vecBytes
  by_cases hp : p < 8
  · rw [if_pos hp, if_pos (by omega), Nat.sub_zero]
  · rw [if_neg hp, if_neg (show ¬ (0 ≤ p ∧ p < 0 + 8) by omega), if_neg hp]

theorem vec_put_ok {m : Mem} {h E sz cap i v : Nat} {e : Nat → Nat} (hi : i < cap) :
    vector_put E (some h) (i : Int) v (m.put h (16 + cap * E) (vecBytes E sz cap e))
      = .ok ((), m.put h (16 + cap * E) (vecBytes E sz cap (fun j => if j = i then v else e j))) := by
  have hsl := slot_le (w := E) hi
  have e1 : (16 + (i : Int) * (E : Int)) = ((16 + i * E : Nat) : Int) := by push_cast; rfl
  unfold vector_put
  rw [e1]
  refine storeAt_put (by omega) ?_
  intro p hp
  unfold vecBytes
  by_cases h8 : p < 8
  · rw [if_pos h8, if_neg (by omega), if_pos h8]
  · rw [if_neg h8, if_neg h8]
    by_cases h16 : p < 16
    · rw [if_pos h16, if_neg (by omega), if_pos h16]
    · rw [if_neg h16, if_neg h16]
      have hE : 0 < E := by
        rcases Nat.eq_zero_or_pos E with h0 | h0
        · subst h0; omega
        · exact h0
      unfold encN
      have hd := Nat.div_add_mod (p - 16) E
      have hl := Nat.mod_lt (p - 16) hE
      beta_reduce
      by_cases hc : (p - 16) / E = i
      · have : i * E = E * ((p - 16) / E) := by rw [hc, Nat.mul_comm]
        rw [if_pos hc, if_pos (by omega)]
        congr 1; omega
      · rw [if_neg hc, if_neg]
        rintro ⟨h1, h2⟩
        apply hc
        have h3 : (p - 16) / E ≥ i := (Nat.le_div_iff_mul_le hE).2 (by omega)
        have h4 : (p - 16) / E < i + 1 := Nat.div_lt_of_lt_mul (by rw [Nat.mul_comm, Nat.succ_mul]; omega)
        omega

/-- representation invariant: the vector variable `vec` shows the list `l` and has capacity `cap`; `m0` is the
heap outside the vector, of which nothing changed, and no other allocation is left over -/
structure VecInv (m0 m : Mem) (vec : Option Nat) (E : Nat) (l : List Nat) (cap : Nat) : Prop where
  wf : m.WF
  next : m0.next ≤ m.next
  hm : m.hm = m0.hm
  sm : m.sm = m0.sm
  low : ∀ h, h < m0.next → m.blk h = m0.blk h
  high : ∀ h, m0.next ≤ h → m.blk h ≠ none → vec = some h
  elems : ∀ v ∈ l, v < 256 ^ E
  len : l.length ≤ cap
  rep : match vec with
    | none => cap = 0
    | some h => 0 < cap ∧ m0.next ≤ h ∧ h < m.next ∧
        ∃ e, Holds m h (16 + cap * E) (vecBytes E l.length cap e) ∧ ∀ i (hi : i < l.length), e i = l[i]

theorem VecInv.start {m0 : Mem} (h : m0.WF) (E : Nat) : VecInv m0 m0 none E [] 0 where
  wf := h
  next := le_refl _
  hm := rfl
  sm := rfl
  low _ _ := rfl
  high x hx hb := absurd (h x hx).1 hb
  elems := by intro v hv; cases hv
  len := le_refl _
  rep := rfl

theorem usize_nat {n : Nat} (h : n < 18446744073709551616) : usize (n : Int) = n := by
  unfold usize; omega

theorem VecInv.shows {m0 m : Mem} {vec : Option Nat} {E : Nat} {l : List Nat} {cap : Nat}
    (h : VecInv m0 m vec E l cap) (hc : cap < 18446744073709551616) :
    Shows E m vec l ∧ vector_capacity vec m = .ok (cap, m) := by
  have hlen := h.len
  have hr := h.rep
  cases vec with
  | none =>
    have h0 : cap = 0 := hr
    have : l = [] := List.eq_nil_of_length_eq_zero (by omega)
    subst this h0
    exact ⟨⟨rfl, rfl, ⟨0, rfl, le_refl _⟩, fun i hi => absurd hi (Nat.not_lt_zero _)⟩, rfl⟩
  | some a =>
    obtain ⟨_, _, _, e, h1, h2⟩ := hr
    have hs := vec_size_ok h1 (by omega)
    have hcp := vec_cap_ok h1 hc
    refine ⟨⟨hs, ?_, ⟨cap, hcp, h.len⟩, ?_⟩, hcp⟩
    · unfold vector_empty
      rw [bind_ok hs]
      cases l <;> rfl
    · intro i hi
      rw [vec_at_ok h1 (by omega) (by rw [h2 i hi]; exact h.elems _ (List.getElem_mem hi)), h2 i hi]

theorem put_high {m m0 : Mem} {vec : Option Nat} {a N : Nat} {f g : Nat → UInt8}
    (hh : Holds m a N g) (hb : ∀ h, m0.next ≤ h → m.blk h ≠ none → vec = some h) :
    ∀ h, m0.next ≤ h → (m.put a N f).blk h ≠ none → vec = some h := by
  intro h h1 h2
  by_cases hc : h = a
  · subst hc
    exact hb _ h1 (by rw [hh]; simp)
  · rw [put_blk_ne _ _ _ hc] at h2
    exact hb h h1 h2

/-- replacing the contents of the vector's own block -/
theorem VecInv.update {m0 m : Mem} {a E : Nat} {l l' : List Nat} {cap : Nat} {e : Nat → Nat}
    (h : VecInv m0 m (some a) E l cap) (hlen : l'.length ≤ cap) (hel : ∀ v ∈ l', v < 256 ^ E)
    (he : ∀ i (hi : i < l'.length), e i = l'[i]) :
    VecInv m0 (m.put a (16 + cap * E) (vecBytes E l'.length cap e)) (some a) E l' cap := by
  obtain ⟨hp, ha, han, _, h1, _⟩ := h.rep
  exact {
    wf := put_WF h.wf han
    next := h.next
    hm := h.hm
    sm := h.sm
    low := fun x hx => by rw [put_blk_ne _ _ _ (by omega)]; exact h.low x hx
    high := put_high h1 h.high
    elems := hel
    len := hlen
    rep := ⟨hp, ha, han, e, holds_put _ _ _ _, he⟩ }

theorem VecInv.pop {m0 m : Mem} {vec : Option Nat} {E : Nat} {l : List Nat} {cap : Nat}
    (h : VecInv m0 m vec E l cap) (hc : cap < 18446744073709551616) (hl : l ≠ []) :
    ∃ m', vector_pop_back vec m = .ok ((), m') ∧ VecInv m0 m' vec E l.dropLast cap ∧ m'.next = m.next := by
  have hpos : 0 < l.length := List.length_pos_iff.2 hl
  have hlen := h.len
  cases vec with
  | none => have := h.rep; omega
  | some a =>
    obtain ⟨_, _, _, e, h1, h2⟩ := h.rep
    have e1 : usize ((l.length : Int) - 1) = l.length - 1 := by unfold usize; omega
    refine ⟨_, ?_, h.update (l' := l.dropLast) (e := e) (by simp; omega)
      (fun v hv => h.elems v (List.mem_of_mem_dropLast hv)) ?_, rfl⟩
    · unfold vector_pop_back
      rw [bind_ok (vec_size_ok h1 (by omega)), e1]
      conv_lhs => rw [← h1.put_self]
      rw [vec_setSize, List.length_dropLast]
    · intro i hi
      rw [List.length_dropLast] at hi
      rw [h2 i (by omega), List.getElem_dropLast]

theorem VecInv.erase {m0 m : Mem} {vec : Option Nat} {E : Nat} {l : List Nat} {cap : Nat} {i : Int}
    (h : VecInv m0 m vec E l cap) (hc : cap ≤ 18446744071562067968) (hi1 : -2147483648 ≤ i)
    (hi2 : i ≤ 2147483647) :
    ∃ m', vector_erase E vec i m = .ok ((), m') ∧
      VecInv m0 m' vec E (if 0 ≤ i ∧ i < l.length then l.eraseIdx i.toNat else l) cap ∧ m'.next = m.next := by
  have hlen := h.len
  cases vec with
  | none =>
    have h0 : cap = 0 := h.rep
    refine ⟨m, rfl, ?_, rfl⟩
    rw [if_neg (by omega)]
    exact h
  | some a =>
    obtain ⟨_, _, _, e, h1, h2⟩ := h.rep
    unfold vector_erase
    simp only []
    rw [bind_ok (vec_size_ok h1 (by omega))]
    by_cases hin : 0 ≤ i ∧ i < l.length
    · rw [if_pos hin]
      obtain ⟨k, rfl⟩ := Int.eq_ofNat_of_zero_le hin.1
      have hk : k < l.length := by omega
      have e1 : usize ((l.length : Int) - 1) = l.length - 1 := by unfold usize; omega
      have e2 : usize (k : Int) = k := by unfold usize; omega
      have e3 : ((k : Int)).toNat = k := by omega
      simp only [e1, e2, e3]
      rw [if_pos hk]
      have hlen' : (l.eraseIdx k).length = l.length - 1 := List.length_eraseIdx_of_lt hk
      have hf := forI_run_from (n := l.length - 1 - k) (lo := (k : Int)) (hi := (l.length : Int) - 1)
        (body := fun x => do
          let v ← vector_at E (some a) (x + 1)
          vector_put E (some a) x v) (by omega)
        (fun j => m.put a (16 + cap * E) (vecBytes E (l.length - 1) cap
          (fun p => if k ≤ p ∧ p < k + j then e (p + 1) else e p))) (by
          intro j hj
          beta_reduce
          have e4 : (k : Int) + (j : Int) + 1 = ((k + j + 1 : Nat) : Int) := by push_cast; rfl
          have e5 : (k : Int) + (j : Int) = ((k + j : Nat) : Int) := by push_cast; rfl
          have hx : (if k ≤ k + j + 1 ∧ k + j + 1 < k + j then e (k + j + 1 + 1) else e (k + j + 1))
              = e (k + j + 1) := if_neg (by omega)
          have hld := vec_at_ok (i := k + j + 1) (holds_put m a (16 + cap * E) (vecBytes E (l.length - 1) cap
              (fun p => if k ≤ p ∧ p < k + j then e (p + 1) else e p))) (by omega) (by
              beta_reduce
              rw [hx, h2 _ (by omega)]
              exact h.elems _ (List.getElem_mem _))
          beta_reduce at hld
          rw [hx] at hld
          rw [e4, bind_ok hld]
          rw [e5, vec_put_ok (by omega)]
          refine congrArg (fun x => Except.ok ((), m.put a (16 + cap * E) (vecBytes E (l.length - 1) cap x))) ?_
          funext p
          by_cases hp : p = k + j
          · rw [if_pos hp, if_pos (by omega), hp]
          · rw [if_neg hp]
            by_cases hp2 : k ≤ p ∧ p < k + j
            · rw [if_pos hp2, if_pos (by omega)]
            · rw [if_neg hp2, if_neg (by omega)])
      refine ⟨_, ?_, h.update (l' := l.eraseIdx k)
        (e := fun p => if k ≤ p ∧ p < k + (l.length - 1 - k) then e (p + 1) else e p) (by omega)
        (fun v hv => h.elems v (List.mem_of_mem_eraseIdx hv)) ?_, rfl⟩
      · conv_lhs => rw [← h1.put_self]
        rw [bind_ok vec_setSize, hlen']
        have e0 : vecBytes E (l.length - 1) cap e = vecBytes E (l.length - 1) cap
            (fun p => if k ≤ p ∧ p < k + 0 then e (p + 1) else e p) := by
          congr 1; funext p; rw [if_neg (by omega)]
        rw [e0]
        exact hf
      · intro p hp
        rw [hlen'] at hp
        rw [List.getElem_eraseIdx]
        beta_reduce
        by_cases hpk : p < k
        · rw [dif_pos hpk, if_neg (by omega), h2 p (by omega)]
        · rw [dif_neg hpk, if_pos (by omega), h2 (p + 1) (by omega)]
    · rw [if_neg hin]
      have : ¬ usize i < l.length := by unfold usize; omega
      simp only [if_neg this]
      exact ⟨m, rfl, h, rfl⟩

theorem VecInv.free {m0 m : Mem} {vec : Option Nat} {E : Nat} {l : List Nat} {cap : Nat}
    (h : VecInv m0 m vec E l cap) :
    ∃ m', vector_free vec m = .ok (none, m') ∧ VecInv m0 m' none E [] 0 ∧ m'.next = m.next := by
  cases vec with
  | none =>
    refine ⟨m, rfl, ?_, rfl⟩
    exact { h with
      elems := (by intro v hv; cases hv)
      len := le_refl _
      rep := rfl }
  | some a =>
    obtain ⟨_, ha, han, e, h1, h2⟩ := h.rep
    refine ⟨m.setBlk a none, ?_, ?_, rfl⟩
    · unfold vector_free
      simp only []
      rw [bind_ok (a := ()) (m' := m.setBlk a none)]
      · rfl
      · unfold HyperCV.free
        rw [h1]
    · exact {
        wf := by
          intro x hx
          have := h.wf x hx
          refine ⟨?_, this.2⟩
          simp only [Mem.setBlk]
          split
          · rfl
          · exact this.1
        next := h.next
        hm := h.hm
        sm := h.sm
        low := fun x hx => by
          simp only [Mem.setBlk]
          rw [if_neg (by omega)]; exact h.low x hx
        high := fun x hx hb => by
          simp only [Mem.setBlk] at hb
          by_cases hc : x = a
          · rw [if_pos hc] at hb; exact absurd rfl hb
          · rw [if_neg hc] at hb
            have := h.high x hx hb
            exact absurd (Option.some.inj this).symm hc
        elems := by intro v hv; cases hv
        len := le_refl _
        rep := rfl }

/-- the bytes after a resized vector's header -/
theorem vecBytes_of {E sz cap N : Nat} {f : Nat → UInt8} {e : Nat → Nat} (hE : 0 < E)
    (h1 : ∀ t, t < 8 → f t = leByte sz t) (h2 : ∀ t, t < 8 → f (8 + t) = leByte cap t)
    (h3 : ∀ i t, i < N → t < E → f (16 + (i * E + t)) = leByte (e i) t) :
    ∀ p, p < 16 + N * E → f p = vecBytes E sz cap e p := by
  intro p hp
  unfold vecBytes
  by_cases h8 : p < 8
  · rw [if_pos h8, h1 p h8]
  · rw [if_neg h8]
    by_cases h16 : p < 16
    · rw [if_pos h16, ← h2 (p - 8) (by omega)]
      congr 1; omega
    · rw [if_neg h16]
      unfold encN
      have hd := Nat.div_add_mod (p - 16) E
      have hl := Nat.mod_lt (p - 16) hE
      rw [← h3 ((p - 16) / E) ((p - 16) % E)
        (Nat.div_lt_of_lt_mul (by rw [Nat.mul_comm]; omega)) hl]
      congr 1
      rw [Nat.mul_comm ((p - 16) / E)]
      omega

/-- growing to capacity `c` -/
theorem VecInv.grow {m0 m : Mem} {vec : Option Nat} {E : Nat} {l : List Nat} {cap c : Nat}
    (h : VecInv m0 m vec E l cap) (hE : 0 < E) (hc : 0 < c) (hcc : cap ≤ c)
    (hs : c * E + 16 < 18446744073709551616) :
    ∃ a m', vector_grow E vec c m = .ok (some a, m') ∧ VecInv m0 m' (some a) E l c ∧ m'.next = m.next + 1 := by
  have hlen := h.len
  have hcE : c ≤ c * E := Nat.le_mul_of_pos_right c hE
  have hus : usize (((c : Nat) : Int) * ((E : Nat) : Int) + 16) = 16 + c * E := by
    have : ((c : Nat) : Int) * ((E : Nat) : Int) + 16 = ((16 + c * E : Nat) : Int) := by push_cast; ring
    rw [this, usize_nat (by omega)]
  cases vec with
  | none =>
    have h0 : cap = 0 := h.rep
    have : l = [] := List.eq_nil_of_length_eq_zero (by omega)
    subst this
    have hnb := (h.wf m.next (le_refl _)).1
    let e : Nat → Nat := fun i => leNat (tab E (fun t => m.junk m.next (16 + (i * E + t))))
    refine ⟨m.next, m.grow (16 + c * E) (vecBytes E 0 c e), ?_, ?_, rfl⟩
    · unfold vector_grow
      simp only [hus]
      rw [bind_ok (malloc_run _ _)]
      have e1 : m.grow (16 + c * E) (m.junk m.next) = (m.grow (16 + c * E) (m.junk m.next)).put m.next (16 + c * E)
          (m.junk m.next) := (grow_holds _ _ _).put_self.symm
      rw [e1]
      rw [bind_ok (m' := (m.grow (16 + c * E) (m.junk m.next)).put m.next (16 + c * E)
        (fun p => if 8 ≤ p ∧ p < 16 then leByte c (p - 8) else m.junk m.next p)) (a := ())]
      swap
      · refine storeAt_put (off := 8) (by omega) ?_
        intro p _
        rfl
      rw [bind_ok (m' := m.grow (16 + c * E) (vecBytes E 0 c e)) (a := ())]
      · rfl
      · rw [← grow_put m (16 + c * E) (16 + c * E) (m.junk m.next) (vecBytes E 0 c e)]
        refine storeAt_put (off := 0) (by omega) ?_
        intro p hp
        symm
        refine vecBytes_of (f := fun p => if 0 ≤ p ∧ p < 0 + 8 then leByte 0 (p - 0) else
          if 8 ≤ p ∧ p < 16 then leByte c (p - 8) else m.junk m.next p) hE ?_ ?_ ?_ p hp
        · intro t ht; beta_reduce; rw [if_pos (by omega), Nat.sub_zero]
        · intro t ht; beta_reduce; rw [if_neg (by omega), if_pos (by omega), Nat.add_sub_cancel_left]
        · intro i t hi ht
          beta_reduce
          rw [if_neg (by omega), if_neg (by omega), leByte_leNat _ ht]
    · exact {
        wf := grow_WF h.wf _ _
        next := by have := h.next; rw [grow_next]; omega
        hm := h.hm
        sm := h.sm
        low := fun x hx => by
          have := h.next
          rw [grow_blk_ne _ _ _ (by omega)]; exact h.low x hx
        high := fun x hx hb => by
          by_cases hx' : x = m.next
          · rw [hx']
          · rw [grow_blk_ne _ _ _ hx'] at hb
            exact absurd (h.high x hx hb) (by simp)
        elems := h.elems
        len := by simp
        rep := ⟨hc, h.next, Nat.lt_succ_self _, e, grow_holds _ _ _, fun i hi => absurd hi (Nat.not_lt_zero _)⟩ }
  | some b =>
    obtain ⟨hp, hb, hbn, e, h1, h2⟩ := h.rep
    have hcapE : cap * E ≤ c * E := Nat.mul_le_mul_right E hcc
    let e' : Nat → Nat := fun i => if i < cap then e i else
      leNat (tab E (fun t => m.junk m.next (16 + (i * E + t))))
    let m1 : Mem := { m with
        blk := fun x => if x = m.next then some (tab (16 + c * E) fun p =>
            ((tab (16 + cap * E) (vecBytes E l.length cap e))[p]?).getD (m.junk m.next p))
          else if x = b then none else m.blk x
        next := m.next + 1 }
    have hm1 : Holds m1 m.next (16 + c * E) (fun p =>
        ((tab (16 + cap * E) (vecBytes E l.length cap e))[p]?).getD (m.junk m.next p)) := by
      unfold Holds; simp [m1]
    have hold : ∀ p, p < 16 + cap * E → ((tab (16 + cap * E) (vecBytes E l.length cap e))[p]?).getD (m.junk m.next p)
        = vecBytes E l.length cap e p := by
      intro p hp; rw [tab_get? _ hp]; rfl
    have hjunk : ∀ p, 16 + cap * E ≤ p → ((tab (16 + cap * E) (vecBytes E l.length cap e))[p]?).getD
        (m.junk m.next p) = m.junk m.next p := by
      intro p hp; rw [tab_get?_none _ hp]; rfl
    refine ⟨m.next, m1.put m.next (16 + c * E) (vecBytes E l.length c e'), ?_, ?_, rfl⟩
    · unfold vector_grow
      simp only [hus]
      rw [bind_ok (m' := m1) (a := m.next)]
      swap
      · unfold realloc
        rw [h1]
      have e1 := hm1.put_self.symm
      rw [bind_ok (m' := m1.put m.next (16 + c * E) (vecBytes E l.length c e')) (a := ())]
      · rfl
      · conv_lhs => rw [e1]
        refine storeAt_put (off := 8) (by omega) ?_
        intro p hp'
        symm
        refine vecBytes_of (f := fun p => if 8 ≤ p ∧ p < 8 + 8 then leByte c (p - 8) else
          ((tab (16 + cap * E) (vecBytes E l.length cap e))[p]?).getD (m.junk m.next p)) hE ?_ ?_ ?_ p hp'
        · intro t ht
          beta_reduce
          rw [if_neg (by omega), hold t (by omega)]
          unfold vecBytes
          rw [if_pos ht]
        · intro t ht; beta_reduce; rw [if_pos (by omega), Nat.add_sub_cancel_left]
        · intro i t hi ht
          beta_reduce
          rw [if_neg (by omega)]
          by_cases hic : i < cap
          · have := slot_le (w := E) hic
            rw [hold _ (by omega)]
            unfold vecBytes
            rw [if_neg (by omega), if_neg (by omega), Nat.add_sub_cancel_left, encN_at e ht]
            simp only [e', if_pos hic]
          · have : cap * E ≤ i * E := Nat.mul_le_mul_right E (by omega)
            rw [hjunk _ (by omega)]
            simp only [e', if_neg hic]
            rw [leByte_leNat _ ht]
    · exact {
        wf := by
          refine put_WF ?_ (Nat.lt_succ_self _)
          intro x hx
          have hx' : m.next + 1 ≤ x := hx
          have := h.wf x (by omega)
          refine ⟨?_, this.2⟩
          show (if x = m.next then _ else if x = b then none else m.blk x) = none
          rw [if_neg (by omega), if_neg (by omega)]
          exact this.1
        next := by
          have := h.next
          show m0.next ≤ m.next + 1
          omega
        hm := h.hm
        sm := h.sm
        low := fun x hx => by
          have := h.next
          rw [put_blk_ne _ _ _ (by omega)]
          show (if x = m.next then _ else if x = b then none else m.blk x) = _
          rw [if_neg (by omega), if_neg (by omega)]
          exact h.low x hx
        high := fun x hx hbx => by
          by_cases hx' : x = m.next
          · rw [hx']
          · rw [put_blk_ne _ _ _ hx'] at hbx
            change (if x = m.next then _ else if x = b then none else m.blk x) ≠ none at hbx
            rw [if_neg hx'] at hbx
            by_cases hxb : x = b
            · rw [if_pos hxb] at hbx; exact absurd rfl hbx
            · rw [if_neg hxb] at hbx
              exact absurd (Option.some.inj (h.high x hx hbx)).symm hxb
        elems := h.elems
        len := by omega
        rep := ⟨hc, h.next, Nat.lt_succ_self _, e', holds_put _ _ _ _, fun i hi => by
          simp only [e']
          rw [if_pos (by omega)]
          exact h2 i hi⟩ }

/-- capacity after appending to a vector of `n` elements with capacity `cap` -/
def pushCap (n cap : Nat) : Nat := if cap ≤ n then (if cap = 0 then 1 else 2 * cap) else cap

/-- number of allocations made by appending -/
def pushAllocs (n cap : Nat) : Nat := if cap ≤ n then 1 else 0

theorem VecInv.push {m0 m : Mem} {vec : Option Nat} {E : Nat} {l : List Nat} {cap v : Nat}
    (h : VecInv m0 m vec E l cap) (hE : 0 < E) (hv : v < 256 ^ E)
    (hs : pushCap l.length cap * E + 16 < 18446744073709551616) :
    ∃ vec' m', vector_push_back E vec v m = .ok (vec', m') ∧
      VecInv m0 m' vec' E (l ++ [v]) (pushCap l.length cap) ∧
      m'.next = m.next + pushAllocs l.length cap := by
  have hlen := h.len
  have hcE : pushCap l.length cap ≤ pushCap l.length cap * E := Nat.le_mul_of_pos_right _ hE
  have hcc : cap ≤ pushCap l.length cap := by unfold pushCap; (repeat' split) <;> omega
  have hlt : l.length < pushCap l.length cap := by unfold pushCap; (repeat' split) <;> omega
  have hsh := h.shows (by omega)
  have hres : ∃ a m1, vector_reserve E vec m = .ok (some a, m1) ∧ VecInv m0 m1 (some a) E l (pushCap l.length cap) ∧
      m1.next = m.next + pushAllocs l.length cap := by
    unfold vector_reserve
    rw [bind_ok hsh.2, bind_ok hsh.1.1]
    by_cases hc : cap ≤ l.length
    · rw [if_pos hc]
      have e1 : (if cap = 0 then usize ((cap : Int) + 1) else usize ((cap : Int) * 2)) = pushCap l.length cap := by
        unfold pushCap at hs hcE ⊢
        rw [if_pos hc] at hs hcE ⊢
        unfold usize
        split <;> simp_all <;> omega
      rw [e1, show pushAllocs l.length cap = 1 from if_pos hc]
      exact h.grow hE (by omega) hcc hs
    · rw [if_neg hc]
      have e1 : pushCap l.length cap = cap := if_neg hc
      rw [e1, show pushAllocs l.length cap = 0 from if_neg hc]
      cases vec with
      | none => have := h.rep; omega
      | some a => exact ⟨a, m, rfl, h, rfl⟩
  obtain ⟨a, m1, hr1, hr2, hr3⟩ := hres
  obtain ⟨_, _, _, e, h1, h2⟩ := hr2.rep
  generalize pushCap l.length cap = c at *
  refine ⟨some a, m1.put a (16 + c * E) (vecBytes E (l ++ [v]).length c
    (fun j => if j = l.length then v else e j)), ?_, hr2.update ?_ ?_ ?_, hr3⟩
  · unfold vector_push_back
    rw [bind_ok hr1, bind_ok (vec_size_ok h1 (by omega))]
    conv_lhs => rw [← h1.put_self]
    rw [bind_ok (vec_put_ok hlt), bind_ok (vec_size_ok (holds_put _ _ _ _) (by omega))]
    have e1 : usize ((l.length : Int) + 1) = (l ++ [v]).length := by
      rw [List.length_append]; unfold usize; simp; omega
    rw [e1, bind_ok vec_setSize]
    rfl
  · rw [List.length_append]; exact hlt
  · intro x hx
    rcases List.mem_append.1 hx with hx | hx
    · exact h.elems x hx
    · rw [List.mem_singleton.1 hx]; exact hv
  · intro i hi
    beta_reduce
    rw [List.length_append] at hi
    by_cases hil : i = l.length
    · subst hil; rw [if_pos rfl]; simp
    · have : i < l.length := by simp at hi; omega
      rw [if_neg hil, h2 i this, List.getElem_append_left this]

theorem pushCap_bound {n cap k : Nat} (hk : cap ≤ 2 * k) (hn : n ≤ k) : pushCap n cap ≤ 2 * (k + 1) := by
  unfold pushCap
  repeat' split
  all_goals omega

/-- one operation -/
theorem VecInv.step {m0 m : Mem} {vec : Option Nat} {E : Nat} {l : List Nat} {cap k : Nat} (op : VOp)
    (h : VecInv m0 m vec E l cap) (hE : 0 < E) (hop : op.Legal E l)
    (hk : cap ≤ 2 * k) (hn : l.length ≤ k) (hs : 2 * (k + 1) * E + 2147483664 ≤ 18446744073709551616) :
    ∃ vec' m' cap', op.run E vec m = .ok (vec', m') ∧ VecInv m0 m' vec' E (op.onList l) cap' ∧
      cap' ≤ 2 * (k + 1) ∧ (op.onList l).length ≤ k + 1 := by
  have hlen := h.len
  have hkE : 2 * (k + 1) ≤ 2 * (k + 1) * E := Nat.le_mul_of_pos_right _ hE
  cases op with
  | push v =>
    have hb := pushCap_bound hk hn
    have hbE := Nat.mul_le_mul_right E hb
    obtain ⟨vec', m', h1, h2, _⟩ := h.push hE hop (by omega)
    exact ⟨vec', m', _, h1, h2, hb, by simp [VOp.onList]; omega⟩
  | pop =>
    obtain ⟨m', h1, h2, _⟩ := h.pop (by omega) hop
    refine ⟨vec, m', cap, ?_, h2, by omega, ?_⟩
    · unfold VOp.run; simp only []; rw [bind_ok h1]; rfl
    · simp [VOp.onList]; omega
  | erase i =>
    obtain ⟨m', h1, h2, _⟩ := h.erase (i := i) (by omega) hop.1 hop.2
    refine ⟨vec, m', cap, ?_, h2, by omega, ?_⟩
    · unfold VOp.run; simp only []; rw [bind_ok h1]; rfl
    · simp only [VOp.onList]
      split
      · have := List.length_eraseIdx_le l i.toNat; omega
      · omega
  | free =>
    obtain ⟨m', h1, h2, _⟩ := h.free
    exact ⟨none, m', 0, h1, h2, by omega, by simp [VOp.onList]⟩

theorem VecInv.hist {E : Nat} (hE : 0 < E) : ∀ (ops : List VOp) {m0 m : Mem} {vec : Option Nat} {l : List Nat}
    {cap k : Nat}, VecInv m0 m vec E l cap → LegalHist E ops l → cap ≤ 2 * k → l.length ≤ k →
    2 * (k + ops.length) * E + 2147483664 ≤ 18446744073709551616 →
    ∃ vec' m' cap', runHist E ops vec m = .ok (vec', m') ∧ VecInv m0 m' vec' E (listAfter ops l) cap' ∧
      cap' ≤ 2 * (k + ops.length) := by
  intro ops
  induction ops with
  | nil =>
    intro m0 m vec l cap k h _ hk _ _
    exact ⟨vec, m, cap, rfl, h, hk⟩
  | cons op ops ih =>
    intro m0 m vec l cap k h hl hk hn hs
    have hle : 2 * (k + 1) * E ≤ 2 * (k + (op :: ops).length) * E :=
      Nat.mul_le_mul_right E (by simp only [List.length_cons]; omega)
    obtain ⟨vec1, m1, cap1, h1, h2, h3, h4⟩ := h.step op hE hl.1 hk hn (by omega)
    have e : k + (op :: ops).length = k + 1 + ops.length := by simp only [List.length_cons]; omega
    rw [e] at hs
    obtain ⟨vec2, m2, cap2, k1, k2, k3⟩ := ih h2 hl.2 h3 h4 hs
    refine ⟨vec2, m2, cap2, ?_, k2, by rw [e]; exact k3⟩
    unfold runHist
    rw [bind_ok h1]
    exact k1

theorem runHist_append {E : Nat} (b : List VOp) : ∀ (a : List VOp) (v : Option Nat) (m : Mem),
    runHist E (a ++ b) v m = (runHist E a v >>= fun v' => runHist E b v') m := by
  intro a
  induction a with
  | nil => intro v m; rfl
  | cons op a ih =>
    intro v m
    simp only [List.cons_append, runHist, bind_run]
    cases op.run E v m with
    | error e => rfl
    | ok r =>
      have := ih r.1 r.2
      simp only [bind_run] at this
      exact this

/-! ### Growth -/

theorem clog_push {n : Nat} (hn : 0 < n) :
    pushCap n (2 ^ Nat.clog 2 n) = 2 ^ Nat.clog 2 (n + 1) ∧
    Nat.clog 2 (n + 1) = Nat.clog 2 n + pushAllocs n (2 ^ Nat.clog 2 n) := by
  have h1 : n ≤ 2 ^ Nat.clog 2 n := Nat.le_pow_clog (by decide) n
  unfold pushCap pushAllocs
  have hpos : 2 ^ Nat.clog 2 n ≠ 0 := by positivity
  by_cases hc : 2 ^ Nat.clog 2 n ≤ n
  · have he : 2 ^ Nat.clog 2 n = n := by omega
    have hk : Nat.clog 2 (n + 1) = Nat.clog 2 n + 1 := by
      apply le_antisymm
      · rw [Nat.clog_le_iff_le_pow (by decide), pow_succ]; omega
      · have : Nat.clog 2 n < Nat.clog 2 (n + 1) := by
          rw [← not_le, Nat.clog_le_iff_le_pow (by decide)]; omega
        omega
    rw [if_pos hc, if_neg hpos, if_pos hc, hk, pow_succ]
    exact ⟨by ring, rfl⟩
  · have hk : Nat.clog 2 (n + 1) = Nat.clog 2 n := by
      apply le_antisymm
      · rw [Nat.clog_le_iff_le_pow (by decide)]; omega
      · exact Nat.clog_mono_right 2 (by omega)
    rw [if_neg hc, if_neg hc, hk]
    exact ⟨rfl, rfl⟩

/-- `n` appends -/
def pushAll (E : Nat) : List Nat → Option Nat → M (Option Nat)
  | [], vec => pure vec
  | v :: vs, vec => do
    let vec ← vector_push_back E vec v
    pushAll E vs vec

theorem pushAll_hist {E : Nat} : ∀ (vs : List Nat) (vec : Option Nat),
    pushAll E vs vec = runHist E (vs.map .push) vec := by
  intro vs
  induction vs with
  | nil => intro vec; rfl
  | cons v vs ih =>
    intro vec
    simp only [pushAll, List.map_cons, runHist, VOp.run]
    congr 1
    funext v'
    exact ih v'

theorem VecInv.pushAll {E : Nat} (hE : 0 < E) : ∀ (vs : List Nat) {m0 m : Mem} {vec : Option Nat} {l : List Nat},
    0 < l.length → VecInv m0 m vec E l (2 ^ Nat.clog 2 l.length) → (∀ v ∈ vs, v < 256 ^ E) →
    2 ^ Nat.clog 2 (l.length + vs.length) * E + 16 < 18446744073709551616 →
    ∃ vec' m', HyperCV.pushAll E vs vec m = .ok (vec', m') ∧
      VecInv m0 m' vec' E (l ++ vs) (2 ^ Nat.clog 2 (l.length + vs.length)) ∧
      m'.next + Nat.clog 2 l.length = m.next + Nat.clog 2 (l.length + vs.length) := by
  intro vs
  induction vs with
  | nil =>
    intro m0 m vec l hl h _ _
    exact ⟨vec, m, rfl, by simpa using h, rfl⟩
  | cons v vs ih =>
    intro m0 m vec l hl h hv hs
    have e : l.length + (v :: vs).length = (l ++ [v]).length + vs.length := by
      simp only [List.length_cons, List.length_append, List.length_nil]; omega
    have e2 : (l ++ [v]).length = l.length + 1 := by simp
    have hcl := clog_push hl
    have hmono : 2 ^ Nat.clog 2 (l.length + 1) ≤ 2 ^ Nat.clog 2 (l.length + (v :: vs).length) :=
      Nat.pow_le_pow_right (by decide) (Nat.clog_mono_right 2 (by simp))
    have hmE := Nat.mul_le_mul_right E hmono
    obtain ⟨vec1, m1, h1, h2, h3⟩ := h.push hE (hv v (by simp)) (by rw [hcl.1]; omega)
    rw [hcl.1, ← e2] at h2
    rw [e] at hs ⊢
    obtain ⟨vec2, m2, k1, k2, k3⟩ := ih (by omega) h2 (fun x hx => hv x (by simp [hx])) hs
    refine ⟨vec2, m2, ?_, by simpa using k2, ?_⟩
    · unfold HyperCV.pushAll
      rw [bind_ok h1]
      exact k1
    · have := hcl.2
      rw [← e2] at this
      omega

end HyperCV
