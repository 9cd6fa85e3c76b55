/- Facts about typed little-endian accesses. -/
import Verif.Base.Lemmas

namespace HyperCV

theorem leNat_lt (l : List UInt8) : leNat l < 256 ^ l.length := by
  induction l with
  | nil => simp [leNat]
  | cons b bs ih =>
    have := b.toNat_lt
    simp only [leNat, List.length_cons, pow_succ]
    omega

theorem leByte_succ (v t : Nat) : leByte v (t + 1) = leByte (v / 256) t := by
  unfold leByte
  rw [Nat.div_div_eq_div_mul, ← pow_succ']

theorem leByte_zero (v : Nat) : leByte v 0 = UInt8.ofNat v := by simp [leByte]

theorem tab_succ' {α : Type} (n : Nat) (f : Nat → α) : tab (n + 1) f = f 0 :: tab n (fun t => f (t + 1)) := by
  unfold tab
  rw [List.range_succ_eq_map, List.map_cons, List.map_map]
  rfl

theorem leNat_leByte (w v : Nat) : leNat (tab w (leByte v)) = v % 256 ^ w := by
  induction w generalizing v with
  | zero => simp [tab, leNat, Nat.mod_one]
  | succ w ih =>
    rw [tab_succ']
    simp only [leNat, leByte_succ]
    rw [ih (v / 256), leByte_zero]
    have e1 : (UInt8.ofNat v).toNat = v % 256 := by simp
    rw [e1, pow_succ', Nat.mod_mul]

theorem leNat_tab {w v : Nat} {f : Nat → UInt8} (h : ∀ t, t < w → f t = leByte v t) (hv : v < 256 ^ w) :
    leNat (tab w f) = v := by
  rw [tab_congr h, leNat_leByte, Nat.mod_eq_of_lt hv]

theorem leByte_leNat {w t : Nat} (f : Nat → UInt8) (ht : t < w) : leByte (leNat (tab w f)) t = f t := by
  induction w generalizing f t with
  | zero => omega
  | succ w ih =>
    rw [tab_succ']
    simp only [leNat]
    have h0 := (f 0).toNat_lt
    cases t with
    | zero =>
      rw [leByte_zero]
      apply UInt8.toNat_inj.1
      simp
    | succ t =>
      rw [leByte_succ]
      have : ((f 0).toNat + 256 * leNat (tab w fun t => f (t + 1))) / 256 = leNat (tab w fun t => f (t + 1)) := by
        omega
      rw [this]
      exact ih (fun t => f (t + 1)) (by omega)

theorem loadBytes_ok {m : Mem} {h N : Nat} {f : Nat → UInt8} (hm : Holds m h N f) :
    ∀ (w i : Nat), i + w ≤ N → loadBytes h w (i : Int) m = .ok (tab w (fun t => f (i + t)), m) := by
  intro w
  induction w with
  | zero => intro i _; rfl
  | succ w ih =>
    intro i hi
    unfold loadBytes
    rw [bind_ok (load_ok hm (by omega))]
    have e : ((i : Int) + 1) = ((i + 1 : Nat) : Int) := by push_cast; rfl
    rw [e, bind_ok (ih (i + 1) (by omega)), tab_succ']
    have : (fun t => f (i + 1 + t)) = fun t => f (i + (t + 1)) := by
      funext t; congr 1; omega
    rw [this]
    rfl

theorem loadN_ok {m : Mem} {h N w i : Nat} {f : Nat → UInt8} (hm : Holds m h N f) (hi : i * w + w ≤ N) :
    loadN w h (i : Int) m = .ok (leNat (tab w (fun t => f (i * w + t))), m) := by
  unfold loadN
  have e : (i : Int) * (w : Int) = ((i * w : Nat) : Int) := by push_cast; rfl
  rw [e, bind_ok (loadBytes_ok hm w (i * w) hi)]
  rfl

theorem loadN_val {m : Mem} {h N w i v : Nat} {f : Nat → UInt8} (hm : Holds m h N f) (hi : i * w + w ≤ N)
    (hf : ∀ t, t < w → f (i * w + t) = leByte v t) (hv : v < 256 ^ w) :
    loadN w h (i : Int) m = .ok (v, m) := by
  rw [loadN_ok hm hi, leNat_tab hf hv]

theorem storeBytes_fills {m : Mem} {d N : Nat} {new : Nat → UInt8} :
    ∀ (w i v : Nat), i + w ≤ N → (∀ t, t < w → new (i + t) = leByte v t) →
      Fills (storeBytes d v w (i : Int)) m d N new (fun p => i ≤ p ∧ p < i + w) := by
  intro w
  induction w with
  | zero =>
    intro i v _ _
    exact Fills.congr (P := fun _ => False) Fills.skip (by intro p _; simp only [false_iff]; omega) (by intros; rfl)
  | succ w ih =>
    intro i v hi hn
    unfold storeBytes
    have e : ((i : Int) + 1) = ((i + 1 : Nat) : Int) := by push_cast; rfl
    rw [e]
    refine Fills.congr (Fills.seq (Fills.store (i := i) (v := UInt8.ofNat v) (by omega) ?_)
      (ih (i + 1) (v / 256) (by omega) ?_)) ?_ (fun _ _ _ => rfl)
    · rw [← leByte_zero, ← hn 0 (by omega)]; rfl
    · intro t ht
      rw [← leByte_succ, ← hn (t + 1) (by omega)]
      congr 1; omega
    · intro p _; omega

theorem storeN_fills {m : Mem} {d N w i v : Nat} {new : Nat → UInt8} (hi : i * w + w ≤ N)
    (hn : ∀ t, t < w → new (i * w + t) = leByte v t) :
    Fills (storeN w d (i : Int) v) m d N new (fun p => i * w ≤ p ∧ p < i * w + w) := by
  unfold storeN
  have e : (i : Int) * (w : Int) = ((i * w : Nat) : Int) := by push_cast; rfl
  rw [e]
  exact storeBytes_fills w (i * w) v hi hn

/-- the bytes of an array of `w`-byte little-endian elements -/
def encN (w : Nat) (a : Nat → Nat) (p : Nat) : UInt8 := leByte (a (p / w)) (p % w)

theorem encN_at {w i t : Nat} (a : Nat → Nat) (ht : t < w) : encN w a (i * w + t) = leByte (a i) t := by
  unfold encN
  have e1 : (i * w + t) / w = i := by
    rw [Nat.mul_comm, Nat.mul_add_div (by omega), Nat.div_eq_of_lt ht]; omega
  have e2 : (i * w + t) % w = t := by
    rw [Nat.mul_comm, Nat.mul_add_mod, Nat.mod_eq_of_lt ht]
  rw [e1, e2]

theorem slot_le {i n w : Nat} (h : i < n) : i * w + w ≤ n * w := by
  have := Nat.mul_le_mul_right w h
  rw [Nat.succ_mul] at this
  exact this

/-- block `h` is an array of exactly `n` elements of `w` bytes, `a 0 .. a (n-1)` -/
def HoldsN (m : Mem) (h w n : Nat) (a : Nat → Nat) : Prop :=
  Holds m h (n * w) (encN w a) ∧ ∀ i, i < n → a i < 256 ^ w

/-- replace a block by an array of elements -/
def Mem.putN (m : Mem) (h w n : Nat) (a : Nat → Nat) : Mem := m.put h (n * w) (encN w a)

theorem encN_congr {w n : Nat} {a b : Nat → Nat} (h : ∀ i, i < n → a i = b i) :
    ∀ p, p < n * w → encN w a p = encN w b p := by
  intro p hp
  unfold encN
  rw [h (p / w) (Nat.div_lt_of_lt_mul (by rw [Nat.mul_comm]; exact hp))]

theorem putN_congr (m : Mem) {h w n : Nat} {a b : Nat → Nat} (hab : ∀ i, i < n → a i = b i) :
    m.putN h w n a = m.putN h w n b := put_congr m h _ (encN_congr hab)

theorem HoldsN.put_self {m : Mem} {h w n : Nat} {a : Nat → Nat} (hh : HoldsN m h w n a) :
    m.putN h w n a = m := Holds.put_self hh.1

theorem HoldsN.put_ne {m : Mem} {h w n h' n' : Nat} {a : Nat → Nat} {f : Nat → UInt8} (hh : HoldsN m h w n a)
    (hne : h ≠ h') : HoldsN (m.put h' n' f) h w n a := ⟨hh.1.put_ne hne, hh.2⟩

theorem HoldsN.putN_ne {m : Mem} {h w n h' w' n' : Nat} {a a' : Nat → Nat} (hh : HoldsN m h w n a)
    (hne : h ≠ h') : HoldsN (m.putN h' w' n' a') h w n a := ⟨hh.1.put_ne hne, hh.2⟩

theorem holdsN_putN (m : Mem) {h w n : Nat} {a : Nat → Nat} (ha : ∀ i, i < n → a i < 256 ^ w) :
    HoldsN (m.putN h w n a) h w n a := ⟨holds_put _ _ _ _, ha⟩

theorem HoldsN.load {m : Mem} {h w n i : Nat} {a : Nat → Nat} (hh : HoldsN m h w n a) (hi : i < n) :
    loadN w h (i : Int) m = .ok (a i, m) :=
  loadN_val hh.1 (slot_le hi) (fun _ ht => encN_at a ht) (hh.2 i hi)

theorem leByte_mod {w v t : Nat} (ht : t < w) : leByte (v % 256 ^ w) t = leByte v t := by
  rw [← leNat_leByte, leByte_leNat _ ht]

open Classical in
theorem storeN_put {m : Mem} {h w n i v : Nat} {a : Nat → Nat} (hi : i < n) :
    storeN w h (i : Int) v (m.putN h w n a)
      = .ok ((), m.putN h w n (fun j => if j = i then v % 256 ^ w else a j)) := by
  have key := storeN_fills (m := m) (d := h) (N := n * w) (w := w) (i := i) (v := v)
    (new := fun p => leByte v (p - i * w)) (slot_le hi) (by intro t ht; simp)
  unfold Mem.putN
  rw [key (encN w a)]
  refine congrArg (fun x => Except.ok ((), x)) ?_
  apply put_congr
  intro p hp
  have hw : 0 < w := by
    rcases Nat.eq_zero_or_pos w with h0 | h0
    · subst h0; simp at hp
    · exact h0
  unfold encN
  have hd := Nat.div_add_mod p w
  have hl := Nat.mod_lt p hw
  beta_reduce
  by_cases hc : p / w = i
  · have e : p = i * w + p % w := by rw [← hc, Nat.mul_comm]; omega
    rw [if_pos hc, if_pos (by omega), leByte_mod hl]
    congr 1; omega
  · rw [if_neg hc, if_neg]
    rintro ⟨h1, h2⟩
    apply hc
    have h3 : p / w ≥ i := (Nat.le_div_iff_mul_le hw).2 h1
    have h4 : p / w < i + 1 := Nat.div_lt_of_lt_mul (by rw [Nat.mul_comm, Nat.succ_mul]; exact h2)
    omega

theorem HoldsN.store {m : Mem} {h w n i v : Nat} {a : Nat → Nat} (hh : HoldsN m h w n a) (hi : i < n) :
    storeN w h (i : Int) v m = .ok ((), m.putN h w n (fun j => if j = i then v % 256 ^ w else a j)) := by
  conv_lhs => rw [← hh.put_self]
  rw [storeN_put hi]

end HyperCV
