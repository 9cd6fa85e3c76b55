/- Partial correctness: what holds if a computation returns. -/
import Verif.Base.Lemmas
import Verif.Model.Matrix
import Verif.Model.SimpleMat
import Verif.Spec.Cube

namespace HyperCV
open Spec

/-- if `x` returns, `I` is preserved -/
def Keeps {α : Type} (I : Mem → Prop) (x : M α) : Prop := ∀ m a m', I m → x m = .ok (a, m') → I m'

theorem bind_inv {α β : Type} {x : M α} {f : α → M β} {m m' : Mem} {b : β} (h : (x >>= f) m = .ok (b, m')) :
    ∃ a m1, x m = .ok (a, m1) ∧ f a m1 = .ok (b, m') := by
  cases hx : x m with
  | error e => rw [bind_err hx] at h; cases h
  | ok r =>
    obtain ⟨a, m1⟩ := r
    rw [bind_ok hx] at h
    exact ⟨a, m1, rfl, h⟩

variable {α β : Type} {I : Mem → Prop}

theorem Keeps.bind {x : M α} {f : α → M β} (hx : Keeps I x) (hf : ∀ a, Keeps I (f a)) : Keeps I (x >>= f) := by
  intro m b m' hi h
  obtain ⟨a, m1, h1, h2⟩ := bind_inv h
  exact hf a _ _ _ (hx _ _ _ hi h1) h2

/-- a computation that does not change the memory -/
theorem Keeps.reads {x : M α} (h : ∀ m a m', x m = .ok (a, m') → m' = m) : Keeps I x := by
  intro m a m' hi hx
  rw [h _ _ _ hx]; exact hi

theorem pure_inv {a b : α} {m m' : Mem} (h : (pure a : M α) m = .ok (b, m')) : b = a ∧ m' = m := by cases h; exact ⟨rfl, rfl⟩

theorem Keeps.pure {a : α} : Keeps I (Pure.pure a : M α) := Keeps.reads fun _ _ _ h => (pure_inv h).2

theorem ev_inv {x : CI} {m m' : Mem} {a : Int} (h : ev x m = .ok (a, m')) : m' = m ∧ x = .ok a := by
  cases x with
  | error e => cases h
  | ok v => cases h; exact ⟨rfl, rfl⟩

theorem Keeps.ev {x : CI} : Keeps I (HyperCV.ev x) := Keeps.reads fun _ _ _ h => (ev_inv h).1

theorem liftE_inv {x : Except Err α} {m m' : Mem} {a : α} (h : liftE x m = .ok (a, m')) : m' = m ∧ x = .ok a := by
  cases x with
  | error e => cases h
  | ok v => cases h; exact ⟨rfl, rfl⟩

theorem Keeps.liftE {x : Except Err α} : Keeps I (HyperCV.liftE x) := Keeps.reads fun _ _ _ h => (liftE_inv h).1

theorem load_inv {h : Nat} {i : Int} {m m' : Mem} {v : UInt8} (hl : load h i m = .ok (v, m')) :
    m' = m ∧ ∃ l, m.blk h = some l ∧ 0 ≤ i ∧ l[i.toNat]? = some v := by
  unfold load at hl
  cases hb : m.blk h with
  | none => rw [hb] at hl; cases hl
  | some l =>
    rw [hb] at hl
    simp only [] at hl
    split at hl
    · rename_i h0
      split at hl
      · rename_i w hw
        cases hl
        exact ⟨rfl, l, rfl, h0, hw⟩
      · cases hl
    · cases hl

theorem Keeps.load {h : Nat} {i : Int} : Keeps I (HyperCV.load h i) := Keeps.reads fun _ _ _ h => (load_inv h).1

theorem loadBytes_inv {h : Nat} : ∀ {n : Nat} {i : Int} {m m' : Mem} {v : List UInt8}, loadBytes h n i m = .ok (v, m') →
    m' = m ∧ (0 < n → ∃ l, m.blk h = some l ∧ 0 ≤ i ∧ i.toNat < l.length) := by
  intro n
  induction n with
  | zero => intro i m m' v hl; exact ⟨(pure_inv hl).2, fun h => absurd h (by omega)⟩
  | succ n ih =>
    intro i m m' v hl
    unfold loadBytes at hl
    obtain ⟨b, m1, h1, h2⟩ := bind_inv hl
    obtain ⟨bs, m2, h3, h4⟩ := bind_inv h2
    obtain ⟨e1, l, g1, g2, g3⟩ := load_inv h1
    have e2 := (ih h3).1
    have e3 := (pure_inv h4).2
    refine ⟨by rw [e3, e2, e1], fun _ => ⟨l, g1, g2, ?_⟩⟩
    by_contra hge
    rw [List.getElem?_eq_none (by omega)] at g3
    cases g3

/-- a typed read that succeeds lies within its block (its first byte does) -/
theorem loadN_inv {w h : Nat} {i : Int} {m m' : Mem} {v : Nat} (hw : 0 < w) (hl : loadN w h i m = .ok (v, m')) :
    m' = m ∧ ∃ l, m.blk h = some l ∧ 0 ≤ i * w ∧ (i * w).toNat < l.length := by
  unfold loadN at hl
  obtain ⟨bs, m1, h1, h2⟩ := bind_inv hl
  obtain ⟨e1, e2⟩ := loadBytes_inv h1
  exact ⟨by rw [(pure_inv h2).2, e1], e2 hw⟩

theorem Keeps.loadN {w h : Nat} {i : Int} : Keeps I (HyperCV.loadN w h i) := by
  refine Keeps.reads fun m a m' hl => ?_
  unfold HyperCV.loadN at hl
  obtain ⟨bs, m1, h1, h2⟩ := bind_inv hl
  rw [(pure_inv h2).2, (loadBytes_inv h1).1]

/-- a store replaces one block by another of the same length -/
theorem store_inv {h : Nat} {i : Int} {v : UInt8} {m m' : Mem} {u : Unit} (hs : store h i v m = .ok (u, m')) :
    ∃ l, m.blk h = some l ∧ m' = m.setBlk h (some (l.set i.toNat v)) := by
  unfold store at hs
  cases hb : m.blk h with
  | none => rw [hb] at hs; cases hs
  | some l =>
    rw [hb] at hs
    simp only [] at hs
    split at hs
    · cases hs; exact ⟨l, rfl, rfl⟩
    · cases hs

/-- `I` is preserved whenever the contents of the block `d` change but not its length -/
def Writable (I : Mem → Prop) (d : Nat) : Prop := ∀ m l i v, I m → m.blk d = some l → I (m.setBlk d (some (l.set i v)))

theorem Keeps.store {d : Nat} (hI : Writable I d) {i : Int} {v : UInt8} : Keeps I (HyperCV.store d i v) := by
  intro m a m' hi hs
  obtain ⟨l, h1, rfl⟩ := store_inv hs
  exact hI m l _ _ hi h1

theorem Keeps.storeBytes {d : Nat} (hI : Writable I d) : ∀ {n : Nat} {v : Nat} {i : Int}, Keeps I (HyperCV.storeBytes d v n i) := by
  intro n
  induction n with
  | zero => intro v i; exact Keeps.pure
  | succ n ih => intro v i; exact Keeps.bind (Keeps.store hI) fun _ => ih

theorem Keeps.storeN {d : Nat} (hI : Writable I d) {w v : Nat} {i : Int} : Keeps I (HyperCV.storeN w d i v) := Keeps.storeBytes hI

theorem Keeps.forA {σ : Type} {lo hi : Int} {s : σ} {body : Int → σ → M σ} (h : ∀ i s, Keeps I (body i s)) : Keeps I (forA lo hi s body) := by
  unfold HyperCV.forA
  generalize (hi - lo).toNat = k
  induction k generalizing lo s with
  | zero => exact Keeps.pure
  | succ k ih => unfold forLoop; exact Keeps.bind (h _ _) fun _ => ih

theorem Keeps.forI {lo hi : Int} {body : Int → M Unit} (h : ∀ i, Keeps I (body i)) : Keeps I (forI lo hi body) := Keeps.forA fun i _ => h i

/-- if an iteration never returns while `I` holds, the loop does not return -/
theorem forI_never {n k : Nat} {body : Int → M Unit} (h : ∀ i, Keeps I (body i)) (hk : k < n) (hb : ∀ m a m', I m → body (k:Int) m ≠ .ok (a, m')) :
    ∀ m a m', I m → forI 0 (n:Int) body m ≠ .ok (a, m') := by
  have key : ∀ r i m a m', i + r = n → i ≤ k → I m → forLoop (fun i (_ : Unit) => body i) r (i:Int) () m ≠ .ok (a, m') := by
    intro r
    induction r with
    | zero => intro i m a m' h1 h2; omega
    | succ r ih =>
      intro i m a m' h1 h2 hi hc
      unfold forLoop at hc
      obtain ⟨u, m1, g1, g2⟩ := bind_inv hc
      by_cases hik : i = k
      · subst hik; exact hb _ _ _ hi g1
      · exact ih (i+1) m1 a m' (by omega) (by omega) (h _ _ _ _ hi g1) g2
  intro m a m' hi hc
  unfold forI HyperCV.forA at hc
  have := key n 0 m a m' (by omega) (by omega) hi
  apply this
  simpa using hc

theorem CI.add_inv {a b : CI} {c : Int} (h : (a + b : CI) = .ok c) : ∃ x y, a = .ok x ∧ b = .ok y ∧ c = x + y := by
  cases a with
  | error e => cases h
  | ok x =>
    cases b with
    | error e => cases h
    | ok y =>
      refine ⟨x, y, rfl, rfl, ?_⟩
      change CI.ck (x + y) = .ok c at h
      unfold CI.ck at h
      split at h
      · cases h; rfl
      · cases h

theorem CI.mul_inv {a b : CI} {c : Int} (h : (a * b : CI) = .ok c) : ∃ x y, a = .ok x ∧ b = .ok y ∧ c = x * y := by
  cases a with
  | error e => cases h
  | ok x =>
    cases b with
    | error e => cases h
    | ok y =>
      refine ⟨x, y, rfl, rfl, ?_⟩
      change CI.ck (x * y) = .ok c at h
      unfold CI.ck at h
      split at h
      · cases h; rfl
      · cases h

/-- the length of a block -/
def Len (m : Mem) (h n : Nat) : Prop := ∃ l, m.blk h = some l ∧ l.length = n

theorem writable_len {h n d : Nat} : Writable (fun m => Len m h n) d := by
  rintro m l i v ⟨l', h1, h2⟩ hd
  by_cases e : h = d
  · subst e
    rw [h1] at hd; cases hd
    exact ⟨l.set i v, by simp [Mem.setBlk], by simpa using h2⟩
  · exact ⟨l', by simp [Mem.setBlk, e, h1], h2⟩

/-- a product whose first factor is stored in fewer elements than its rows and columns need does not return -/
theorem mulMatrix_never {w : Nat} {mac : Nat → Nat → Nat → Except Err Nat} {x y z M K N n : Nat} (hw : 0 < w) (hN : 0 < N) (hM : 0 < M) (hK : 0 < K)
    (hn : n ≤ ((M - 1) * K + (K - 1)) * w) :
    ∀ m a m', Len m x n → mulMatrix w mac x y z (M:Int) (K:Int) (N:Int) m ≠ .ok (a, m') := by
  have step : ∀ nm nn nk, Keeps (fun m => Len m x n) (mulStep w mac x y z K N nm nn nk) := by
    intro nm nn nk
    unfold mulStep
    exact Keeps.bind Keeps.ev fun _ => Keeps.bind Keeps.ev fun _ => Keeps.bind Keeps.ev fun _ => Keeps.bind Keeps.loadN fun _ => Keeps.bind Keeps.loadN fun _ =>
      Keeps.bind Keeps.loadN fun _ => Keeps.bind Keeps.liftE fun _ => Keeps.storeN writable_len
  unfold mulMatrix
  refine forI_never (k := M - 1) (fun nm => Keeps.forI fun nn => Keeps.forI fun nk => step nm nn nk) (by omega) ?_
  refine forI_never (k := 0) (fun nn => Keeps.forI fun nk => step _ nn nk) (by omega) ?_
  refine forI_never (k := K - 1) (fun nk => step _ _ nk) (by omega) ?_
  rintro m a m' ⟨l, h1, h2⟩ hc
  unfold mulStep at hc
  obtain ⟨ix, m1, g1, hc⟩ := bind_inv hc
  obtain ⟨iy, m2, g2, hc⟩ := bind_inv hc
  obtain ⟨iz, m3, g3, hc⟩ := bind_inv hc
  obtain ⟨v, m4, g4, hc⟩ := bind_inv hc
  obtain ⟨rfl, e1⟩ := ev_inv g1
  obtain ⟨rfl, e2⟩ := ev_inv g2
  obtain ⟨rfl, e3⟩ := ev_inv g3
  obtain ⟨-, l', b1, b2, b3⟩ := loadN_inv hw g4
  rw [h1] at b1; cases b1
  obtain ⟨p, q, c1, c2, rfl⟩ := CI.add_inv e1
  obtain ⟨p1, p2, c3, c4, rfl⟩ := CI.mul_inv c1
  cases c2; cases c3; cases c4
  have e : (((M - 1 : Nat) : Int) * (K:Int) + ((K - 1 : Nat) : Int)) * (w:Int) = ((((M - 1) * K + (K - 1)) * w : Nat) : Int) := by push_cast; rfl
  rw [e] at b3
  omega

/-- a product whose result has more elements than the block it is added to does not return -/
theorem mulMatrix_never_result {w : Nat} {mac : Nat → Nat → Nat → Except Err Nat} {x y z M K N n : Nat} (hw : 0 < w) (hN : 0 < N) (hM : 0 < M) (hK : 0 < K)
    (hn : n ≤ ((M - 1) * N + (N - 1)) * w) :
    ∀ m a m', Len m z n → mulMatrix w mac x y z (M:Int) (K:Int) (N:Int) m ≠ .ok (a, m') := by
  have step : ∀ nm nn nk, Keeps (fun m => Len m z n) (mulStep w mac x y z K N nm nn nk) := by
    intro nm nn nk
    unfold mulStep
    exact Keeps.bind Keeps.ev fun _ => Keeps.bind Keeps.ev fun _ => Keeps.bind Keeps.ev fun _ => Keeps.bind Keeps.loadN fun _ => Keeps.bind Keeps.loadN fun _ =>
      Keeps.bind Keeps.loadN fun _ => Keeps.bind Keeps.liftE fun _ => Keeps.storeN writable_len
  unfold mulMatrix
  refine forI_never (k := M - 1) (fun nm => Keeps.forI fun nn => Keeps.forI fun nk => step nm nn nk) (by omega) ?_
  refine forI_never (k := N - 1) (fun nn => Keeps.forI fun nk => step _ nn nk) (by omega) ?_
  refine forI_never (k := 0) (fun nk => step _ _ nk) (by omega) ?_
  rintro m a m' ⟨l, h1, h2⟩ hc
  unfold mulStep at hc
  obtain ⟨ix, m1, g1, hc⟩ := bind_inv hc
  obtain ⟨iy, m2, g2, hc⟩ := bind_inv hc
  obtain ⟨iz, m3, g3, hc⟩ := bind_inv hc
  obtain ⟨v, m4, g4, hc⟩ := bind_inv hc
  obtain ⟨v', m5, g5, hc⟩ := bind_inv hc
  obtain ⟨v'', m6, g6, hc⟩ := bind_inv hc
  obtain ⟨rfl, e1⟩ := ev_inv g1
  obtain ⟨rfl, e2⟩ := ev_inv g2
  obtain ⟨rfl, e3⟩ := ev_inv g3
  obtain ⟨rfl, -⟩ := loadN_inv hw g4
  obtain ⟨rfl, -⟩ := loadN_inv hw g5
  obtain ⟨-, l', b1, b2, b3⟩ := loadN_inv hw g6
  rw [h1] at b1; cases b1
  obtain ⟨p, q, c1, c2, rfl⟩ := CI.add_inv e3
  obtain ⟨p1, p2, c3, c4, rfl⟩ := CI.mul_inv c1
  cases c2; cases c3; cases c4
  have e : (((M - 1 : Nat) : Int) * (N:Int) + ((N - 1 : Nat) : Int)) * (w:Int) = ((((M - 1) * N + (N - 1)) * w : Nat) : Int) := by push_cast; rfl
  rw [e] at b3
  omega

/-- a block allocated earlier and its length -/
def OldLen (m : Mem) (h n : Nat) : Prop := Len m h n ∧ h < m.next

theorem writable_oldLen {h n d : Nat} : Writable (fun m => OldLen m h n) d :=
  fun m l i v hi hd => ⟨writable_len m l i v hi.1 hd, hi.2⟩

theorem Keeps.malloc_oldLen {h n k : Nat} : Keeps (fun m => OldLen m h n) (malloc k) := by
  rintro m a m' ⟨⟨l, h1, h2⟩, h3⟩ hm
  cases hm
  exact ⟨⟨l, by simp [show h ≠ m.next by omega, h1], h2⟩, by show h < m.next + 1; omega⟩

theorem Keeps.newS_oldLen {h n : Nat} {s : SimpleMat} : Keeps (fun m => OldLen m h n) (newS s) := by
  rintro m a m' ⟨⟨l, h1, h2⟩, h3⟩ hm
  cases hm
  exact ⟨⟨l, h1, h2⟩, by show h < m.next + 1; omega⟩

theorem Keeps.cassert {c : Bool} : Keeps I (HyperCV.cassert c) := by
  intro m a m' hi h
  unfold HyperCV.cassert at h
  split at h
  · exact (pure_inv h).2 ▸ hi
  · cases h

theorem Keeps.memset {d : Nat} (hI : Writable I d) {o n : Int} {v : UInt8} : Keeps I (HyperCV.memset d o v n) := by
  unfold HyperCV.memset
  split
  · intro m a m' _ h; cases h
  · exact Keeps.forI fun _ => Keeps.store hI

/-- creating an image keeps the lengths of the blocks allocated before -/
theorem Keeps.create_sm_oldLen {h n : Nat} {r c dt ch : Int} : Keeps (fun m => OldLen m h n) (create_simple_mat r c dt ch) := by
  unfold create_simple_mat create_simple_mat_with_data
  exact Keeps.bind Keeps.cassert fun _ => Keeps.bind Keeps.ev fun _ => Keeps.bind Keeps.ev fun _ => Keeps.bind Keeps.cassert fun _ =>
    Keeps.bind Keeps.ev fun _ => Keeps.bind Keeps.malloc_oldLen fun _ => Keeps.bind (Keeps.memset writable_oldLen) fun _ =>
    Keeps.bind Keeps.newS_oldLen fun _ => Keeps.pure

theorem Keeps.mulMatrix_oldLen {h n w : Nat} {mac : Nat → Nat → Nat → Except Err Nat} {x y z : Nat} {a b c : Int} :
    Keeps (fun m => OldLen m h n) (mulMatrix w mac x y z a b c) := by
  unfold mulMatrix mulStep
  exact Keeps.forI fun _ => Keeps.forI fun _ => Keeps.forI fun _ => Keeps.bind Keeps.ev fun _ => Keeps.bind Keeps.ev fun _ => Keeps.bind Keeps.ev fun _ =>
    Keeps.bind Keeps.loadN fun _ => Keeps.bind Keeps.loadN fun _ => Keeps.bind Keeps.loadN fun _ => Keeps.bind Keeps.liftE fun _ => Keeps.storeN writable_oldLen

theorem Keeps.derefS {p : Option Nat} : Keeps I (HyperCV.derefS p) := by
  refine Keeps.reads fun m a m' h => ?_
  cases p with
  | none => cases h
  | some q =>
    change getS q m = _ at h
    unfold getS at h
    split at h
    · cases h
    · cases h; rfl

end HyperCV
