/- Memory with several arrays of four-byte elements that change together. -/
import Verif.Proof.Math
import Verif.Model.Decomp

namespace HyperCV
open Spec

/-- which blocks are arrays, with their lengths and contents -/
abbrev Env := Nat → Option (Nat × (Nat → Nat))

/-- the memory `m` with the arrays of `A` -/
def Mem.arrs (m : Mem) (A : Env) : Mem :=
  { m with blk := fun h => match A h with | some (n, f) => some (tab (n * 4) (encN 4 f)) | none => m.blk h }

/-- one array replaced -/
def Env.set (A : Env) (h n : Nat) (f : Nat → Nat) : Env := fun x => if x = h then some (n, f) else A x

variable {m : Mem} {A : Env} {h n i v : Nat} {f : Nat → Nat}

theorem arrs_holds (hA : A h = some (n, f)) : Holds (m.arrs A) h (n * 4) (encN 4 f) := by
  unfold Holds Mem.arrs
  simp only [hA]

theorem arrs_none {w k : Nat} {g : Nat → Nat} (hA : A h = none) (hg : HoldsN m h w k g) : HoldsN (m.arrs A) h w k g := by
  refine ⟨?_, hg.2⟩
  have := hg.1
  unfold Holds Mem.arrs at *
  simp only [hA]
  exact this

theorem arrs_load (hA : A h = some (n, f)) (hi : i < n) (hf : f i < 256 ^ 4) :
    loadN 4 h (i:Int) (m.arrs A) = .ok (f i, m.arrs A) :=
  loadN_val (arrs_holds hA) (slot_le hi) (fun _ ht => encN_at f ht) hf

theorem arrs_ld (hA : A h = some (n, f)) (hi : i < n) (hf : f i < 256 ^ 4) :
    ldF h (i:Int) (m.arrs A) = .ok (f32.decode (f i), m.arrs A) := by
  unfold ldF
  rw [bind_ok (arrs_load hA hi hf)]
  rfl

theorem arrs_putN (hA : A h = some (n, f)) {g : Nat → Nat} : (m.arrs A).putN h 4 n g = m.arrs (A.set h n g) := by
  apply Mem.ext' <;> try rfl
  funext x
  unfold Mem.putN Mem.put Mem.setBlk Mem.arrs Env.set
  by_cases e : x = h
  · subst e; simp
  · simp [e]

theorem arrs_store (hA : A h = some (n, f)) (hi : i < n) :
    storeN 4 h (i:Int) v (m.arrs A) = .ok ((), m.arrs (A.set h n (fun j => if j = i then v % 256 ^ 4 else f j))) := by
  have e : m.arrs A = (m.arrs A).putN h 4 n f := by
    rw [arrs_putN hA]
    congr 1
    funext x
    unfold Env.set
    split
    · rename_i e; rw [e, hA]
    · rfl
  rw [e, storeN_put hi, arrs_putN hA]

theorem arrs_st {x : FV} (hA : A h = some (n, f)) (hi : i < n) (hx : f32.Good x) :
    stF h (i:Int) x (m.arrs A) = .ok ((), m.arrs (A.set h n (fun j => if j = i then f32.encode x else f j))) := by
  unfold stF
  rw [arrs_store hA hi, Nat.mod_eq_of_lt (f32_encode_lt hx)]

theorem good_zero : f32.Good (.fin false 0) := ⟨rep_zero _, fun _ => by simp⟩

theorem good_rootF (x : FV) : f32.Good (rootF x) := good_conv _ _

/-- the norm as computed: the squares are added in `float` in the order of the elements -/
def normFold (n : Nat) (x : Nat → FV) : FV := rootF ((List.range n).foldl (fun s i => f32.add s (f32.mul (x i) (x i))) (.fin false 0))

theorem norm_of {m : Mem} {a n : Nat} {x : Nat → FV} (hx : ∀ i : Nat, i < n → ldF a (i:Int) m = .ok (x i, m)) :
    matrix_norm_float a n m = .ok (normFold n x, m) := by
  unfold matrix_norm_float
  have run := forA_run (n := n) (body := fun i ans => do
      let x ← ldF a i
      pure (f32.add ans (f32.mul x x))) (fun _ => m)
      (fun i => (List.range i).foldl (fun s i => f32.add s (f32.mul (x i) (x i))) (.fin false 0)) (by
    intro i hi
    beta_reduce
    rw [bind_ok (hx i hi), List.range_succ, List.foldl_append]
    rfl)
  exact (bind_ok run).trans rfl

theorem norm_run {m : Mem} {a n : Nat} {f : Nat → Nat} (hf : HoldsN m a 4 n f) :
    matrix_norm_float a n m = .ok (normFold n fun i => f32.decode (f i), m) :=
  norm_of fun i hi => by
    unfold ldF
    rw [bind_ok (hf.load hi)]
    rfl

theorem ev_mix {a b x y n : Nat} (hx : x < a) (hy : y < b) (hn : n = b) (h : a * b ≤ 2147483647) (m : Mem) :
    ev (CI.lit (x:Int) * CI.lit (n:Int) + CI.lit (y:Int)) m = .ok (((x * b + y : Nat) : Int), m) := by
  subst hn
  refine ev_ok ?_ m
  have hT := mix_lt hx hy
  have h2 : x * n ≤ 2147483647 := by omega
  rw [CI.mul_ok (by constructor <;> ((try norm_cast) <;> omega)), CI.add_ok (by constructor <;> ((try norm_cast) <;> omega))]
  push_cast; rfl

/-- every block whose size is a multiple of four is an array of elements -/
theorem holds_elems {m : Mem} {h n : Nat} {g : Nat → UInt8} (hg : Holds m h (n * 4) g) :
    ∃ f : Nat → Nat, HoldsN m h 4 n f ∧ ∀ i, f i < 256 ^ 4 := by
  refine ⟨fun i => leNat (tab 4 fun t => g (i * 4 + t)), ⟨hg.congr ?_, ?_⟩, ?_⟩
  · intro p hp
    unfold encN
    rw [leByte_leNat _ (Nat.mod_lt _ (by decide))]
    congr 1
    omega
  · intro i _
    have := leNat_lt (tab 4 fun t => g (i * 4 + t))
    simpa [tab] using this
  · intro i
    have := leNat_lt (tab 4 fun t => g (i * 4 + t))
    simpa [tab] using this

end HyperCV
