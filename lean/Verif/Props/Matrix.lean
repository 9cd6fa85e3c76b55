/- C41, C42: matrix products and transposes. -/
import Verif.Proof.Matrix
import Verif.Spec.Invert
import Verif.Props.Image

namespace HyperCV
open Spec

/-- entry (`i`, `j`) of the product of an `_ x k` and a `k x _` integer matrix -/
def Spec.prodEntry (a b : Nat → Nat → Int) (k i j : Nat) : Int :=
  ((List.range k).map fun t => a i t * b t j).sum

/-- the arguments of a matrix product: three matrices of `w`-byte elements, the output in a block of its own,
element counts within `int` -/
structure Spec.MulArgs (mem : Mem) (x y z w m k n : Nat) (X Y Z : Nat → Nat → Nat) : Prop where
  hx : IsMat mem x w m k X
  hy : IsMat mem y w k n Y
  hz : IsMat mem z w m n Z
  xz : x ≠ z
  yz : y ≠ z
  b1 : m * k ≤ 2147483647
  b2 : k * n ≤ 2147483647
  b3 : m * n ≤ 2147483647

theorem Spec.MulArgs.run {mem : Mem} {x y z w m k n : Nat} {X Y Z : Nat → Nat → Nat}
    (h : MulArgs mem x y z w m k n X Y Z) {mac : Nat → Nat → Nat → Except Err Nat} {S : Nat → Nat → Nat → Nat}
    (h0 : ∀ i j, i < m → j < n → S i j 0 = Z i j)
    (hS : ∀ i j t, i < m → j < n → t < k → mac (S i j t) (X i t) (Y t j) = .ok (S i j (t+1)))
    (hb : ∀ i j t, i < m → j < n → t ≤ k → S i j t < 256 ^ w) :
    ∃ mem', mulMatrix w mac x y z m k n mem = .ok ((), mem') ∧ OnlyBlock mem mem' z ∧
      IsMat mem' z w m n (fun i j => S i j k) :=
  ⟨_, mul_run (isMat_iff.1 h.hx) (isMat_iff.1 h.hy) (isMat_iff.1 h.hz) h.xz h.yz h.b1 h.b2 h.b3 h0 hS hb,
    onlyBlock_putM mem z w m n _,
    isMat_iff.2 (holdsM_putM mem (fun i j hi hj => hb i j k hi hj (Nat.le_refl _)))⟩

theorem prodEntry_succ (a b : Nat → Nat → Int) (k i j : Nat) :
    prodEntry a b (k+1) i j = prodEntry a b k i j + a i k * b k j := by
  unfold prodEntry
  rw [List.range_succ, List.map_append, List.sum_append]
  simp

theorem bitsOf_add (w : Nat) (a b : Int) : bitsOf w ((bitsOf w a : Int) + b) = bitsOf w (a + b) := by
  apply bitsOf_congr
  rw [Int.add_emod, bitsOf_mod, ← Int.add_emod]

/-! ### C41 -/

/-- **C41** for `char` and `short`: for all dimensions and entries the call returns, only `z` changes, and every entry
is the previous entry plus the entry of the product, modulo 2^(8w).  In particular (`C41_zeroed`) it is the product when
`z` was zero.
Missing from the full property: independence of the previous contents, see `C41_refuted`. -/
theorem C41_char_short_partial {mem : Mem} {x y z m k n : Nat} {X Y Z : Nat → Nat → Nat} :
    (MulArgs mem x y z 1 m k n X Y Z → ∃ mem', MulMatrix_char x y z m k n mem = .ok ((), mem') ∧ OnlyBlock mem mem' z ∧
      IsMat mem' z 1 m n (fun i j => ((Z i j + prodEntry (fun a b => signed 1 (X a b)) (fun a b => signed 1 (Y a b)) k i j)
        % 256).toNat)) ∧
    (MulArgs mem x y z 2 m k n X Y Z → ∃ mem', MulMatrix_short x y z m k n mem = .ok ((), mem') ∧ OnlyBlock mem mem' z ∧
      IsMat mem' z 2 m n (fun i j => ((Z i j + prodEntry (fun a b => signed 2 (X a b)) (fun a b => signed 2 (Y a b)) k i j)
        % 65536).toNat)) := by
  refine ⟨fun h => ?_, fun h => ?_⟩
  · refine h.run (S := fun i j t => bitsOf 1 (Z i j + prodEntry (fun a b => signed 1 (X a b))
      (fun a b => signed 1 (Y a b)) t i j)) ?_ ?_ (fun _ _ _ _ _ _ => bitsOf_lt 1 _)
    · intro i j hi hj
      have : prodEntry (fun a b => signed 1 (X a b)) (fun a b => signed 1 (Y a b)) 0 i j = 0 := rfl
      rw [this, add_zero]
      exact bitsOf_self ((isMat_iff.1 h.hz).fits i j hi hj)
    · intro i j t hi hj ht
      rw [macSigned_narrow (by omega) ((isMat_iff.1 h.hx).fits i t hi ht) ((isMat_iff.1 h.hy).fits t j ht hj),
        prodEntry_succ, add_assoc]
      rfl
  · refine h.run (S := fun i j t => bitsOf 2 (Z i j + prodEntry (fun a b => signed 2 (X a b))
      (fun a b => signed 2 (Y a b)) t i j)) ?_ ?_ (fun _ _ _ _ _ _ => bitsOf_lt 2 _)
    · intro i j hi hj
      have : prodEntry (fun a b => signed 2 (X a b)) (fun a b => signed 2 (Y a b)) 0 i j = 0 := rfl
      rw [this, add_zero]
      exact bitsOf_self ((isMat_iff.1 h.hz).fits i j hi hj)
    · intro i j t hi hj ht
      rw [macSigned_narrow (by omega) ((isMat_iff.1 h.hx).fits i t hi ht) ((isMat_iff.1 h.hy).fits t j ht hj),
        prodEntry_succ, add_assoc]
      rfl

/-- a 2x3 by 3x2 product: blocks 1, 2 and 3 -/
def demoMul (w : Nat) : Mem :=
  ((Mem.empty.putM 1 w 2 3 (fun i j => 10 * i + j)).putM 2 w 3 2 (fun i j => 250 - 5 * i - j)).putM 3 w 2 2 (fun i j => i + j)

theorem demoMul_args {w : Nat} (hw : 0 < w) :
    MulArgs (demoMul w) 1 2 3 w 2 3 2 (fun i j => 10 * i + j) (fun i j => 250 - 5 * i - j) (fun i j => i + j) := by
  have h256 : 256 ≤ 256 ^ w := by
    calc 256 = 256 ^ 1 := rfl
      _ ≤ 256 ^ w := Nat.pow_le_pow_right (by decide) hw
  exact ⟨isMat_iff.2 (((holdsM_putM _ (fun i j hi hj => by omega)).putM_ne (by decide)).putM_ne (by decide)),
    isMat_iff.2 ((holdsM_putM _ (fun i j hi hj => by omega)).putM_ne (by decide)),
    isMat_iff.2 (holdsM_putM _ (fun i j hi hj => by omega)), by decide, by decide, by decide, by decide, by decide⟩

example : MulArgs (demoMul 2) 1 2 3 2 2 3 2 (fun i j => 10 * i + j) (fun i j => 250 - 5 * i - j) (fun i j => i + j) :=
  demoMul_args (by decide)

/-- **C41** for `unsigned char` and `unsigned int`, modulo 2^(8w).
Missing: independence of the previous contents, see `C41_refuted`. -/
theorem C41_unsigned_partial {mem : Mem} {x y z m k n : Nat} {X Y Z : Nat → Nat → Nat} :
    (MulArgs mem x y z 1 m k n X Y Z → ∃ mem', MulMatrix_uchar x y z m k n mem = .ok ((), mem') ∧
      OnlyBlock mem mem' z ∧ IsMat mem' z 1 m n (fun i j => ((Z i j + prodEntry (fun a b => X a b) (fun a b => Y a b) k i j)
        % 256).toNat)) ∧
    (MulArgs mem x y z 4 m k n X Y Z → ∃ mem', MulMatrix_uint x y z m k n mem = .ok ((), mem') ∧
      OnlyBlock mem mem' z ∧ IsMat mem' z 4 m n (fun i j => ((Z i j + prodEntry (fun a b => X a b) (fun a b => Y a b) k i j)
        % 4294967296).toNat)) := by
  refine ⟨fun h => ?_, fun h => ?_⟩
  · refine h.run (S := fun i j t => bitsOf 1 (Z i j + prodEntry (fun a b => X a b) (fun a b => Y a b) t i j)) ?_ ?_
      (fun _ _ _ _ _ _ => bitsOf_lt 1 _)
    · intro i j hi hj
      have : prodEntry (fun a b => X a b) (fun a b => Y a b) 0 i j = 0 := rfl
      rw [this, add_zero]
      exact bitsOf_self ((isMat_iff.1 h.hz).fits i j hi hj)
    · intro i j t hi hj ht
      have hx := (isMat_iff.1 h.hx).fits i t hi ht
      have hy := (isMat_iff.1 h.hy).fits t j ht hj
      have hz := bitsOf_lt 1 (Z i j + prodEntry (fun a b => X a b) (fun a b => Y a b) t i j)
      have hp : X i t * Y t j ≤ 255 * 255 := Nat.mul_le_mul (by omega) (by omega)
      rw [macPromoted_ok (by omega), prodEntry_succ, ← add_assoc]
      refine congrArg Except.ok ?_
      rw [Int.natCast_add, bitsOf_add]
      push_cast
      rfl
  · refine h.run (S := fun i j t => bitsOf 4 (Z i j + prodEntry (fun a b => X a b) (fun a b => Y a b) t i j)) ?_ ?_
      (fun _ _ _ _ _ _ => bitsOf_lt 4 _)
    · intro i j hi hj
      have : prodEntry (fun a b => X a b) (fun a b => Y a b) 0 i j = 0 := rfl
      rw [this, add_zero]
      exact bitsOf_self ((isMat_iff.1 h.hz).fits i j hi hj)
    · intro i j t hi hj ht
      unfold macUint
      refine congrArg Except.ok ?_
      have e : ∀ v : Nat, v % 4294967296 = bitsOf 4 (v : Int) := by
        intro v; unfold bitsOf; omega
      rw [e, prodEntry_succ, ← add_assoc]
      rw [Int.natCast_add, bitsOf_add]
      push_cast
      rfl

example : MulArgs (demoMul 4) 1 2 3 4 2 3 2 (fun i j => 10 * i + j) (fun i j => 250 - 5 * i - j) (fun i j => i + j) :=
  demoMul_args (by decide)

/-- **C41**, product: with a zeroed output, unsigned matrices whose product fits the element type are multiplied
exactly. -/
theorem C41_zeroed {mem : Mem} {x y z m k n : Nat} {X Y : Nat → Nat → Nat}
    (h : MulArgs mem x y z 4 m k n X Y (fun _ _ => 0))
    (hr : ∀ i j, i < m → j < n → prodEntry (fun a b => X a b) (fun a b => Y a b) k i j < 4294967296) :
    ∃ mem' P, MulMatrix_uint x y z m k n mem = .ok ((), mem') ∧ OnlyBlock mem mem' z ∧ IsMat mem' z 4 m n P ∧
      ∀ i j, i < m → j < n → (P i j : Int) = prodEntry (fun a b => X a b) (fun a b => Y a b) k i j := by
  obtain ⟨mem', h1, h2, h3⟩ := C41_unsigned_partial.2 h
  refine ⟨mem', _, h1, h2, h3, ?_⟩
  intro i j hi hj
  have h0 : 0 ≤ prodEntry (fun a b => X a b) (fun a b => Y a b) k i j := by
    unfold prodEntry
    apply List.sum_nonneg
    intro v hv
    obtain ⟨t, _, rfl⟩ := List.mem_map.1 hv
    positivity
  have := hr i j hi hj
  rw [Int.natCast_zero, Int.zero_add, Int.emod_eq_of_lt h0 this, Int.toNat_of_nonneg h0]

example : MulArgs ((demoMul 4).putM 3 4 2 2 (fun _ _ => 0)) 1 2 3 4 2 3 2 (fun i j => 10 * i + j)
    (fun i j => 250 - 5 * i - j) (fun _ _ => 0) ∧
    ∀ i j, i < 2 → j < 2 → prodEntry (fun a b => ((10 * a + b : Nat) : Int)) (fun a b => ((250 - 5 * a - b : Nat) : Int)) 3 i j
      < 4294967296 := by
  have h := demoMul_args (w := 4) (by decide)
  refine ⟨⟨isMat_iff.2 ((isMat_iff.1 h.hx).putM_ne (by decide)), isMat_iff.2 ((isMat_iff.1 h.hy).putM_ne (by decide)),
    isMat_iff.2 (holdsM_putM _ (fun _ _ _ _ => by decide)), by decide, by decide, by decide, by decide, by decide⟩, ?_⟩
  intro i j hi hj
  have : ∀ i, i < 2 → ∀ j, j < 2 → prodEntry (fun a b => ((10 * a + b : Nat) : Int))
    (fun a b => ((250 - 5 * a - b : Nat) : Int)) 3 i j < 4294967296 := by decide
  exact this i hi j hj

/-- **C41** is false of the code: the routines accumulate into `z`.  An entry of the result agrees with the product
(modulo 2^32) if and only if the previous entry was zero, whatever the operands. -/
theorem C41_refuted {mem : Mem} {x y z m k n : Nat} {X Y Z : Nat → Nat → Nat} (h : MulArgs mem x y z 4 m k n X Y Z) :
    ∃ mem' P, MulMatrix_uint x y z m k n mem = .ok ((), mem') ∧ IsMat mem' z 4 m n P ∧
      ∀ i j, i < m → j < n →
        ((P i j : Int) = prodEntry (fun a b => X a b) (fun a b => Y a b) k i j % 4294967296 ↔ Z i j = 0) := by
  obtain ⟨mem', h1, h2, h3⟩ := C41_unsigned_partial.2 h
  refine ⟨mem', _, h1, h3, ?_⟩
  intro i j hi hj
  have hz : Z i j < 4294967296 := (isMat_iff.1 h.hz).fits i j hi hj
  beta_reduce
  omega

/-- **C41** for `int`: if the products and all partial sums fit in `int`, the entry is exactly the previous entry plus
the entry of the product.  Missing: independence of the previous contents; overflow is undefined behaviour. -/
theorem C41_int_partial {mem : Mem} {x y z m k n : Nat} {X Y Z : Nat → Nat → Nat}
    (h : MulArgs mem x y z 4 m k n X Y Z)
    (hp : ∀ i j t, i < m → j < n → t < k → CI.InR (signed 4 (X i t) * signed 4 (Y t j)))
    (hs : ∀ i j t, i < m → j < n → t ≤ k →
      CI.InR (signed 4 (Z i j) + prodEntry (fun a b => signed 4 (X a b)) (fun a b => signed 4 (Y a b)) t i j)) :
    ∃ mem' P, MulMatrix_int x y z m k n mem = .ok ((), mem') ∧ OnlyBlock mem mem' z ∧ IsMat mem' z 4 m n P ∧
      ∀ i j, i < m → j < n → signed 4 (P i j) = signed 4 (Z i j) +
        prodEntry (fun a b => signed 4 (X a b)) (fun a b => signed 4 (Y a b)) k i j := by
  have back : ∀ v, CI.InR v → signed 4 (bitsOf 4 v) = v := fun v hv =>
    signed_bitsOf (by decide) (by have := hv.1; omega) (by have := hv.2; omega)
  obtain ⟨mem', h1, h2, h3⟩ := h.run (mac := macSigned 4)
    (S := fun i j t => bitsOf 4 (signed 4 (Z i j) + prodEntry (fun a b => signed 4 (X a b))
      (fun a b => signed 4 (Y a b)) t i j)) (by
      intro i j hi hj
      have : prodEntry (fun a b => signed 4 (X a b)) (fun a b => signed 4 (Y a b)) 0 i j = 0 := rfl
      rw [this, add_zero]
      have hz := (isMat_iff.1 h.hz).fits i j hi hj
      rw [← bitsOf_self hz]
      apply bitsOf_congr
      rw [bitsOf_self hz]
      exact sval_mod 4 _) (by
      intro i j t hi hj ht
      rw [prodEntry_succ, ← add_assoc]
      refine macSigned_ok ?_ (hp i j t hi hj ht) ?_
      · have := back _ (hs i j t hi hj (Nat.le_of_lt ht))
        show signed 4 (bitsOf 4 _) + _ = _
        rw [this]; rfl
      · have := hs i j (t+1) hi hj ht
        rw [prodEntry_succ, ← add_assoc] at this
        exact this) (fun _ _ _ _ _ _ => bitsOf_lt 4 _)
  exact ⟨mem', _, h1, h2, h3, fun i j hi hj => back _ (hs i j k hi hj (Nat.le_refl _))⟩

example : (∀ i j t, i < 2 → j < 2 → t < 3 → CI.InR (signed 4 (10 * i + t) * signed 4 (250 - 5 * t - j))) ∧
    ∀ i j t, i < 2 → j < 2 → t ≤ 3 → CI.InR (signed 4 (i + j) + prodEntry (fun a b => signed 4 (10 * a + b))
      (fun a b => signed 4 (250 - 5 * a - b)) t i j) := by
  have h1 : ∀ i, i < 2 → ∀ j, j < 2 → ∀ t, t < 3 → CI.InR (signed 4 (10 * i + t) * signed 4 (250 - 5 * t - j)) := by decide
  have h2 : ∀ i, i < 2 → ∀ j, j < 2 → ∀ t, t ≤ 3 → CI.InR (signed 4 (i + j) + prodEntry (fun a b => signed 4 (10 * a + b))
      (fun a b => signed 4 (250 - 5 * a - b)) t i j) := by decide
  exact ⟨fun i j t hi hj ht => h1 i hi j hj t ht, fun i j t hi hj ht => h2 i hi j hj t ht⟩

/-- **C41** for `unsigned short`, when the products leave room in `int`: modulo 2^16.
Missing: independence of the previous contents; larger products are undefined, see `C41_refuted_ushort`. -/
theorem C41_ushort_partial {mem : Mem} {x y z m k n : Nat} {X Y Z : Nat → Nat → Nat}
    (h : MulArgs mem x y z 2 m k n X Y Z)
    (hp : ∀ i j t, i < m → j < n → t < k → X i t * Y t j ≤ 2147418112) :
    ∃ mem', MulMatrix_ushort x y z m k n mem = .ok ((), mem') ∧ OnlyBlock mem mem' z ∧
      IsMat mem' z 2 m n (fun i j => ((Z i j + prodEntry (fun a b => X a b) (fun a b => Y a b) k i j) % 65536).toNat) := by
  refine h.run (S := fun i j t => bitsOf 2 (Z i j + prodEntry (fun a b => X a b) (fun a b => Y a b) t i j)) ?_ ?_
      (fun _ _ _ _ _ _ => bitsOf_lt 2 _)
  · intro i j hi hj
    have : prodEntry (fun a b => X a b) (fun a b => Y a b) 0 i j = 0 := rfl
    rw [this, add_zero]
    exact bitsOf_self ((isMat_iff.1 h.hz).fits i j hi hj)
  · intro i j t hi hj ht
    have hz := bitsOf_lt 2 (Z i j + prodEntry (fun a b => X a b) (fun a b => Y a b) t i j)
    have := hp i j t hi hj ht
    rw [macPromoted_ok (by omega), prodEntry_succ, ← add_assoc]
    refine congrArg Except.ok ?_
    rw [Int.natCast_add, bitsOf_add]
    push_cast
    rfl

example : ∀ i j t, i < 2 → j < 2 → t < 3 → (10 * i + t) * (250 - 5 * t - j) ≤ 2147418112 := by
  have : ∀ i, i < 2 → ∀ j, j < 2 → ∀ t, t < 3 → (10 * i + t) * (250 - 5 * t - j) ≤ 2147418112 := by decide
  exact fun i j t hi hj ht => this i hi j hj t ht

/-- **C41** is false of the code for `unsigned short` even when the mathematical product modulo 2^16 is well defined: the
operands are promoted to `int`, and whenever the first product exceeds 2^31-1 (for example 65535 * 65535) the
multiplication overflows, for every size. -/
theorem C41_refuted_ushort {mem : Mem} {x y z m k n : Nat} {X Y Z : Nat → Nat → Nat}
    (h : MulArgs mem x y z 2 m k n X Y Z) (hm : 0 < m) (hk : 0 < k) (hn : 0 < n)
    (hbig : 2147483647 < X 0 0 * Y 0 0) : MulMatrix_ushort x y z m k n mem = .error (.ub .overflow) := by
  have step : mulStep 2 (macPromoted 2) x y z k n (0:Nat) (0:Nat) (0:Nat) mem = .error (.ub .overflow) := by
    unfold mulStep
    rw [bind_ok (ev_ok (idx_eval hm hk h.b1) _), bind_ok (ev_ok (idx_eval hk hn h.b2) _),
      bind_ok (ev_ok (idx_eval hm hn h.b3) _)]
    rw [bind_ok ((isMat_iff.1 h.hx).load hm hk), bind_ok ((isMat_iff.1 h.hy).load hk hn),
      bind_ok ((isMat_iff.1 h.hz).load hm hn)]
    have e : macPromoted 2 (Z 0 0) (X 0 0) (Y 0 0) = .error (.ub .overflow) := by
      unfold macPromoted
      rw [CI.mul_bad (by unfold CI.InR; push Not; intro _; exact_mod_cast hbig)]
      rfl
    rw [bind_err (liftE_err e _)]
  exact forI_err (fun _ => mem) hm (fun i hi => by omega)
    (forI_err (fun _ => mem) hn (fun i hi => by omega) (forI_err (fun _ => mem) hk (fun i hi => by omega) step))

example : MulArgs (((Mem.empty.putM 1 2 1 1 (fun _ _ => 65535)).putM 2 2 1 1 (fun _ _ => 65535)).putM 3 2 1 1
    (fun _ _ => 0)) 1 2 3 2 1 1 1 (fun _ _ => 65535) (fun _ _ => 65535) (fun _ _ => 0) ∧ 2147483647 < 65535 * 65535 :=
  ⟨⟨isMat_iff.2 (((holdsM_putM _ (fun _ _ _ _ => by decide)).putM_ne (by decide)).putM_ne (by decide)),
    isMat_iff.2 ((holdsM_putM _ (fun _ _ _ _ => by decide)).putM_ne (by decide)),
    isMat_iff.2 (holdsM_putM _ (fun _ _ _ _ => by decide)), by decide, by decide, by decide, by decide, by decide⟩,
    by decide⟩

/-- partial sums of the exact product entry -/
def Spec.prodEntryQ (a b : Nat → Nat → ℚ) (k i j : Nat) : ℚ := ((List.range k).map fun t => a i t * b t j).sum

theorem prodEntryQ_succ (a b : Nat → Nat → ℚ) (k i j : Nat) :
    prodEntryQ a b (k+1) i j = prodEntryQ a b k i j + a i k * b k j := by
  unfold prodEntryQ
  rw [List.range_succ, List.map_append, List.sum_append]
  simp

theorem mulFloat_exact {F : Fmt} (hF : F.Std) {w : Nat} (hw : 256 ^ w = 2 ^ (F.t + F.w + 1)) {mem : Mem}
    {x y z m k n : Nat} {X Y Z : Nat → Nat → Nat} {a b c : Nat → Nat → ℚ} (h : MulArgs mem x y z w m k n X Y Z)
    (ha : ∀ i j, i < m → j < k → FloatIs F (X i j) (a i j)) (hb : ∀ i j, i < k → j < n → FloatIs F (Y i j) (b i j))
    (hc : ∀ i j, i < m → j < n → FloatIs F (Z i j) (c i j))
    (hp : ∀ i j t, i < m → j < n → t < k → F.Rep (a i t * b t j))
    (hs : ∀ i j t, i < m → j < n → t ≤ k → F.Rep (c i j + prodEntryQ a b t i j)) :
    ∃ mem' P, mulMatrix w (macFloat F) x y z m k n mem = .ok ((), mem') ∧ OnlyBlock mem mem' z ∧ IsMat mem' z w m n P ∧
      ∀ i j, i < m → j < n → FloatIs F (P i j) (c i j + prodEntryQ a b k i j) := by
  -- the accumulated bit patterns
  let S : Nat → Nat → Nat → Nat := fun i j t => t.rec (Z i j) (fun t' r =>
    F.encode (F.add (F.decode r) (F.mul (F.decode (X i t')) (F.decode (Y t' j)))))
  have inv : ∀ i j, i < m → j < n → ∀ t, t ≤ k →
      S i j t < 256 ^ w ∧ FloatIs F (S i j t) (c i j + prodEntryQ a b t i j) := by
    intro i j hi hj t
    induction t with
    | zero =>
      intro _
      refine ⟨(isMat_iff.1 h.hz).fits i j hi hj, ?_⟩
      have : prodEntryQ a b 0 i j = 0 := rfl
      rw [this, add_zero]
      exact hc i j hi hj
    | succ t ih =>
      intro ht
      obtain ⟨r1, r2⟩ := ih (by omega)
      have h2 := hs i j (t+1) hi hj ht
      rw [prodEntryQ_succ, ← add_assoc] at h2
      obtain ⟨r, e1, e2, e3⟩ := macFloat_exact hF r2 (ha i t hi ht) (hb t j ht hj) (hp i j t hi hj ht) h2
      have er : S i j (t+1) = r := by
        unfold macFloat at e1
        exact Except.ok.inj e1
      rw [er, prodEntryQ_succ, ← add_assoc, hw]
      exact ⟨e2, e3⟩
  obtain ⟨mem', h1, h2, h3⟩ := h.run (mac := macFloat F) (S := S) (fun _ _ _ _ => rfl) (fun _ _ _ _ _ _ => rfl)
    (fun i j t hi hj ht => (inv i j hi hj t ht).1)
  exact ⟨mem', _, h1, h2, h3, fun i j hi hj => (inv i j hi hj k (Nat.le_refl _)).2⟩

/-- **C41** for `float` and `double`: whenever the products and partial sums are representable (for example integers
of at most 24 or 53 bits), the entry is exactly the previous entry plus the entry of the product.
Missing: independence of the previous contents; in general each operation rounds. -/
theorem C41_float_partial {mem : Mem} {x y z m k n : Nat} {X Y Z : Nat → Nat → Nat} {a b c : Nat → Nat → ℚ} :
    (MulArgs mem x y z 4 m k n X Y Z → (∀ i j, i < m → j < k → FloatIs f32 (X i j) (a i j)) →
      (∀ i j, i < k → j < n → FloatIs f32 (Y i j) (b i j)) → (∀ i j, i < m → j < n → FloatIs f32 (Z i j) (c i j)) →
      (∀ i j t, i < m → j < n → t < k → f32.Rep (a i t * b t j)) →
      (∀ i j t, i < m → j < n → t ≤ k → f32.Rep (c i j + prodEntryQ a b t i j)) →
      ∃ mem' P, MulMatrix_float x y z m k n mem = .ok ((), mem') ∧ OnlyBlock mem mem' z ∧ IsMat mem' z 4 m n P ∧
        ∀ i j, i < m → j < n → FloatIs f32 (P i j) (c i j + prodEntryQ a b k i j)) ∧
    (MulArgs mem x y z 8 m k n X Y Z → (∀ i j, i < m → j < k → FloatIs f64 (X i j) (a i j)) →
      (∀ i j, i < k → j < n → FloatIs f64 (Y i j) (b i j)) → (∀ i j, i < m → j < n → FloatIs f64 (Z i j) (c i j)) →
      (∀ i j t, i < m → j < n → t < k → f64.Rep (a i t * b t j)) →
      (∀ i j t, i < m → j < n → t ≤ k → f64.Rep (c i j + prodEntryQ a b t i j)) →
      ∃ mem' P, MulMatrix_double x y z m k n mem = .ok ((), mem') ∧ OnlyBlock mem mem' z ∧ IsMat mem' z 8 m n P ∧
        ∀ i j, i < m → j < n → FloatIs f64 (P i j) (c i j + prodEntryQ a b k i j)) :=
  ⟨fun h ha hb hc hp hs => mulFloat_exact f32_std (by rfl) h ha hb hc hp hs,
   fun h ha hb hc hp hs => mulFloat_exact f64_std (by rfl) h ha hb hc hp hs⟩

/-- (1.5) * (2) + 0.5 -/
example : FloatIs f32 0x3FC00000 (3/2) ∧ FloatIs f32 0x40000000 2 ∧ FloatIs f32 0x3F000000 (1/2) ∧
    f32.Rep (3/2 * 2) ∧ f32.Rep (1/2 + 3/2 * 2) := by
  refine ⟨⟨false, by decide +kernel⟩, ⟨false, by decide +kernel⟩, ⟨false, by decide +kernel⟩, ?_, ?_⟩
  · exact ⟨3, 0, by norm_num, by decide, by decide, by rw [abs_of_pos (by norm_num)]; exact lt_of_lt_of_le (by norm_num : (3/2*2:ℚ) < 2^2) (pow_le_pow_right₀ (by norm_num) (by decide))⟩
  · exact ⟨7, -1, by norm_num, by decide, by decide, by rw [abs_of_pos (by norm_num)]; exact lt_of_lt_of_le (by norm_num : (1/2+3/2*2:ℚ) < 2^2) (pow_le_pow_right₀ (by norm_num) (by decide))⟩

/-! ### C42 -/

/-- **C42**: for every element type (1, 2, 4 or 8 bytes), all dimensions and entries, the transpose routine returns,
changes only `z`, and stores entry (`i`, `j`) of `x` as entry (`j`, `i`) of `z`. -/
theorem C42_transpose {mem : Mem} {x z w m n : Nat} {X Z : Nat → Nat → Nat} (hx : IsMat mem x w m n X)
    (hz : IsMat mem z w n m Z) (hxz : x ≠ z) (b : m * n ≤ 2147483647) :
    ∃ mem', (w = 8 → TransMatrix_double x z m n mem = .ok ((), mem')) ∧
      (w = 4 → TransMatrix_float x z m n mem = .ok ((), mem') ∧ TransMatrix_int x z m n mem = .ok ((), mem') ∧
        TransMatrix_uint x z m n mem = .ok ((), mem')) ∧
      (w = 2 → TransMatrix_short x z m n mem = .ok ((), mem') ∧ TransMatrix_ushort x z m n mem = .ok ((), mem')) ∧
      (w = 1 → TransMatrix_char x z m n mem = .ok ((), mem') ∧ TransMatrix_uchar x z m n mem = .ok ((), mem')) ∧
      OnlyBlock mem mem' z ∧ IsMat mem' z w n m (fun i j => X j i) := by
  have r := trans_run (isMat_iff.1 hx) (isMat_iff.1 hz) hxz b
  refine ⟨_, ?_, ?_, ?_, ?_, onlyBlock_putM mem z w n m _,
    isMat_iff.2 (holdsM_putM mem (fun i j hi hj => (isMat_iff.1 hx).fits j i hj hi))⟩
  · rintro rfl; exact r
  · rintro rfl; exact ⟨r, r, r⟩
  · rintro rfl; exact ⟨r, r⟩
  · rintro rfl; exact ⟨r, r⟩

example : IsMat (demoMul 4) 1 4 2 3 (fun i j => 10 * i + j) ∧ IsMat (demoMul 4) 2 4 3 2 (fun i j => 250 - 5 * i - j) :=
  ⟨(demoMul_args (by decide)).hx, (demoMul_args (by decide)).hy⟩

/-- **C42**, involution: transposing `x` into `z` and `z` into `y` copies `x` to `y` (stated for `double`; the other
types only differ in the width). -/
theorem C42_involution {mem : Mem} {x y z m n : Nat} {X Y Z : Nat → Nat → Nat} (hx : IsMat mem x 8 m n X)
    (hy : IsMat mem y 8 m n Y) (hz : IsMat mem z 8 n m Z) (hxz : x ≠ z) (hyz : y ≠ z) (b : m * n ≤ 2147483647) :
    ∃ mem' mem'', TransMatrix_double x z m n mem = .ok ((), mem') ∧ TransMatrix_double z y n m mem' = .ok ((), mem'') ∧
      IsMat mem'' y 8 m n X := by
  have r := trans_run (isMat_iff.1 hx) (isMat_iff.1 hz) hxz b
  have f : Fits 8 n m (fun i j => X j i) := fun i j hi hj => (isMat_iff.1 hx).fits j i hj hi
  have r2 := trans_run (mem := mem.putM z 8 n m (fun i j => X j i)) (holdsM_putM mem f)
    ((isMat_iff.1 hy).putM_ne hyz) (Ne.symm hyz) (by rw [Nat.mul_comm]; exact b)
  exact ⟨_, _, r, r2, isMat_iff.2 (holdsM_putM _ (isMat_iff.1 hx).fits)⟩

end HyperCV
