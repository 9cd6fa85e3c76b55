/-
Semantics of the C fragment used by the model: outcomes, checked `int` arithmetic, a heap of byte
blocks, and counted loops.  Nothing in this file is specific to one function of /repo; it is the
trusted reading of the C language used by all model files.
-/

namespace HyperCV

/-- Kinds of undefined behaviour that the model distinguishes. -/
inductive UB where
  /-- access outside a block, or to a block that does not exist / was freed -/
  | oob
  /-- signed `int` overflow -/
  | overflow
  /-- integer division or remainder by zero -/
  | divZero
  /-- dereference of a null pointer -/
  | nullDeref
  /-- `free` of a pointer that was not returned by the allocator -/
  | badFree
  /-- floating point to integer conversion out of range -/
  | fpConv
  /-- read of an uninitialised object -/
  | uninit
  /-- `memcpy` between overlapping regions -/
  | overlap
  deriving DecidableEq, Repr

/-- Abnormal outcomes of a C function. -/
inductive Err where
  /-- `hypercv_assert` failed: message printed and `exit(1)`
      (/repo/modules/core/include/c_include/err.h:17-28) -/
  | exit
  /-- undefined behaviour -/
  | ub (k : UB)
  /-- the function does not terminate -/
  | diverge
  deriving DecidableEq, Repr

/-- `HyperMat`: /repo/modules/core/include/c_include/hypermat.h:12-21.
`interleave` holds the three tag characters; the array is not NUL terminated, and `pad` stands for the
(arbitrary) characters found in memory between the tag and the next NUL byte, which `strlen` on the
tag runs over.  `data` and `wavelength` are block handles; `wavelength` may be NULL. -/
structure HyperMat where
  samples    : Int
  lines      : Int
  bands      : Int
  data_type  : Int
  interleave : List Char
  pad        : List Char
  data       : Nat
  wavelength : Option Nat
  deriving DecidableEq, Repr

/-- `SIMPLE_MAT`: /repo/modules/core/include/c_include/simplemat.h:1-11.
`inl` records (ghost) whether the pixels live in the same allocation as the header
(simplemat.c:44-50) or in a caller-supplied block (simplemat.c:51-52). -/
structure SimpleMat where
  rows      : Int
  cols      : Int
  data_type : Int
  channels  : Int
  elem_size : Int
  data      : Nat
  inl       : Bool
  deriving DecidableEq, Repr

/-- A heap.  `blk` maps block handles to byte arrays, `hm`/`sm` map handles to the headers of cubes and
images.  `next` is the next fresh handle.  `junk`, `pad` and `addr` are oracles: the arbitrary contents
of uninitialised memory and the arbitrary addresses the allocator chooses. -/
structure Mem where
  blk  : Nat → Option (List UInt8)
  hm   : Nat → Option HyperMat
  sm   : Nat → Option SimpleMat
  next : Nat
  junk : Nat → Nat → UInt8
  pad  : Nat → List Char
  addr : Nat → Nat

/-- Handles at or above `next` have never been allocated. -/
def Mem.WF (m : Mem) : Prop :=
  ∀ h, m.next ≤ h → m.blk h = none ∧ m.hm h = none ∧ m.sm h = none

/-- a heap with nothing allocated and all oracles fixed; used only for concrete witnesses -/
def Mem.empty : Mem where
  blk := fun _ => none
  hm := fun _ => none
  sm := fun _ => none
  next := 0
  junk := fun _ _ => 0
  pad := fun _ => []
  addr := fun _ => 0

/-- Computations with heap and abnormal outcomes. -/
def M (α : Type) := Mem → Except Err (α × Mem)

namespace M

def pure {α : Type} (a : α) : M α := fun m => .ok (a, m)

def bind {α β : Type} (x : M α) (f : α → M β) : M β := fun m =>
  match x m with
  | .error e => .error e
  | .ok (a, m') => f a m'

instance : Monad M where
  pure := M.pure
  bind := M.bind

end M

/-- abnormal termination -/
def fail {α : Type} (e : Err) : M α := fun _ => .error e

/-- `hypercv_assert(c, msg)`: /repo/modules/core/include/c_include/err.h:17-28 -/
def cassert (c : Bool) : M Unit := if c then pure () else fail .exit

/-! ### Checked `int` expressions -/

/-- value of a C `int` expression, or the undefined behaviour its evaluation has -/
def CI := Except Err Int

namespace CI

/-- range of a 32-bit `int` -/
def InR (x : Int) : Prop := -2147483648 ≤ x ∧ x ≤ 2147483647

instance (x : Int) : Decidable (InR x) := by unfold InR; infer_instance

/-- a value that is known to be an `int` (variable, literal) -/
def lit (x : Int) : CI := .ok x

/-- evaluation of the expression fails -/
def err (e : Err) : CI := .error e

/-- result of an `int` operation: UB when it is not representable -/
def ck (x : Int) : CI := if InR x then lit x else err (.ub .overflow)

def lift2 (f : Int → Int → CI) (x y : CI) : CI :=
  match x with
  | .error e => err e
  | .ok a => match y with
    | .error e => err e
    | .ok b => f a b

instance : Coe Int CI := ⟨lit⟩
instance : OfNat CI n := ⟨lit (OfNat.ofNat n)⟩
instance : Add CI := ⟨lift2 fun a b => ck (a + b)⟩
instance : Sub CI := ⟨lift2 fun a b => ck (a - b)⟩
instance : Mul CI := ⟨lift2 fun a b => ck (a * b)⟩
/-- C99 division truncates toward zero; division by zero is UB. -/
instance : Div CI := ⟨lift2 fun a b => if b = 0 then err (.ub .divZero) else ck (a.tdiv b)⟩
/-- C99 remainder has the sign of the dividend.  `INT_MIN % -1` overflows. -/
instance : Mod CI := ⟨lift2 fun a b =>
  if b = 0 then err (.ub .divZero) else
  if InR (a.tdiv b) then ck (a.tmod b) else err (.ub .overflow)⟩
instance : Neg CI := ⟨fun x => match x with | .error e => err e | .ok a => ck (-a)⟩

end CI

/-- evaluate a checked `int` expression inside a computation -/
def ev (x : CI) : M Int := fun m =>
  match x with
  | .error e => .error e
  | .ok a => .ok (a, m)

/-! ### Memory accesses -/

/-- update one block -/
def Mem.setBlk (m : Mem) (h : Nat) (b : Option (List UInt8)) : Mem :=
  { m with blk := fun h' => if h' = h then b else m.blk h' }

/-- read byte `i` of block `h` -/
def load (h : Nat) (i : Int) : M UInt8 := fun m =>
  match m.blk h with
  | none => .error (.ub .oob)
  | some l =>
    if 0 ≤ i then
      match l[i.toNat]? with
      | some v => .ok (v, m)
      | none => .error (.ub .oob)
    else .error (.ub .oob)

/-- write byte `i` of block `h` -/
def store (h : Nat) (i : Int) (v : UInt8) : M Unit := fun m =>
  match m.blk h with
  | none => .error (.ub .oob)
  | some l =>
    if 0 ≤ i ∧ i.toNat < l.length then
      .ok ((), m.setBlk h (some (l.set i.toNat v)))
    else .error (.ub .oob)

/-- table of the first `n` values of a function -/
def tab {α : Type} (n : Nat) (f : Nat → α) : List α := (List.range n).map f

/-- `malloc(n)`: a fresh block of `n` bytes with arbitrary contents.  (Failure of `malloc` is not
modelled.) -/
def malloc (n : Nat) : M Nat := fun m =>
  .ok (m.next,
    { m with
      blk := fun h => if h = m.next then some (tab n (m.junk m.next)) else m.blk h
      next := m.next + 1 })

/-- `free` of the whole block `h` -/
def free (h : Nat) : M Unit := fun m =>
  match m.blk h with
  | none => .error (.ub .badFree)
  | some _ => .ok ((), m.setBlk h none)

/-! ### Headers of cubes and images -/

/-- dereference a pointer to a cube header -/
def getH (p : Nat) : M HyperMat := fun m =>
  match m.hm p with
  | none => .error (.ub .oob)
  | some h => .ok (h, m)

/-- dereference a possibly null pointer to a cube header -/
def derefH (p : Option Nat) : M HyperMat :=
  match p with
  | none => fail (.ub .nullDeref)
  | some a => getH a

/-- overwrite a cube header -/
def setH (p : Nat) (h : HyperMat) : M Unit := fun m =>
  match m.hm p with
  | none => .error (.ub .oob)
  | some _ => .ok ((), { m with hm := fun q => if q = p then some h else m.hm q })

/-- a new cube header object -/
def newH (h : HyperMat) : M Nat := fun m =>
  .ok (m.next, { m with
    hm := fun q => if q = m.next then some h else m.hm q
    next := m.next + 1 })

/-- dereference a pointer to an image header -/
def getS (p : Nat) : M SimpleMat := fun m =>
  match m.sm p with
  | none => .error (.ub .oob)
  | some h => .ok (h, m)

/-- dereference a possibly null pointer to an image header -/
def derefS (p : Option Nat) : M SimpleMat :=
  match p with
  | none => fail (.ub .nullDeref)
  | some a => getS a

/-- overwrite an image header -/
def setS (p : Nat) (h : SimpleMat) : M Unit := fun m =>
  match m.sm p with
  | none => .error (.ub .oob)
  | some _ => .ok ((), { m with sm := fun q => if q = p then some h else m.sm q })

/-- a new image header object -/
def newS (h : SimpleMat) : M Nat := fun m =>
  .ok (m.next, { m with
    sm := fun q => if q = m.next then some h else m.sm q
    next := m.next + 1 })

/-- `hypercv_assert(p != NULL, ...)` followed by the use of `p` -/
def nonNull (p : Option Nat) : M Nat :=
  match p with
  | none => fail .exit
  | some a => pure a

/-- contents of the oracle for the bytes after an interleave tag -/
def padOf (p : Nat) : M (List Char) := fun m => .ok (m.pad p, m)

/-- the next handle -/
def nextH : M Nat := fun m => .ok (m.next, m)

/-- conversion to `unsigned int` -/
def u32 (x : Int) : Int := x % 4294967296

/-- conversion of an `int` to `unsigned char` (modulo 256) -/
def uchar (x : Int) : UInt8 := UInt8.ofNat (x % 256).toNat

/-- value of an `unsigned char` promoted to `int` -/
def ival (b : UInt8) : Int := (b.toNat : Int)

/-! ### Loops -/

def forLoop {σ : Type} (body : Int → σ → M σ) : Nat → Int → σ → M σ
  | 0, _, s => pure s
  | n+1, i, s => do
    let s' ← body i s
    forLoop body n (i+1) s'

/-- `for (int i = lo; i < hi; i++) s = body(i, s)` -/
def forA {σ : Type} (lo hi : Int) (s : σ) (body : Int → σ → M σ) : M σ :=
  forLoop body (hi - lo).toNat lo s

/-- `for (int i = lo; i < hi; i++) body(i)` -/
def forI (lo hi : Int) (body : Int → M Unit) : M Unit :=
  forA lo hi () fun i _ => body i

/-- `memcpy(dst + doff, src + soff, n)`, byte by byte.  A negative `n` becomes a huge `size_t`, which is
out of bounds; overlapping regions are undefined behaviour. -/
def memcpy (dst : Nat) (doff : Int) (src : Nat) (soff : Int) (n : Int) : M Unit :=
  if n < 0 then fail (.ub .oob) else
  if dst = src ∧ 0 < n ∧ doff < soff + n ∧ soff < doff + n then fail (.ub .overlap) else
  forI 0 n fun t => do
    let v ← load src (soff + t)
    store dst (doff + t) v

/-- `memset(dst + off, v, n)`; a negative `n` becomes a huge `size_t`, which is out of bounds -/
def memset (dst : Nat) (off : Int) (v : UInt8) (n : Int) : M Unit :=
  if n < 0 then fail (.ub .oob) else
  forI 0 n fun t => store dst (off + t) v

/-! ### Typed little-endian accesses -/

/-- combine little-endian bytes -/
def leNat : List UInt8 → Nat
  | [] => 0
  | b :: bs => b.toNat + 256 * leNat bs

/-- byte `t` of the little-endian representation of `v` -/
def leByte (v t : Nat) : UInt8 := UInt8.ofNat (v / 256 ^ t)

def loadBytes (h : Nat) : Nat → Int → M (List UInt8)
  | 0, _ => pure []
  | n+1, i => do
    let b ← load h i
    let bs ← loadBytes h n (i+1)
    pure (b :: bs)

def storeBytes (h : Nat) (v : Nat) : Nat → Int → M Unit
  | 0, _ => pure ()
  | n+1, i => do
    store h i (UInt8.ofNat v)
    storeBytes h (v / 256) n (i+1)

/-- `((T*)p)[i]` where `sizeof(T) = w`: the unsigned bit pattern of the element -/
def loadN (w : Nat) (h : Nat) (i : Int) : M Nat := do
  let bs ← loadBytes h w (i * w)
  pure (leNat bs)

/-- `((T*)p)[i] = v` where `sizeof(T) = w`, `v` the unsigned bit pattern (truncated to `w` bytes) -/
def storeN (w : Nat) (h : Nat) (i : Int) (v : Nat) : M Unit := storeBytes h v w (i * w)

end HyperCV
