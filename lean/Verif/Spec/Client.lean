/- Programs that use cubes: the operations, and what they mean.  Nothing here knows about memory. -/
import Verif.Spec.Typed

namespace HyperCV.Spec

/-- the value of a cube variable: dimensions, data type with element size, order, the bit pattern of the element at (line, sample, band) and of the wavelength
of every band -/
structure CubeVal where
  S : Nat
  L : Nat
  B : Nat
  dt : Int
  E : Nat
  lay : Layout
  elem : Nat → Nat → Nat → Nat
  wave : Nat → Nat

/-- the operations of a program on its cube variables, which are numbered in the order of their creation -/
inductive CubeOp
  /-- a new variable: a cube of zeroes -/
  | create (S L B : Nat) (dt : Int) (lay : Layout)
  /-- a new variable: variable `x`, which is in order `a`, converted to order `t` -/
  | convert (x : Nat) (a t : Layout)
  /-- a new variable: `l` lines, `s` samples and `b` bands of variable `x` from line `i`, sample `j`, band `k` on -/
  | range (x i j k l s b : Nat)
  /-- variable `x` is brought into order `t` in place -/
  | convertIn (x : Nat) (t : Layout)
  /-- variable `x` is copied into variable `y` -/
  | copyTo (x y : Nat)
  /-- only the wavelengths are copied -/
  | copyWaves (x y : Nat)
  /-- the program stores `v` in an element, through the data pointer -/
  | write (x i j k v : Nat)
  /-- the program stores a wavelength -/
  | writeWave (x k v : Nat)
  /-- the program looks at an element -/
  | read (x i j k : Nat)
  /-- the program looks at a wavelength -/
  | readWave (x k : Nat)
  /-- the variable is released -/
  | delete (x : Nat)

/-- the values of the variables; `none` after release -/
abbrev Store := List (Option CubeVal)

/-- the value of variable `x`, if it exists -/
def Store.get (st : Store) (x : Nat) : Option CubeVal := (st[x]?).join

/-- byte counts must fit in `int` -/
def CubeVal.Fits (c : CubeVal) : Prop := c.S * c.L * c.B * c.E ≤ 2147483647 ∧ 4 * c.B ≤ 2147483647

instance (c : CubeVal) : Decidable c.Fits :=
  inferInstanceAs (Decidable (c.S * c.L * c.B * c.E ≤ 2147483647 ∧ 4 * c.B ≤ 2147483647))

/-- meaning of one operation: the new values and what the program sees, or `none` if the program may not do this -/
def CubeOp.step (st : Store) : CubeOp → Option (Store × List Nat)
  | .create S L B dt lay => do
    let E ← elemBytes dt
    let c : CubeVal := ⟨S, L, B, dt, E, lay, fun _ _ _ => 0, fun _ => 0⟩
    if 0 < S ∧ 0 < L ∧ 0 < B ∧ c.Fits then some (st ++ [some c], []) else none
  | .convert x a t => do
    let c ← st.get x
    if c.lay = a ∧ a ≠ t then some (st ++ [some { c with lay := t }], []) else none
  | .range x i j k l s b => do
    let c ← st.get x
    if 0 < l ∧ 0 < s ∧ 0 < b ∧ i + l ≤ c.L ∧ j + s ≤ c.S ∧ k + b ≤ c.B then
      some (st ++ [some { c with S := s, L := l, B := b, elem := fun i' j' k' => c.elem (i + i') (j + j') (k + k'), wave := fun k' => c.wave (k + k') }], [])
    else none
  | .convertIn x t => do
    let c ← st.get x
    some (st.set x (some { c with lay := t }), [])
  | .copyTo x y => do
    let c ← st.get x
    let d ← st.get y
    if x ≠ y ∧ c.S = d.S ∧ c.L = d.L ∧ c.B = d.B ∧ c.dt = d.dt then some (st.set y (some c), []) else none
  | .copyWaves x y => do
    let c ← st.get x
    let d ← st.get y
    if x ≠ y ∧ c.B = d.B then some (st.set y (some { d with wave := c.wave }), []) else none
  | .write x i j k v => do
    let c ← st.get x
    if i < c.L ∧ j < c.S ∧ k < c.B ∧ v < 256 ^ c.E then
      some (st.set x (some { c with elem := fun i' j' k' => if i' = i ∧ j' = j ∧ k' = k then v else c.elem i' j' k' }), [])
    else none
  | .writeWave x k v => do
    let c ← st.get x
    if k < c.B ∧ v < 256 ^ 4 then some (st.set x (some { c with wave := fun k' => if k' = k then v else c.wave k' }), []) else none
  | .read x i j k => do
    let c ← st.get x
    if i < c.L ∧ j < c.S ∧ k < c.B then some (st, [c.elem i j k]) else none
  | .readWave x k => do
    let c ← st.get x
    if k < c.B then some (st, [c.wave k]) else none
  | .delete x => do
    let _ ← st.get x
    some (st.set x none, [])

/-- meaning of a program: the values at the end and everything it saw -/
def meaning : Store → List CubeOp → Option (Store × List Nat)
  | st, [] => some (st, [])
  | st, op :: ops => do
    let (st1, o1) ← op.step st
    let (st2, o2) ← meaning st1 ops
    some (st2, o1 ++ o2)

/-- `p` points to a cube with value `c` -/
def HasValue (m : Mem) (p : Nat) (c : CubeVal) : Prop :=
  IsCubeN m p c.lay c.S c.L c.B c.dt c.E c.elem (fun t => leByte (c.wave (t / 4)) (t % 4)) ∧ (∀ k, k < c.B → c.wave k < 256 ^ 4) ∧ c.Fits

/-- the memory `m` of a program that started in `m0`, with the pointers `env`, represents the values `st`; `others` is the storage that does not belong to the
cubes of the program (for a program that uses only cubes: what existed in `m0`).  The other storage is unchanged, every variable that exists points to a cube with
its value outside the other storage, different variables share no storage, and nothing else is allocated: every further block holds the elements or the
wavelengths of a variable, every further header is that of a variable -/
structure Represents (others : Nat → Prop) (m0 m : Mem) (env : List (Option Nat)) (st : Store) : Prop where
  wf : m.WF
  later : ∀ h, others h → h < m.next
  frame : ∀ h, others h → m.blk h = m0.blk h ∧ m.hm h = m0.hm h ∧ m.sm h = m0.sm h
  addr : m.addr = m0.addr
  junk : m.junk = m0.junk
  same : env.length = st.length
  cube : ∀ x c, st.get x = some c → ∃ p, env[x]? = some (some p) ∧ HasValue m p c ∧ ∀ h, Owns m p h → ¬ others h
  apart : ∀ x y c d p q, x ≠ y → st.get x = some c → st.get y = some d → env[x]? = some (some p) → env[y]? = some (some q) → Separate m p q
  blocks : ∀ h, ¬ others h → m.blk h ≠ none →
    ∃ x c p hdr, st.get x = some c ∧ env[x]? = some (some p) ∧ m.hm p = some hdr ∧ (h = hdr.data ∨ hdr.wavelength = some h)
  headers : ∀ h, ¬ others h → m.hm h ≠ none → ∃ x c, st.get x = some c ∧ env[x]? = some (some h)
  images : ∀ h, ¬ others h → m.sm h = none

end HyperCV.Spec
