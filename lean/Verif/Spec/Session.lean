/- Programs that use cubes and images together: the operations, and what they mean. -/
import Verif.Spec.Client
import Verif.Spec.Image

namespace HyperCV.Spec

/-- the value of an image variable (one channel): rows, columns, data type with element size, and the bit pattern of every pixel -/
structure ImgVal where
  R : Nat
  C : Nat
  dt : Int
  E : Nat
  px : Nat → Nat → Nat

/-- the operations of a program on its image variables, which are numbered in the order of their creation -/
inductive ImgOp
  /-- a new variable: a black image -/
  | create (R C : Nat) (dt : Int)
  /-- a new variable: a copy of variable `x` -/
  | copy (x : Nat)
  /-- variable `y` becomes the transpose of variable `x` -/
  | transpose (x y : Nat)
  /-- variable `y` becomes the mirror image of variable `x`: left-right (1), upside down (0), both (-1); byte images -/
  | flip (x y : Nat) (code : Int)
  /-- variable `y` becomes variable `x` compared with `thresh`: the modes 0 to 4; byte images, `y` may be `x` -/
  | threshold (x y : Nat) (thresh max mode : Int)
  /-- the program stores `v` in a pixel, through the data pointer -/
  | write (x i j v : Nat)
  /-- the program looks at a pixel -/
  | read (x i j : Nat)
  /-- the variable is released -/
  | delete (x : Nat)

/-- the values of the image variables; `none` after release -/
abbrev Images := List (Option ImgVal)

/-- the value of image variable `x`, if it exists -/
def Images.get (im : Images) (x : Nat) : Option ImgVal := (im[x]?).join

/-- the byte count and the header must fit in `int` -/
def ImgVal.Fits (c : ImgVal) : Prop := c.R * c.C * c.E ≤ 2147483551

instance (c : ImgVal) : Decidable c.Fits := inferInstanceAs (Decidable (c.R * c.C * c.E ≤ 2147483551))

/-- the mirrored coordinates -/
def mirror (code : Int) (R C i j : Nat) : Nat × Nat :=
  if code = 1 then (i, C - 1 - j) else if code = 0 then (R - 1 - i, j) else (R - 1 - i, C - 1 - j)

/-- the result of a threshold mode for a pixel value, as a byte -/
def cut (mode thresh max : Int) (v : Nat) : Nat :=
  ((if mode = 0 then (if (v:Int) > thresh then max else 0)
    else if mode = 1 then (if (v:Int) > thresh then 0 else max)
    else if mode = 2 then min (v:Int) thresh
    else if mode = 3 then (if (v:Int) > thresh then (v:Int) else 0)
    else (if (v:Int) > thresh then 0 else (v:Int))) % 256).toNat

/-- meaning of one operation on images: the new values and what the program sees, or `none` if the program may not do this -/
def ImgOp.step (im : Images) : ImgOp → Option (Images × List Nat)
  | .create R C dt => do
    let E ← elemBytes dt
    let c : ImgVal := ⟨R, C, dt, E, fun _ _ => 0⟩
    if 0 < R ∧ 0 < C ∧ c.Fits then some (im ++ [some c], []) else none
  | .copy x => do
    let c ← im.get x
    some (im ++ [some c], [])
  | .transpose x y => do
    let c ← im.get x
    let d ← im.get y
    if x ≠ y ∧ d.R = c.C ∧ d.C = c.R ∧ d.dt = c.dt then some (im.set y (some { d with px := fun i j => c.px j i }), []) else none
  | .flip x y code => do
    let c ← im.get x
    let d ← im.get y
    if (code = 1 ∨ code = 0 ∨ code = -1) ∧ (x ≠ y ∨ code = -1) ∧ d.R = c.R ∧ d.C = c.C ∧ c.dt = 1 ∧ d.dt = 1 then
      some (im.set y (some { d with px := fun i j => c.px (mirror code c.R c.C i j).1 (mirror code c.R c.C i j).2 }), [])
    else none
  | .threshold x y thresh max mode => do
    let c ← im.get x
    let d ← im.get y
    if 0 ≤ mode ∧ mode ≤ 4 ∧ d.R = c.R ∧ d.C = c.C ∧ c.dt = 1 ∧ d.dt = 1 then
      some (im.set y (some { d with px := fun i j => cut mode thresh max (c.px i j) }), [])
    else none
  | .write x i j v => do
    let c ← im.get x
    if i < c.R ∧ j < c.C ∧ v < 256 ^ c.E then
      some (im.set x (some { c with px := fun i' j' => if i' = i ∧ j' = j then v else c.px i' j' }), [])
    else none
  | .read x i j => do
    let c ← im.get x
    if i < c.R ∧ j < c.C then some (im, [c.px i j]) else none
  | .delete x => do
    let _ ← im.get x
    some (im.set x none, [])

/-- the operations of a program on cubes and images -/
inductive SessionOp
  | cube (o : CubeOp)
  | image (o : ImgOp)
  /-- image `y` becomes band `k` (counted from 0) of cube `x`, which is in order bsq -/
  | takeBand (x k y : Nat)
  /-- band `k` of cube `x`, which is in order bsq and has elements of one byte, becomes image `y` -/
  | putBand (y x k : Nat)
  /-- a new image with the elements of cube `x`, in the order in which the cube has them -/
  | reshape (x R C : Nat)

/-- the element at a position of a cube: line, sample, band -/
def CubeVal.at (c : CubeVal) (n : Nat) : Nat :=
  match c.lay with
  | .bsq => c.elem (n / c.S % c.L) (n % c.S) (n / c.S / c.L)
  | .bil => c.elem (n / c.S / c.B) (n % c.S) (n / c.S % c.B)
  | .bip => c.elem (n / c.B / c.S) (n / c.B % c.S) (n % c.B)

/-- meaning of one operation -/
def SessionOp.step (st : Store) (im : Images) : SessionOp → Option (Store × Images × List Nat)
  | .cube o => do
    let (st', out) ← o.step st
    some (st', im, out)
  | .image o => do
    let (im', out) ← o.step im
    some (st, im', out)
  | .takeBand x k y => do
    let c ← st.get x
    let d ← im.get y
    if c.lay = .bsq ∧ k < c.B ∧ d.R = c.L ∧ d.C = c.S ∧ d.dt = c.dt then
      some (st, im.set y (some { d with px := fun i j => c.elem i j k }), [])
    else none
  | .putBand y x k => do
    let d ← im.get y
    let c ← st.get x
    if c.lay = .bsq ∧ c.E = 1 ∧ k < c.B ∧ d.R = c.L ∧ d.C = c.S ∧ d.dt = c.dt then
      some (st.set x (some { c with elem := fun i j k' => if k' = k then d.px i j else c.elem i j k' }), im, [])
    else none
  | .reshape x R C => do
    let c ← st.get x
    let d : ImgVal := ⟨R, C, c.dt, c.E, fun i j => c.at (i * C + j)⟩
    if 0 < R ∧ 0 < C ∧ R * C = c.S * c.L * c.B ∧ d.Fits then some (st, im ++ [some d], []) else none

/-- meaning of a program: the values at the end and everything it saw -/
def sessionMeaning : Store → Images → List SessionOp → Option (Store × Images × List Nat)
  | st, im, [] => some (st, im, [])
  | st, im, op :: ops => do
    let (st1, im1, o1) ← op.step st im
    let (st2, im2, o2) ← sessionMeaning st1 im1 ops
    some (st2, im2, o1 ++ o2)

/-- `p` points to an image with value `c`, which was allocated with its header -/
def HasImage (m : Mem) (p : Nat) (c : ImgVal) : Prop :=
  IsImage m p c.R c.C c.dt 1 c.E (fun i j _ t => leByte (c.px i j) t) ∧ (∀ i j, i < c.R → j < c.C → c.px i j < 256 ^ c.E) ∧ c.Fits ∧
    ∃ hdr, m.sm p = some hdr ∧ hdr.inl = true

/-- the memory represents the values `im` of the image variables; `others` is the storage that does not belong to the images of the program: like `Represents` -/
structure RepresentsImages (others : Nat → Prop) (m0 m : Mem) (env : List (Option Nat)) (im : Images) : Prop where
  wf : m.WF
  later : ∀ h, others h → h < m.next
  frame : ∀ h, others h → m.blk h = m0.blk h ∧ m.hm h = m0.hm h ∧ m.sm h = m0.sm h
  addr : m.addr = m0.addr
  same : env.length = im.length
  image : ∀ x c, im.get x = some c → ∃ p, env[x]? = some (some p) ∧ HasImage m p c ∧ ∀ h, OwnsImg m p h → ¬ others h
  apart : ∀ x y c d p q, x ≠ y → im.get x = some c → im.get y = some d → env[x]? = some (some p) → env[y]? = some (some q) →
    ∀ h, ¬ (OwnsImg m p h ∧ OwnsImg m q h)
  blocks : ∀ h, ¬ others h → m.blk h ≠ none → ∃ x c p, im.get x = some c ∧ env[x]? = some (some p) ∧ PixelBlock m p h
  headers : ∀ h, ¬ others h → m.sm h ≠ none → ∃ x c, im.get x = some c ∧ env[x]? = some (some h)
  cubes : ∀ h, ¬ others h → m.hm h = none

/-- the storage of the cube variables -/
def OfCubes (m : Mem) (env : List (Option Nat)) (st : Store) (h : Nat) : Prop :=
  ∃ x c p, st.get x = some c ∧ env[x]? = some (some p) ∧ Owns m p h

/-- the storage of the image variables -/
def OfImages (m : Mem) (env : List (Option Nat)) (im : Images) (h : Nat) : Prop :=
  ∃ x c p, im.get x = some c ∧ env[x]? = some (some p) ∧ OwnsImg m p h

/-- the memory `m` represents the values of the variables of a program beside the storage `old`, which is as in `m0`: beside that and the images, the cubes
represent `st`; beside that and the cubes, the images represent `im` -/
structure RepresentsBeside (old : Nat → Prop) (m0 m : Mem) (envC : List (Option Nat)) (st : Store) (envI : List (Option Nat)) (im : Images) : Prop where
  frame : ∀ h, old h → m.blk h = m0.blk h ∧ m.hm h = m0.hm h ∧ m.sm h = m0.sm h
  addr : m.addr = m0.addr
  cubes : Represents (fun h => old h ∨ OfImages m envI im h) m m envC st
  images : RepresentsImages (fun h => old h ∨ OfCubes m envC st h) m m envI im

/-- the memory `m` of a program that started in `m0` represents the values of its variables: what existed in `m0` is unchanged; beside that and the images, the
cubes represent `st`; beside that and the cubes, the images represent `im` -/
def RepresentsBoth (m0 m : Mem) (envC : List (Option Nat)) (st : Store) (envI : List (Option Nat)) (im : Images) : Prop :=
  RepresentsBeside (· < m0.next) m0 m envC st envI im

end HyperCV.Spec
