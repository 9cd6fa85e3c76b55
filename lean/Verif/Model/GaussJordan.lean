/-
The arithmetic of `invert_matrix_float` (modules/process/src/c_src/matrixprocess.c:356-433) as a function on
matrices over an arbitrary arithmetic.  `HyperCV.C43_refines` proves that the memory model of the C function
(`Verif/Model/Matrix.lean`) computes exactly this function with `float` arithmetic; the property is then proved for
exact arithmetic.
-/
namespace HyperCV

/-- the operations that the elimination uses -/
structure Arith (α : Type) where
  add : α → α → α
  mul : α → α → α
  neg : α → α
  recip : α → α
  isZero : α → Bool
  zero : α
  one : α

/-- matrices; only entries below the dimension matter -/
abbrev Mat (α : Type) := Nat → Nat → α

variable {α : Type}

/-- matrixprocess.c:356-368 -/
def gId (K : Arith α) : Mat α := fun a b => if a = b then K.one else K.zero
/-- matrixprocess.c:370-383 -/
def gSwap (i r : Nat) (A : Mat α) : Mat α := fun a b => if a = i then A r b else if a = r then A i b else A a b
/-- matrixprocess.c:385-391 -/
def gScale (K : Arith α) (i : Nat) (s : α) (A : Mat α) : Mat α := fun a b => if a = i then K.mul (A a b) s else A a b
/-- matrixprocess.c:394-399 -/
def gShear (K : Arith α) (j i : Nat) (s : α) (A : Mat α) : Mat α :=
  fun a b => if a = j then K.add (A a b) (K.mul s (A i b)) else A a b

/-- matrixprocess.c:411-415 -/
def gFind (K : Arith α) (A : Mat α) (i : Nat) : Nat → Nat → Nat
  | 0, r => r
  | f+1, r => if K.isZero (A r i) then gFind K A i f (r + 1) else r

/-- matrixprocess.c:409-420; `none` means that the function returns early -/
def gPivot (K : Arith α) (m i : Nat) (s : Mat α × Mat α) : Option (Mat α × Mat α) :=
  if K.isZero (s.1 i i) then
    if gFind K s.1 i (m - (i + 1)) (i + 1) = m then none
    else some (gSwap i (gFind K s.1 i (m - (i + 1)) (i + 1)) s.1, gSwap i (gFind K s.1 i (m - (i + 1)) (i + 1)) s.2)
  else some s

/-- matrixprocess.c:425-431, the rows below `j` -/
def gRows (K : Arith α) (i : Nat) : Nat → Mat α × Mat α → Mat α × Mat α
  | 0, s => s
  | j+1, s =>
    if i = j then gRows K i j s
    else (gShear K j i (K.neg ((gRows K i j s).1 j i)) (gRows K i j s).1,
          gShear K j i (K.neg ((gRows K i j s).1 j i)) (gRows K i j s).2)

/-- matrixprocess.c:421-431 -/
def gElim (K : Arith α) (m i : Nat) (s : Mat α × Mat α) : Mat α × Mat α :=
  gRows K i m (gScale K i (K.recip (s.1 i i)) s.1, gScale K i (K.recip (s.1 i i)) s.2)

/-- matrixprocess.c:406-432, `f` more columns from column `i`; the flag says whether all columns were processed -/
def gLoop (K : Arith α) (m : Nat) : Nat → Nat → Mat α × Mat α → (Mat α × Mat α) × Bool
  | 0, _, s => (s, true)
  | f+1, i, s =>
    match gPivot K m i s with
    | none => (s, false)
    | some t => gLoop K m f (i + 1) (gElim K m i t)

/-- matrixprocess.c:402-433: the final contents of `mat` and `res` -/
def gInvert (K : Arith α) (m : Nat) (A : Mat α) : (Mat α × Mat α) × Bool := gLoop K m m 0 (A, gId K)

end HyperCV
