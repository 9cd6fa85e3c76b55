/- Model of /repo/modules/highgui/src/draw.c. -/
import Verif.Model.SimpleMat
import Verif.Base.Float

namespace HyperCV

/-- `RGB_data`: simplemat.h:48-53 -/
structure RGB where
  r : UInt8
  g : UInt8
  b : UInt8

/-- the checks shared by the drawing routines and the copy of the source: draw.c:10-20 and 49-60 -/
def drawCopy (src_mat dst_mat : Option Nat) : M (SimpleMat × SimpleMat) := do
  cassert (src_mat.isSome && dst_mat.isSome)
  let s ← derefS src_mat
  cassert (s.data_type = 1)
  let d ← derefS dst_mat
  cassert (s.rows = d.rows ∧ s.cols = d.cols ∧ s.channels = d.channels)
  let n ← ev (CI.lit s.rows * CI.lit s.cols * CI.lit s.channels)
  memcpy d.data 0 s.data 0 n
  pure (s, d)

/-- the three assignments of draw.c:34-36 and 76-78 -/
def paint3 (data : Nat) (cols channels row col : Int) (c0 c1 c2 : UInt8) : M Unit := do
  let p0 ← ev (CI.lit row * CI.lit cols * CI.lit channels + CI.lit col * CI.lit channels)
  store data p0 c0
  let p1 ← ev (CI.lit row * CI.lit cols * CI.lit channels + CI.lit col * CI.lit channels + CI.lit 1)
  store data p1 c1
  let p2 ← ev (CI.lit row * CI.lit cols * CI.lit channels + CI.lit col * CI.lit channels + CI.lit 2)
  store data p2 c2

/-- draw.c:30-40: offset (`i`, `j`) of the square around (`x`, `y`) -/
def pointPixel (data : Nat) (rows cols channels : Int) (color : RGB) (x y i j : Int) : M Unit := do
  let a ← ev (CI.lit x + CI.lit i)
  if a < 0 ∨ cols ≤ a then pure () else do
    let b ← ev (CI.lit y + CI.lit j)
    if b < 0 ∨ rows ≤ b then pure () else
      if channels = 3 then paint3 data cols channels b a color.b color.g color.r
      else if channels = 1 then do
        let p ← ev (CI.lit b * CI.lit cols + CI.lit a)
        store data p color.r
      else pure ()

/-- draw.c:26-42: the square around one point -/
def pointSquare (data : Nat) (rows cols channels : Int) (color : RGB) (size x y : Int) : M Unit := do
  let lo ← ev (-CI.lit size / CI.lit 2)
  let hi ← ev (CI.lit size / CI.lit 2)
  forI lo (hi + 1) fun i => forI lo (hi + 1) fun j => pointPixel data rows cols channels color x y i j

/-- `draw_POINT`: draw.c:8-44.  Simplification: the array `v` is passed by value, as the list of its points. -/
def draw_POINT (src_mat dst_mat : Option Nat) (v : List (Int × Int)) (point_num : Int) (color : RGB) (size : Int) : M Unit := do
  let (s, d) ← drawCopy src_mat dst_mat
  forI 0 point_num fun k =>
    match v[k.toNat]? with
    | none => fail (.ub .oob)
    | some (x, y) => pointSquare d.data s.rows s.cols s.channels color size x y

/-- draw.c:69: `(int)(j*k+b+0.5)`.  The product and the first sum are in `float`, the second sum in `double`. -/
def lineRow (k b : FV) (j : Int) : M Int :=
  match FV.trunc (f64.add (f64.conv (f32.add (f32.mul (f32.ofInt j) k) b)) (.fin false (1 / 2))) with
  | none => fail (.ub .fpConv)
  | some n => pure n

/-- draw.c:71-84: offset `t` from the line.  Line 83 compares instead of assigning. -/
def linePixel (data : Nat) (cols channels : Int) (color : RGB) (i j t : Int) : M Unit := do
  let a ← ev (CI.lit j + CI.lit t)
  if a < 0 ∨ cols ≤ a then pure () else
    if channels = 3 then paint3 data cols channels i a color.r color.g color.b
    else if channels = 1 then do
      let p ← ev (CI.lit i * CI.lit cols + CI.lit a)
      let _ ← load data p
      pure ()
    else pure ()

/-- draw.c:69-85 -/
def lineStep (data : Nat) (cols channels : Int) (color : RGB) (thickness : Int) (k b : FV) (i j : Int) : M Unit := do
  let row ← lineRow k b j
  if i = row then do
    let lo ← ev (-CI.lit thickness / CI.lit 2)
    let hi ← ev (CI.lit thickness / CI.lit 2)
    forI lo (hi + 1) fun t => linePixel data cols channels color i j t
  else pure ()

/-- `draw_line`: draw.c:47-88 -/
def draw_line (src_mat dst_mat : Option Nat) (x1 y1 x2 y2 : Int) (color : RGB) (thickness : Int) : M Unit := do
  let (s, d) ← drawCopy src_mat dst_mat
  let dx ← ev (CI.lit x2 - CI.lit x1)
  let dy ← ev (CI.lit y2 - CI.lit y1)
  let k := f32.div (f32.ofInt dx) (f32.ofInt dy)
  let b := f32.sub (f32.ofInt y1) (f32.mul k (f32.ofInt x1))
  forI 0 s.rows fun i => forI 0 s.cols fun j => lineStep d.data s.cols s.channels color thickness k b i j

end HyperCV
