/- Model of /repo/modules/core/src/c_src/struct_2D.c and /repo/modules/process/src/c_src/morphology.c. -/
import Verif.Model.SimpleMat

namespace HyperCV

/-- `STRUCT_2D` (struct_2D.h:10-15).  `hdr` is the block holding the structure itself, `data` the block of the element's bytes.
Simplification: the fields are kept in the pointer value instead of in the block `hdr`; no function of the library changes them
after creation, and every access checks that `hdr` is still allocated. -/
structure S2D where
  hdr : Nat
  width : Int
  height : Int
  data : Nat

/-- read the fields of a structuring element -/
def derefE (s : Option S2D) : M S2D := fun m =>
  match s with
  | none => .error (.ub .nullDeref)
  | some s => match m.blk s.hdr with
    | none => .error (.ub .oob)
    | some _ => .ok (s, m)

/-- `create_2D_struct_with_data`: struct_2D.c:34-49 -/
def create_2D_struct_with_data (width height : Int) (data : Nat) : M (Option S2D) := do
  cassert (decide (width ≥ 1) && decide (height ≥ 1))
  let hdr ← malloc 16
  pure (some ⟨hdr, width, height, data⟩)

/-- `create_2D_struct`: struct_2D.c:14-25 -/
def create_2D_struct (width height : Int) : M (Option S2D) := do
  cassert (decide (width ≥ 1) && decide (height ≥ 1))
  let n ← ev (CI.lit width * CI.lit height)
  let data ← malloc n.toNat
  forI 0 n fun i => store data i 1
  create_2D_struct_with_data width height data

/-- `delete_S_2D`: struct_2D.c:55-62 -/
def delete_S_2D (s : Option S2D) : M Unit :=
  match s with
  | none => pure ()
  | some s => free s.hdr

/-- morphology.c:55 and 119: the test that the element placed at (`i`, `j`) lies inside the image -/
def morphInside (rows cols height width i j : Int) : M Bool := do
  let a ← ev (CI.lit i - CI.lit height / CI.lit 2)
  if a < 0 then pure false else do
    let b ← ev (CI.lit i + CI.lit height / CI.lit 2)
    if rows ≤ b then pure false else do
      let c ← ev (CI.lit j - CI.lit width / CI.lit 2)
      if c < 0 then pure false else do
        let d ← ev (CI.lit j + CI.lit width / CI.lit 2)
        pure (decide (d < cols))

/-- morphology.c:57 and 121: entry (`y`, `x`) of the element is 1 and the pixel under it is 0 -/
def morphTap (s : SimpleMat) (e : S2D) (i j y x : Int) : M Bool := do
  let k ← ev (CI.lit y * CI.lit e.width + CI.lit x)
  let a ← load e.data k
  if a = 1 then do
    let q ← ev ((CI.lit i - CI.lit e.height / CI.lit 2 + CI.lit y) * CI.lit s.rows + CI.lit j - CI.lit e.width / CI.lit 2 + CI.lit x)
    let v ← load s.data q
    pure (decide (v = 0))
  else pure false

/-- morphology.c:51-61 and 115-125: the loops computing `flag` -/
def morphFlag (s : SimpleMat) (e : S2D) (i j : Int) : M Bool :=
  forA 0 e.height false fun y flag => forA 0 e.width flag fun x flag => do
    let inside ← morphInside s.rows s.cols e.height e.width i j
    if inside then do
      let hole ← morphTap s e i j y x
      pure (flag || hole)
    else pure flag

/-- morphology.c:47-70: pixel (`i`, `j`) of `hypercv_corrosion` -/
def corrodePixel (s d : SimpleMat) (e : S2D) (i j : Int) : M Unit := do
  let p ← ev (CI.lit i * CI.lit s.rows + CI.lit j)
  let v ← load s.data p
  if v ≠ 0 then do
    let flag ← morphFlag s e i j
    if flag then store d.data p 0 else do
      let v ← load s.data p
      store d.data p v
  else store d.data p 0

/-- morphology.c:111-134: pixel (`i`, `j`) of `hypercv_expend` -/
def expendPixel (s d : SimpleMat) (e : S2D) (i j : Int) : M Unit := do
  let p ← ev (CI.lit i * CI.lit s.rows + CI.lit j)
  let v ← load s.data p
  if v = 0 then do
    let flag ← morphFlag s e i j
    if flag then store d.data p 1 else do
      let v ← load s.data p
      store d.data p v
  else do
    let v ← load s.data p
    store d.data p v

/-- morphology.c:36-71 and 100-135: allocate the destination if there is none, and run over the pixels.  The result for a NULL
destination is only reachable through the local variable. -/
def morphRun (pixel : SimpleMat → SimpleMat → S2D → Int → Int → M Unit) (mat dst_mat : Option Nat) (e : S2D) : M Unit := do
  let dst ← (match dst_mat with
    | none => simple_mat_copy mat
    | some d => pure (some d))
  let s ← derefS mat
  let d ← derefS dst
  forI 0 s.rows fun i => forI 0 s.cols fun j => pixel s d e i j

/-- `hypercv_corrosion`: morphology.c:17-72 -/
def hypercv_corrosion (mat dst_mat : Option Nat) (el : Option S2D) : M Unit := do
  cassert mat.isSome
  cassert el.isSome
  let s ← derefS mat
  let e ← derefE el
  if s.cols < e.width ∨ s.rows < e.height then pure () else morphRun corrodePixel mat dst_mat e

/-- `hypercv_expend`: morphology.c:81-136 -/
def hypercv_expend (mat dst_mat : Option Nat) (el : Option S2D) : M Unit := do
  cassert mat.isSome
  cassert el.isSome
  let s ← derefS mat
  let e ← derefE el
  if s.cols < e.width ∨ s.rows < e.height then pure () else morphRun expendPixel mat dst_mat e

/-- `hypercv_open`: morphology.c:147-165 -/
def hypercv_open (src dst : Option Nat) (kernel : Option S2D) (iterations : Int) : M Unit := do
  cassert src.isSome
  cassert kernel.isSome
  let _ ← derefS src
  let dst ← (match dst with
    | none => simple_mat_copy src
    | some d => pure (some d))
  forI 0 iterations fun _ => do
    hypercv_corrosion src dst kernel
    hypercv_expend src dst kernel

/-- `hypercv_close`: morphology.c:175-193 -/
def hypercv_close (src dst : Option Nat) (kernel : Option S2D) (iterations : Int) : M Unit := do
  cassert src.isSome
  cassert kernel.isSome
  let _ ← derefS src
  let dst ← (match dst with
    | none => simple_mat_copy src
    | some d => pure (some d))
  forI 0 iterations fun _ => do
    hypercv_expend src dst kernel
    hypercv_corrosion src dst kernel

end HyperCV
