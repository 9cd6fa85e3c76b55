/- Model of the shape matching: /repo/modules/algorithm/src/shapematch.c. -/
import Verif.Model.SimpleMat
import Verif.Model.Rotate

namespace HyperCV

/-- the moments of order 0 and 1 -/
structure HuFirst where
  s10 : FV
  s01 : FV
  s00 : FV

/-- the first loop over the image: shapematch.c:47-56.  The index `j*step+i`, evaluated three times, is evaluated once. -/
def huFirst (data : Nat) (rows cols step : Int) : M HuFirst :=
  forA 0 rows ⟨.fin false 0, .fin false 0, .fin false 0⟩ fun j s =>
    forA 0 cols s fun i s => do
      let a ← ev (CI.lit j * CI.lit step + CI.lit i)
      let b ← load data a
      let x ← ev (CI.lit i * CI.lit (ival b))
      let y ← ev (CI.lit j * CI.lit (ival b))
      pure ⟨f64.add s.s10 (f64.ofInt x), f64.add s.s01 (f64.ofInt y), f64.add s.s00 (f64.ofInt (ival b))⟩

/-- `(int)(s/s00+0.5)`: shapematch.c:57, 58 -/
def huCentre (s s00 : FV) : M Int :=
  match (f64.add (f64.div s s00) (.fin false (1/2))).trunc with
  | none => fail (.ub .fpConv)
  | some n => pure n

/-- the moments of order 2 and 3 about the centre -/
structure HuMoments where
  m11 : FV
  m20 : FV
  m02 : FV
  m03 : FV
  m30 : FV
  m12 : FV
  m21 : FV

/-- the second loop over the image: shapematch.c:61-76.  The index is evaluated once. -/
def huMoments (data : Nat) (rows cols step cx cy : Int) : M HuMoments :=
  forA 0 rows ⟨.fin false 0, .fin false 0, .fin false 0, .fin false 0, .fin false 0, .fin false 0, .fin false 0⟩ fun j s =>
    forA 0 cols s fun i s => do
      let x ← ev (CI.lit i - CI.lit cx)
      let y ← ev (CI.lit j - CI.lit cy)
      let a ← ev (CI.lit j * CI.lit step + CI.lit i)
      let b ← load data a
      let x0 := f64.ofInt x
      let y0 := f64.ofInt y
      let v := f64.ofInt (ival b)
      pure ⟨f64.add s.m11 (f64.mul (f64.mul x0 y0) v), f64.add s.m20 (f64.mul (f64.mul x0 x0) v), f64.add s.m02 (f64.mul (f64.mul y0 y0) v),
        f64.add s.m03 (f64.mul (f64.mul (f64.mul y0 y0) y0) v), f64.add s.m30 (f64.mul (f64.mul (f64.mul x0 x0) x0) v),
        f64.add s.m12 (f64.mul (f64.mul (f64.mul x0 y0) y0) v), f64.add s.m21 (f64.mul (f64.mul (f64.mul x0 x0) y0) v)⟩

/-- the normalised moments: shapematch.c:79-85; `pow` is the library function -/
def huNormalise (pow : FV → FV → FV) (m00 : FV) (s : HuMoments) : HuMoments :=
  let p2 := pow m00 (.fin false 2)
  let p25 := pow m00 (.fin false (5/2))
  ⟨f64.div s.m11 p2, f64.div s.m20 p2, f64.div s.m02 p2, f64.div s.m03 p25, f64.div s.m30 p25, f64.div s.m12 p25, f64.div s.m21 p25⟩

/-- the seven values: shapematch.c:88-101 -/
def huValues (u : HuMoments) (k : Nat) : FV :=
  let n3 := FV.fin false 3
  let n4 := FV.fin false 4
  let t1 := f64.sub u.m20 u.m02
  let t2 := f64.sub u.m30 (f64.mul n3 u.m12)
  let t3 := f64.sub (f64.mul n3 u.m21) u.m03
  let t4 := f64.add u.m30 u.m12
  let t5 := f64.add u.m21 u.m03
  match k with
  | 0 => f64.add u.m20 u.m02
  | 1 => f64.add (f64.mul t1 t1) (f64.mul (f64.mul n4 u.m11) u.m11)
  | 2 => f64.add (f64.mul t2 t2) (f64.mul t3 t3)
  | 3 => f64.add (f64.mul t4 t4) (f64.mul t5 t5)
  | 4 => f64.add (f64.mul (f64.mul t2 t4) (f64.sub (f64.mul t4 t4) (f64.mul (f64.mul n3 t5) t5)))
      (f64.mul (f64.mul t3 t5) (f64.sub (f64.mul (f64.mul n3 t4) t4) (f64.mul t5 t5)))
  | 5 => f64.add (f64.mul t1 (f64.sub (f64.mul t4 t4) (f64.mul t5 t5))) (f64.mul (f64.mul (f64.mul n4 u.m11) t4) t5)
  | _ => f64.sub (f64.mul (f64.mul t3 t4) (f64.sub (f64.mul t4 t4) (f64.mul (f64.mul n3 t5) t5)))
      (f64.mul (f64.mul t2 t5) (f64.sub (f64.mul (f64.mul n3 t4) t4) (f64.mul t5 t5)))

/-- `calc_hu_moment`: shapematch.c:24-102.  A missing array `hu` is allocated, and lost. -/
def calc_hu_moment (pow : FV → FV → FV) (hu : Option Nat) (mat : Option Nat) : M Unit := do
  let hu ← match hu with
    | none => malloc 56
    | some h => pure h
  let mp ← nonNull mat
  let s ← getS mp
  let step ← ev (CI.lit s.cols * CI.lit (get_elemsize s.data_type))
  let f ← huFirst s.data s.rows s.cols step
  let cx ← huCentre f.s10 f.s00
  let cy ← huCentre f.s01 f.s00
  let w ← huMoments s.data s.rows s.cols step cx cy
  let u := huNormalise pow f.s00 w
  forI 0 7 fun k => storeN 8 hu k (f64.encode (huValues u k.toNat))

/-- the sums of `calc_similar_hu` -/
structure HuSims where
  tmp1 : FV
  tmp2 : FV

/-- `calc_similar_hu`: shapematch.c:8-21 -/
def calc_similar_hu (hu1 hu2 : Nat) : M FV := do
  let t ← forA 0 7 (⟨.fin false 0, .fin false 0⟩ : HuSims) fun i t => do
    let a ← loadN 8 hu1 i
    let b ← loadN 8 hu2 i
    pure ⟨f64.add t.tmp1 (f64.sub (f64.decode a) (f64.decode b)).abs, f64.add t.tmp2 (f64.add (f64.decode a) (f64.decode b)).abs⟩
  pure (f64.sub (f64.ofInt 1) (f64.div t.tmp1 t.tmp2))

/-- `hypercv_match_shapes`: shapematch.c:105-118 -/
def hypercv_match_shapes (pow : FV → FV → FV) (mat1 mat2 : Option Nat) : M FV := do
  let _ ← nonNull mat1
  let _ ← nonNull mat2
  let hu1 ← malloc 56
  let hu2 ← malloc 56
  calc_hu_moment pow (some hu1) mat1
  calc_hu_moment pow (some hu2) mat2
  calc_similar_hu hu1 hu2

end HyperCV
