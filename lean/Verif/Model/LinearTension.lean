/- Model of /repo/modules/algorithm/src/HisEqualization.c, lines 39-93. -/
import Verif.Model.Spectral

namespace HyperCV

/-- one step of the search for the extremes of a band: HisEqualization.c:65-69 -/
def linStep (s : FV × FV) (tmp : FV) : FV × FV :=
  (if FV.lt s.1 tmp then tmp else s.1, if FV.lt tmp s.2 then tmp else s.2)

/-- largest and smallest value of band `k`, starting with 0 and 1000000000: HisEqualization.c:57-71 -/
def linScan (b : HyperMat) (k : Int) : M (FV × FV) :=
  forA 0 b.lines (.fin false 0, .fin false 1000000000) fun i s =>
    forA 0 b.samples s fun j s => do
      let p ← ev (CI.lit k * CI.lit b.samples * CI.lit b.lines + CI.lit i * CI.lit b.samples + CI.lit j)
      let tmp ← loadF b.data p
      pure (linStep s tmp)

/-- the factor `m`: HisEqualization.c:72 -/
def linM (s : FV × FV) : FV := f32.div (f32.ofInt 255) (f32.sub s.1 s.2)

/-- the offset `n`: HisEqualization.c:73 -/
def linN (s : FV × FV) : FV := f32.div (f32.mul s.2.neg (f32.ofInt 255)) (f32.sub s.1 s.2)

/-- the byte for a value; `none` when the conversion to `int` is undefined: HisEqualization.c:79-90 -/
def linByte (m n tmp : FV) : Option UInt8 :=
  match (f32.add (f32.mul tmp m) n).trunc with
  | none => none
  | some res => some (if res ≤ 0 then (if FV.feq tmp (.fin false 0) then 0 else 1) else if 255 ≤ res then 255 else uchar res)

/-- a computed byte or undefined behaviour of the conversion -/
def orConv (b : Option UInt8) : M UInt8 :=
  match b with
  | none => fail (.ub .fpConv)
  | some v => pure v

/-- `hyper_mat_linear_tension`: HisEqualization.c:39-93 -/
def hyper_mat_linear_tension (bsq_mat dst_mat : Option Nat) : M Unit := do
  let b ← derefH bsq_mat
  cassert (cmpstr b.tagMem ['b', 's', 'q'] = 1)
  let d ← derefH dst_mat
  cassert (d.samples = b.samples ∧ d.lines = b.lines ∧ d.bands = b.bands)
  cassert (d.data_type = 1)
  forI 0 b.bands fun k => do
    let s ← linScan b k
    forI 0 b.lines fun i =>
      forI 0 b.samples fun j => do
        let p ← ev (CI.lit k * CI.lit b.samples * CI.lit b.lines + CI.lit i * CI.lit b.samples + CI.lit j)
        let tmp ← loadF b.data p
        let v ← orConv (linByte (linM s) (linN s) tmp)
        store d.data p v

end HyperCV
