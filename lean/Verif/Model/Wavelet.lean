/- Model of the wavelet filters and of the release of wavelet objects in /repo/modules/process/src/c_src/dwt.c. -/
import Verif.Model.SimpleMat
import Verif.Base.Float

namespace HyperCV

/-- `wavelet_base`: /repo/modules/process/include/c_include/dwt.h:30-36.  `self` is the block the structure itself occupies; simplification: the fields
are kept beside it instead of in its bytes. -/
structure WaveletBase where
  self : Nat
  len  : Int
  LO_D : Option Nat
  HI_D : Option Nat
  LO_R : Option Nat
  HI_R : Option Nat

/-- the decimal constant `x / 10000` of type `double` -/
def tenThousandths (x : Int) : FV := f64.round false ((x : ℚ) / 10000)

/-- `LO_D_db3`, in ten thousandths: dwt.c:11 -/
def LO_D_db3 : List Int := [352, -854, -1350, 4599, 8069, 3327]
/-- `HI_D_db3`: dwt.c:12 -/
def HI_D_db3 : List Int := [-3327, 8069, -4599, -1350, 854, 352]
/-- `LO_R_db3`: dwt.c:13 -/
def LO_R_db3 : List Int := [3327, 8069, 4599, -1350, -854, 352]
/-- `HI_R_db3`: dwt.c:14 -/
def HI_R_db3 : List Int := [352, 854, -1350, -4599, 8069, -3327]

/-- `LO_D_bior3_7`: dwt.c:18 -/
def LO_D_bior3_7 : List Int := [30, -91, -168, 747, 313, -3012, -265, 9516, 9516, -265, -3012, 313, 747, -168, -91, 30]
/-- `HI_D_bior3_7`: dwt.c:19 -/
def HI_D_bior3_7 : List Int := [0, 0, 0, 0, 0, 0, -1768, 5303, -5303, 1768, 0, 0, 0, 0, 0, 0]
/-- `LO_R_bior3_7`: dwt.c:20 -/
def LO_R_bior3_7 : List Int := [0, 0, 0, 0, 0, 0, 1768, 5303, 5303, 1768, 0, 0, 0, 0, 0, 0]
/-- `HI_R_bior3_7`: dwt.c:21 -/
def HI_R_bior3_7 : List Int := [30, 91, -168, -747, 313, 3012, -265, -9516, 9516, 265, -3012, -313, 747, 168, -91, -30]

/-- `calloc`: a fresh block of zeroes.  (Failure is not modelled, as for `malloc`.) -/
def calloc (n : Nat) : M Nat := do
  let h ← malloc n
  memset h 0 0 n
  pure h

/-- element `k` of a static array -/
def staticAt (a : List Int) (k : Int) : M FV :=
  if 0 ≤ k then
    match a[k.toNat]? with
    | some x => pure (tenThousandths x)
    | none => fail (.ub .oob)
  else fail (.ub .oob)

/-- `SerialReverse`: dwt.c:24-36 -/
def SerialReverse (src : List Int) (len : Int) : M Nat := do
  let result ← calloc (len * 8).toNat
  forI 0 len fun i => do
    let k ← ev (CI.lit len - CI.lit i - 1)
    let v ← staticAt src k
    storeN 8 result i (f64.encode v)
  pure result

/-- the four assignments of one case of the `switch`: dwt.c:128-132 and 135-139 -/
def fillBase (wb : WaveletBase) (len : Int) (a b c d : List Int) : M WaveletBase := do
  let lo_d ← SerialReverse a len
  let hi_d ← SerialReverse b len
  let lo_r ← SerialReverse c len
  let hi_r ← SerialReverse d len
  pure { wb with len := len, LO_D := some lo_d, HI_D := some hi_d, LO_R := some lo_r, HI_R := some hi_r }

/-- `set_wavelet_base`: dwt.c:119-144.  The assertion joins two inequalities with "or". -/
def set_wavelet_base (wave_type : Int) : M WaveletBase := do
  cassert (wave_type ≠ 1 ∨ wave_type ≠ 2)
  let self ← calloc 40
  let wb : WaveletBase := { self := self, len := 0, LO_D := none, HI_D := none, LO_R := none, HI_R := none }
  if wave_type = 1 then fillBase wb 6 LO_D_db3 HI_D_db3 LO_R_db3 HI_R_db3
  else if wave_type = 2 then fillBase wb 16 LO_D_bior3_7 HI_D_bior3_7 LO_R_bior3_7 HI_R_bior3_7
  else pure wb

/-- `free` of a pointer that may be NULL -/
def freeOpt (p : Option Nat) : M Unit :=
  match p with
  | none => pure ()
  | some h => free h

/-- `wavelet_base_free`: dwt.c:90-104.  The last filter is released when the second one is there. -/
def wavelet_base_free (wb : Option WaveletBase) : M Unit :=
  match wb with
  | none => pure ()
  | some wb => do
    if wb.LO_D ≠ none then freeOpt wb.LO_D
    if wb.HI_D ≠ none then freeOpt wb.HI_D
    if wb.LO_R ≠ none then freeOpt wb.LO_R
    if wb.HI_D ≠ none then freeOpt wb.HI_R
    free wb.self

/-- the pointers of `wt_info`: dwt.h:11-17 -/
structure WtInfo where
  self : Nat
  c    : Option Nat
  s    : Option Nat

/-- `wt_info_free`: dwt.c:106-116 -/
def wt_info_free (w : Option WtInfo) : M Unit :=
  match w with
  | none => pure ()
  | some w => do
    if w.c ≠ none then freeOpt w.c
    if w.s ≠ none then freeOpt w.s
    free w.self

/-- `wt_coefset`: dwt.h:21-26 -/
structure WtCoefset where
  self : Nat
  A_LL : Option Nat
  H_LH : Option Nat
  V_HL : Option Nat
  D_HH : Option Nat

/-- `free(p)` of an image pointer: the allocation holds the header and inline pixels (simplemat.c:42), separate pixels stay -/
def freePlain (p : Option Nat) : M Unit :=
  match p with
  | none => pure ()
  | some a => fun m =>
    match m.sm a with
    | none => .error (.ub .badFree)
    | some h => freeImage a h m

/-- `wt_coefset_free`: dwt.c:73-87 -/
def wt_coefset_free (cs : Option WtCoefset) : M Unit :=
  match cs with
  | none => pure ()
  | some cs => do
    if cs.A_LL ≠ none then freePlain cs.A_LL
    if cs.H_LH ≠ none then freePlain cs.H_LH
    if cs.V_HL ≠ none then freePlain cs.V_HL
    if cs.D_HH ≠ none then freePlain cs.D_HH
    free cs.self

end HyperCV
