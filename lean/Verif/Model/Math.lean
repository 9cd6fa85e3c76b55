/- Model of /repo/modules/process/src/c_src/mathprocess.c. -/
import Verif.Base.Sem
import Verif.Base.Float

namespace HyperCV

/-- the loop `for(i=0; i<len; i++) res += t[i]` of the mean routines, in the format `F`; `ld i` reads `t[i]` and
converts it to `F` (the usual arithmetic conversions of `res += t[i]`) -/
def accSum (F : Fmt) (ld : Int → M FV) (len : Int) : M FV :=
  forA 0 len (FV.fin false 0) fun i res => do
    let v ← ld i
    pure (F.add res v)

/-- `res = res/len`: `len` is converted to the format of `res` -/
def meanOf (F : Fmt) (ld : Int → M FV) (len : Int) : M FV := do
  let res ← accSum F ld len
  pure (F.div res (F.ofInt len))

/-- two's complement value of a bit pattern of `w` bytes -/
def sval (w b : Nat) : Int := if b < 256 ^ w / 2 then b else (b : Int) - 256 ^ w

/-- `mean_double`: mathprocess.c:15-22 -/
def mean_double (t : Nat) (len : Int) : M FV :=
  meanOf f64 (fun i => do let b ← loadN 8 t i; pure (f64.decode b)) len

/-- `mean_uint`: mathprocess.c:29-36 -/
def mean_uint (t : Nat) (len : Int) : M FV :=
  meanOf f32 (fun i => do let b ← loadN 4 t i; pure (f32.ofInt b)) len

/-- `mean_short`: mathprocess.c:43-50 -/
def mean_short (t : Nat) (len : Int) : M FV :=
  meanOf f32 (fun i => do let b ← loadN 2 t i; pure (f32.ofInt (sval 2 b))) len

/-- `mean_ushort`: mathprocess.c:57-64 -/
def mean_ushort (t : Nat) (len : Int) : M FV :=
  meanOf f32 (fun i => do let b ← loadN 2 t i; pure (f32.ofInt b)) len

/-- `mean_float`: mathprocess.c:71-78 -/
def mean_float (t : Nat) (len : Int) : M FV :=
  meanOf f32 (fun i => do let b ← loadN 4 t i; pure (f32.decode b)) len

/-- `mean_uchar`: mathprocess.c:85-92 -/
def mean_uchar (t : Nat) (len : Int) : M FV :=
  meanOf f32 (fun i => do let b ← loadN 1 t i; pure (f32.ofInt b)) len

/-- `mean_char`: mathprocess.c:99-106 (`char` is signed on x86) -/
def mean_char (t : Nat) (len : Int) : M FV :=
  meanOf f32 (fun i => do let b ← loadN 1 t i; pure (f32.ofInt (sval 1 b))) len

/-- `mean_int`: mathprocess.c:113-120 -/
def mean_int (t : Nat) (len : Int) : M FV :=
  meanOf f32 (fun i => do let b ← loadN 4 t i; pure (f32.ofInt (sval 4 b))) len

/-- the comparison and exchange of two neighbours: mathprocess.c:131-138.  Copying a `float` keeps its bits.
Returns the flag `f`. -/
def sortStep (a : Nat) (j : Int) (f : Bool) : M Bool := do
  let x ← loadN 4 a j
  let y ← loadN 4 a (j + 1)
  if FV.lt (f32.decode x) (f32.decode y) then do
    storeN 4 a j y
    storeN 4 a (j + 1) x
    pure false
  else pure f

/-- the outer loop of `sort_array_down_float`, at most `r` more rounds: mathprocess.c:124-141 -/
def sortRounds (a : Nat) (n : Int) : Nat → Int → M Unit
  | 0, _ => pure ()
  | r+1, i => do
    let f ← forA 0 (n - i - 1) true (fun j f => sortStep a j f)
    if f then pure () else sortRounds a n r (i + 1)

/-- `sort_array_down_float`: mathprocess.c:122-142; `n - 1` overflows for the least `int` -/
def sort_array_down_float (a : Nat) (n : Int) : M Unit := do
  let n1 ← ev (CI.lit n - CI.lit 1)
  sortRounds a n n1.toNat 0

/-- `hypercv_factorial_tab`: mathprocess.c:9 -/
def hypercv_factorial_tab : List Int :=
  [1, 1, 2, 6, 24, 120, 720, 5040, 40320, 362880, 39916800]

/-- `m *= i` in `long` (64 bits) -/
def mulLong (m i : Int) : Except Err Int :=
  if -9223372036854775808 ≤ m * i ∧ m * i ≤ 9223372036854775807 then .ok (m * i) else .error (.ub .overflow)

/-- the loop of `hypercv_factorial`: mathprocess.c:153-157, `r` iterations from `i` -/
def factLoop : Nat → Int → Int → Except Err Int
  | 0, _, m => .ok m
  | r+1, i, m => do
    let m' ← mulLong m i
    factLoop r (i + 1) m'

/-- `hypercv_factorial`: mathprocess.c:145-159 -/
def hypercv_factorial (n : Int) : Except Err Int :=
  if n < 0 then .ok (-1)
  else if n ≤ 10 then
    match hypercv_factorial_tab[n.toNat]? with
    | some v => .ok v
    | none => .error (.ub .oob)
  else factLoop (n - 1).toNat 2 1

end HyperCV
