/- Programs that use the cube functions of /repo/modules/core/src/c_src/hypermat.c, of
/repo/modules/process/src/c_src/imageprocess.c.  The functions are the models of those files; the programs are the users. -/
import Verif.Model.HyperMat
import Verif.Model.Interleave
import Verif.Model.ImageProcess
import Verif.Spec.Client

namespace HyperCV
open Spec

/-- the conversion function from order `a` to order `b`: imageprocess.c:83-375 -/
def conversion : Layout → Layout → Option Nat → M (Option Nat)
  | .bil, .bsq => bil2bsq
  | .bil, .bip => bil2bip
  | .bsq, .bil => bsq2bil
  | .bsq, .bip => bsq2bip
  | .bip, .bsq => bip2bsq
  | .bip, .bil => bip2bil
  | _, _ => hyper_mat_copy

/-- the conversion in place to order `t`: imageprocess.c:4-76 -/
def conversionIn : Layout → Option Nat → M Unit
  | .bsq => convert2bsq
  | .bil => convert2bil
  | .bip => convert2bip

/-- the order a user finds in the tag of a cube -/
def userOrder (h : HyperMat) : Layout :=
  if cmpstr h.tagMem Layout.bsq.tag = 1 then .bsq else if cmpstr h.tagMem Layout.bil.tag = 1 then .bil else .bip

/-- the index of an element in the data, as a user computes it from the header -/
def userIndex (h : HyperMat) (i j k : Nat) : Nat := (userOrder h).pos h.samples.toNat h.lines.toNat h.bands.toNat i j k

/-- the variable `x` of a program, null if it does not exist -/
def ptr (env : List (Option Nat)) (x : Nat) : Option Nat := (env[x]?).join

/-- one operation of a program: the pointers afterwards and what was seen.  The library functions are the ones modelled from the code; the accesses to elements
and wavelengths are those of the user. -/
def exec (env : List (Option Nat)) : CubeOp → M (List (Option Nat) × List Nat)
  | .create S L B dt lay => do
    let q ← create_hyper_mat S L B dt lay.tag
    pure (env ++ [q], [])
  | .convert x a t => do
    let q ← conversion a t (ptr env x)
    pure (env ++ [q], [])
  | .range x i j k l s b => do
    let q ← hyper_mat_get_range (ptr env x) i j k ((i + l : Nat) : Int) ((j + s : Nat) : Int) ((k + b : Nat) : Int)
    pure (env ++ [q], [])
  | .convertIn x t => do
    conversionIn t (ptr env x)
    pure (env, [])
  | .copyTo x y => do
    hyper_mat_copy_to (ptr env x) (ptr env y)
    pure (env, [])
  | .copyWaves x y => do
    hyper_mat_copy_wavelength (ptr env x) (ptr env y)
    pure (env, [])
  | .write x i j k v => do
    let h ← derefH (ptr env x)
    storeN (get_elemsize h.data_type).toNat h.data (userIndex h i j k) v
    pure (env, [])
  | .writeWave x k v => do
    let h ← derefH (ptr env x)
    let w ← nonNull h.wavelength
    storeN 4 w k v
    pure (env, [])
  | .read x i j k => do
    let h ← derefH (ptr env x)
    let v ← loadN (get_elemsize h.data_type).toNat h.data (userIndex h i j k)
    pure (env, [v])
  | .readWave x k => do
    let h ← derefH (ptr env x)
    let w ← nonNull h.wavelength
    let v ← loadN 4 w k
    pure (env, [v])
  | .delete x => do
    delete_hyper_mat (ptr env x)
    pure (env.set x none, [])

/-- a whole program -/
def execAll (env : List (Option Nat)) : List CubeOp → M (List (Option Nat) × List Nat)
  | [] => pure (env, [])
  | op :: ops => do
    let r ← exec env op
    let s ← execAll r.1 ops
    pure (s.1, r.2 ++ s.2)

end HyperCV
