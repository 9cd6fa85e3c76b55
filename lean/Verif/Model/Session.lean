/- Programs that use the cube and image functions of /repo/modules/core/src/c_src and /repo/modules/process/src/c_src.  The functions are the models of those files;
the programs are the users. -/
import Verif.Model.Client
import Verif.Model.Geometric
import Verif.Model.Threshold
import Verif.Spec.Session

namespace HyperCV
open Spec

/-- one operation of a program on images.  The library functions are the ones modelled from the code (simplemat.c:11-111, 492-509, imageprocess.c:549-567,
GeometricTransformation.c:7-72, threshold.c:72-258); the accesses to pixels are those of the user. -/
def execImg (env : List (Option Nat)) : ImgOp → M (List (Option Nat) × List Nat)
  | .create R C dt => do
    let q ← create_simple_mat R C dt 1
    pure (env ++ [q], [])
  | .copy x => do
    let q ← simple_mat_copy (ptr env x)
    pure (env ++ [q], [])
  | .transpose x y => do
    simple_mat_transport (ptr env y) (ptr env x)
    pure (env, [])
  | .flip x y code => do
    simple_mat_flip (ptr env x) (ptr env y) code
    pure (env, [])
  | .threshold x y thresh max mode => do
    hypercv_threshold (ptr env x) (ptr env y) thresh max mode
    pure (env, [])
  | .write x i j v => do
    let h ← derefS (ptr env x)
    storeN (get_elemsize h.data_type).toNat h.data ((i * h.cols.toNat + j : Nat) : Int) v
    pure (env, [])
  | .read x i j => do
    let h ← derefS (ptr env x)
    let v ← loadN (get_elemsize h.data_type).toNat h.data ((i * h.cols.toNat + j : Nat) : Int)
    pure (env, [v])
  | .delete x => do
    delete_simple_mat (ptr env x)
    pure (env.set x none, [])

/-- one operation of a program on cubes and images: the pointers to the cubes and to the images afterwards and what was seen.  The functions between cubes and
images are imageprocess.c:481-542; they count bands from 1. -/
def execSession (envC envI : List (Option Nat)) : SessionOp → M (List (Option Nat) × List (Option Nat) × List Nat)
  | .cube o => do
    let r ← exec envC o
    pure (r.1, envI, r.2)
  | .image o => do
    let r ← execImg envI o
    pure (envC, r.1, r.2)
  | .takeBand x k y => do
    hyper_mat_2_simple_mat (ptr envC x) (ptr envI y) ((k : Int) + 1)
    pure (envC, envI, [])
  | .putBand y x k => do
    simple_mat_2_hyper_mat (ptr envC x) (ptr envI y) ((k : Int) + 1)
    pure (envC, envI, [])
  | .reshape x R C => do
    let q ← reshape_hypermat_2_simplemat (ptr envC x) R C
    pure (envC, envI ++ [q], [])

/-- a whole program -/
def execSessionAll (envC envI : List (Option Nat)) : List SessionOp → M (List (Option Nat) × List (Option Nat) × List Nat)
  | [] => pure (envC, envI, [])
  | op :: ops => do
    let r ← execSession envC envI op
    let s ← execSessionAll r.1 r.2.1 ops
    pure (s.1, s.2.1, r.2.2 ++ s.2.2)

end HyperCV
