/- Programs that use the cube, image and file functions of /repo/modules/core/src/c_src and /repo/modules/process/src/c_src.  The functions are the models of those
files; the programs are the users. -/
import Verif.Model.Session
import Verif.Model.ClientFiles
import Verif.Model.Gradient
import Verif.Spec.Work

namespace HyperCV
open Spec

/-- one operation of a program: the files and the pointers to the cubes and to the images afterwards, and what was seen.  The library functions are the ones modelled
from the code: hypermat.c:225-264, 309-325 (files), imageprocess.c:569-597 (addition), 643-653 (splicing), gradient.c:16-130 (Laplacian, Sobel). -/
def execWork (other : Text → Option FV) (fs : Files) (envC envI : List (Option Nat)) :
    WorkOp → M (Files × List (Option Nat) × List (Option Nat) × List Nat)
  | .session o => do
    let r ← execSession envC envI o
    pure (fs, r.1, r.2.1, r.2.2)
  | .save x name => do
    let fs' ← hmsaveFile fs name (ptr envC x)
    pure (fs', envC, envI, [])
  | .load name => do
    let q ← hmreadFile other fs name (headerName name)
    pure (fs, envC ++ [q], envI, [])
  | .add x y z => do
    simple_mat_addition_uchar (ptr envI x) (ptr envI y) (ptr envI z)
    pure (fs, envC, envI, [])
  | .edges x y e threshold => do
    hypercv_sobel (ptr envI x) (ptr envI y) threshold e.code
    pure (fs, envC, envI, [])
  | .laplacian x y e twice => do
    hypercv_laplacian (ptr envI x) (ptr envI y) (if twice then 2 else 1) e.code
    pure (fs, envC, envI, [])
  | .splice x y start => do
    hyper_mat_splicing (ptr envC x) (ptr envC y) start
    pure (fs, envC, envI, [])

/-- a whole program -/
def execWorkAll (other : Text → Option FV) (fs : Files) (envC envI : List (Option Nat)) :
    List WorkOp → M (Files × List (Option Nat) × List (Option Nat) × List Nat)
  | [] => pure (fs, envC, envI, [])
  | op :: ops => do
    let r ← execWork other fs envC envI op
    let s ← execWorkAll other r.1 r.2.1 r.2.2.1 ops
    pure (s.1, s.2.1, s.2.2.1, r.2.2.2 ++ s.2.2.2)

end HyperCV
