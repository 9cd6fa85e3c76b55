/- Programs that use the cube functions of /repo/modules/core/src/c_src/hypermat.c and /repo/modules/process/src/c_src/imageprocess.c and save cubes in files.  The
functions are the models of those files; the programs are the users. -/
import Verif.Model.Client
import Verif.Model.Files
import Verif.Spec.ClientFiles

namespace HyperCV
open Spec

/-- `hmread_with_hdr` with the names of the files: hypermat.c:225-264.  A name that does not exist cannot be opened.  Simplification: an image that is opened as a
header, or a header that is opened as an image, counts as a file that does not exist; the programs do not do this. -/
def hmreadFile (other : Text → Option FV) (fs : Files) (image hdr : Text) : M (Option Nat) :=
  hmread_with_hdr other (match fs image with | some (.image b) => some b | _ => none) (match fs hdr with | some (.header t) => some t | _ => none)

/-- one operation of a program: the files and the pointers afterwards, and what was seen.  The user gives the name of the image and of the header that was written
with it. -/
def execFile (other : Text → Option FV) (fs : Files) (env : List (Option Nat)) : FileOp → M (Files × List (Option Nat) × List Nat)
  | .cube o => do
    let r ← exec env o
    pure (fs, r.1, r.2)
  | .save x name => do
    let fs' ← hmsaveFile fs name (ptr env x)
    pure (fs', env, [])
  | .load name => do
    let q ← hmreadFile other fs name (headerName name)
    pure (fs, env ++ [q], [])

/-- a whole program -/
def execFiles (other : Text → Option FV) (fs : Files) (env : List (Option Nat)) : List FileOp → M (Files × List (Option Nat) × List Nat)
  | [] => pure (fs, env, [])
  | op :: ops => do
    let r ← execFile other fs env op
    let s ← execFiles other r.1 r.2.1 ops
    pure (s.1, s.2.1, r.2.2 ++ s.2.2)

end HyperCV
