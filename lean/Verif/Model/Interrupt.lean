/- What `hmsave` (/repo/modules/core/src/c_src/hypermat.c:309-325 and 337-386) does with the files, action by action, and what is in the files if the program is
killed in between.  What a program has written to a stream is in a buffer; the system has any part
of it, from the beginning, in the file, until the stream is closed. -/
import Verif.Model.ClientFiles

namespace HyperCV
open Spec

/-- what a program does with a file -/
inductive FileAct where
  /-- `fopen(name, "wb")` of the image, `fopen(name, "w")` of the header: the file is empty afterwards -/
  | openImage (name : Text)
  | openHeader (name : Text)
  /-- `fwrite`: all elements of the image -/
  | putImage (name : Text) (bytes : List UInt8)
  /-- `fputs` and `fprintf`: a part of the header -/
  | putHeader (name : Text) (text : Text)
  /-- `fclose` -/
  | close (name : Text)

/-- the files, as the program sees them: the contents of every file with all that was written to it, and whether it is open -/
abbrev Streams := Text → Option (Content × Bool)

/-- no file is open -/
def Streams.closed (fs : Files) : Streams := fun n => (fs n).map fun c => (c, false)

/-- one file is changed -/
def Streams.set (s : Streams) (name : Text) (x : Content × Bool) : Streams := fun n => if n = name then some x else s n

/-- the effect of one action: the C standard library.  Simplification: writing to a stream that is not open has no effect; the program does not do this. -/
def FileAct.run (s : Streams) : FileAct → Streams
  | .openImage n => s.set n (.image [], true)
  | .openHeader n => s.set n (.header [], true)
  | .putImage n b => match s n with
    | some (.image b0, true) => s.set n (.image (b0 ++ b), true)
    | _ => s
  | .putHeader n t => match s n with
    | some (.header t0, true) => s.set n (.header (t0 ++ t), true)
    | _ => s
  | .close n => match s n with
    | some (c, true) => s.set n (c, false)
    | _ => s

/-- the effect of several actions -/
def runActs (s : Streams) (acts : List FileAct) : Streams := acts.foldl FileAct.run s

/-- `hmsave`: what it does with the files, in the order of the program.  hypermat.c:319 opens the image, 321 writes it; hypermat.c:359-384 open, write and close
the header; hypermat.c:323 closes the image.  Simplification: the twenty calls that write the header are one action (as what has been written is in the file
only up to some character, the possible contents of the files are the same). -/
def hmsaveActs (path : Text) (mat : Option Nat) : M (List FileAct) := do
  let r ← hmsave mat
  pure [.openImage path, .putImage path r.1, .openHeader (headerName path), .putHeader (headerName path) r.2, .close (headerName path), .close path]

end HyperCV
