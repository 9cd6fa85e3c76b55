/- Model of the names of the files that are written when a cube is saved, and of the storage that is used for it:
/repo/modules/core/src/c_src/hypermat.c:309-386 (C) and /repo/modules/core/include/cxx_include/hypermat.hpp:228-292 (C++).  The file
system is a map from names to contents.  Opening a file for writing replaces its contents and always succeeds. -/
import Verif.Model.HyHeader

namespace HyperCV

/-- contents of a file: an image or a header -/
inductive Content where
  | image (bytes : List UInt8)
  | header (text : Text)
  deriving DecidableEq

/-- the file system -/
abbrev Files := Text → Option Content

/-- `fopen(name, "w")` and what is written then -/
def Files.write (fs : Files) (name : Text) (c : Content) : Files := fun n => if n = name then some c else fs n

/-- `writehdr` with the name of the header file: hypermat.c:337-386.  `path` is the name before its terminating zero byte.  Neither the
block for the name nor the one for the tag is freed.  Simplification: what is stored in these two blocks are values. -/
def writehdrFile (fs : Files) (path : Text) (samples lines bands data_type : Int) (interleave : List Char) (wavelength : Option Nat) :
    M Files := do
  let len := path.length
  let _hdr_path ← malloc (len + 5)
  let _it ← malloc 4
  let txt ← writehdr samples lines bands data_type interleave wavelength
  pure (fs.write (path ++ ['.', 'h', 'd', 'r']) (.header txt))

/-- `hmsave` with the name of the image file: hypermat.c:309-325 -/
def hmsaveFile (fs : Files) (path : Text) (mat : Option Nat) : M Files := do
  let p ← nonNull mat
  let h ← getH p
  let elemsize := get_elemsize h.data_type
  let n ← ev (CI.lit h.samples * CI.lit h.lines * CI.lit h.bands)
  if elemsize < 0 ∨ n < 0 then fail (.ub .oob) else do
  let bytes ← loadBytes h.data (elemsize * n).toNat 0
  writehdrFile (fs.write path (.image bytes)) path h.samples h.lines h.bands h.data_type h.interleave h.wavelength

/-- `HyMat::save` with the file system, for a name that is not `NULL`: hypermat.hpp:228-263.  Not modelled: the calls of the GDAL library
in lines 240-246. -/
def HyMat.saveFile (fs : Files) (o : HyMat) (path : Text) : M Files := do
  let r ← HyMat.save o path
  match r with
  | none => pure fs
  | some (bytes, name, txt) => pure ((fs.write path (.image bytes)).write name (.header txt))

end HyperCV
