/- Specification vocabulary for the files that are written when a cube is saved. -/
import Verif.Model.Files
import Verif.Spec.Cube

namespace HyperCV.Spec

/-- the file system `after` differs from `before` in two files: `name` contains the image and `hdr` contains the header -/
structure TwoFiles (before after : Files) (name hdr : List Char) (img : List UInt8) (txt : List Char) : Prop where
  apart : name ≠ hdr
  image : after name = some (.image img)
  header : after hdr = some (.header txt)
  others : ∀ n, n ≠ name → n ≠ hdr → after n = before n

end HyperCV.Spec
