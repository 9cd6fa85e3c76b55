/- Model of the report about a cube, /repo/modules/core/src/c_src/hypermat.c:463-484. -/
import Verif.Model.Header

namespace HyperCV

/-- `hyper_mat_showinfo`: hypermat.c:463-484: the text that is printed -/
def hyper_mat_showinfo (mat : Option Nat) : M Text :=
  match mat with
  | none => pure "mat is NULL\n".toList
  | some p => do
    let h ← getH p
    let t := "mat's samples is ".toList ++ decInt h.samples ++ "\n".toList
    let t := t ++ "mat's lines is ".toList ++ decInt h.lines ++ "\n".toList
    let t := t ++ "mat's bands is ".toList ++ decInt h.bands ++ "\n".toList
    let t := t ++ "mat's data type is ".toList ++ decInt h.data_type ++ "\n".toList
    if h.interleave.length < 3 then fail (.ub .uninit) else do
    let t := t ++ "mat's interleave is ".toList ++ h.interleave.take 3 ++ "\n".toList
    match h.wavelength with
    | none => pure t
    | some w => forA 0 h.bands (t ++ "mat's wavelength is\n".toList) fun i t => do
        let v ← loadN 4 w i
        pure (t ++ fmtF (f32.decode v) ++ [','])

end HyperCV
