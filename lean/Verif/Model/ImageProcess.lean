/- Model of /repo/modules/process/src/c_src/imageprocess.c, lines 388-653: range extraction, reshaping,
band extraction and insertion, transposition, addition, splicing. -/
import Verif.Model.Interleave
import Verif.Model.SimpleMat

namespace HyperCV

/-- `for (int t = 0; t < elem_size; t++) dst_data[dst_index + t] = src_data[src_index + t];`
with `int` indices: imageprocess.c:421-422 -/
def copyElemI (dst : Nat) (di : Int) (src : Nat) (si : Int) (elem_size : Int) : M Unit :=
  forI 0 elem_size fun t => do
    let a ← ev (CI.lit si + CI.lit t)
    let v ← load src a
    let b ← ev (CI.lit di + CI.lit t)
    store dst b v

/-- the loop nest for a `bil` cube: imageprocess.c:410-426 -/
def rangeBil (s d : HyperMat) (samples bands elem_size sr sc sb er ec eb : Int) : M Unit :=
  forI sr er fun i =>
    forI sb eb fun k =>
      forI sc ec fun j => do
        let si ← ev ((i * s.samples * s.bands + k * s.samples + j) * elem_size)
        let di ← ev (((CI.lit i - CI.lit sr) * samples * bands + (CI.lit k - CI.lit sb) * samples + j
          - CI.lit sc) * elem_size)
        copyElemI d.data di s.data si elem_size

/-- the loop nest for a `bip` cube: imageprocess.c:427-444 -/
def rangeBip (s d : HyperMat) (samples bands elem_size sr sc sb er ec eb : Int) : M Unit :=
  forI sr er fun i =>
    forI sc ec fun j =>
      forI sb eb fun k => do
        let si ← ev ((i * s.samples * s.bands + j * s.bands + k) * elem_size)
        let di ← ev (((CI.lit i - CI.lit sr) * samples * bands + (CI.lit j - CI.lit sc) * bands + k
          - CI.lit sb) * elem_size)
        copyElemI d.data di s.data si elem_size

/-- the loop nest for a `bsq` cube: imageprocess.c:445-460 -/
def rangeBsq (s d : HyperMat) (samples lines elem_size sr sc sb er ec eb : Int) : M Unit :=
  forI sb eb fun k =>
    forI sr er fun i =>
      forI sc ec fun j => do
        let si ← ev ((k * s.samples * s.lines + i * s.samples + j) * elem_size)
        let di ← ev (((CI.lit k - CI.lit sb) * samples * lines + (CI.lit i - CI.lit sr) * samples + j
          - CI.lit sc) * elem_size)
        copyElemI d.data di s.data si elem_size

/-- choice of the loop nest: imageprocess.c:410-462 (`printf` of the last branch not modelled) -/
def rangeLoops (s d : HyperMat) (samples lines bands elem_size sr sc sb er ec eb : Int) : M Unit :=
  if cmpstr s.tagMem "bil".toList ≠ 0 then rangeBil s d samples bands elem_size sr sc sb er ec eb
  else if cmpstr s.tagMem "bip".toList ≠ 0 then rangeBip s d samples bands elem_size sr sc sb er ec eb
  else if cmpstr s.tagMem "bsq".toList ≠ 0 then rangeBsq s d samples lines elem_size sr sc sb er ec eb
  else pure ()

/-- copy of the wavelengths of the selected bands: imageprocess.c:464-470.  `n` bands from `sb`. -/
def rangeWave (s d : HyperMat) (sb n : Int) : M Unit :=
  match s.wavelength, d.wavelength with
  | some sw, some dw => memcpy dw 0 sw (sb * 4) (n * 4)
  | some _, none => fail (.ub .nullDeref)
  | none, _ => pure ()

/-- `hyper_mat_get_range`: imageprocess.c:388-472 -/
def hyper_mat_get_range (src_mat : Option Nat) (sr sc sb er ec eb : Int) : M (Option Nat) := do
  cassert (sc < ec ∧ sr < er ∧ sb < eb)
  let samples ← ev (CI.lit ec - CI.lit sc)
  let lines ← ev (CI.lit er - CI.lit sr)
  let bands ← ev (CI.lit eb - CI.lit sb)
  let s ← derefH src_mat
  let dst ← create_hyper_mat samples lines bands s.data_type s.tagMem
  let elem_size := get_elemsize s.data_type
  let d ← derefH dst
  rangeLoops s d samples lines bands elem_size sr sc sb er ec eb
  rangeWave s d sb bands
  pure dst

/-- `reshape_hypermat_2_simplemat`: imageprocess.c:481-498 -/
def reshape_hypermat_2_simplemat (src_mat : Option Nat) (dst_rows dst_cols : Int) : M (Option Nat) := do
  let s ← derefH src_mat
  let src_size ← ev (s.samples * s.lines * s.bands)
  let dst_size ← ev (dst_rows * dst_cols)
  cassert (src_size = dst_size)
  let dst ← create_simple_mat dst_rows dst_cols s.data_type 1
  let d ← derefS dst
  let n ← ev (dst_rows * dst_cols * d.elem_size)
  memcpy d.data 0 s.data 0 n
  pure dst

/-- `hyper_mat_2_simple_mat`: imageprocess.c:506-520.  Note that the image's `elem_size` and `channels`
fields are left as they are, and that neither `band` nor the size of the image's pixel block is checked.
A negative `memcpy` length cannot occur for well-formed cubes. -/
def hyper_mat_2_simple_mat (src_mat dst_mat : Option Nat) (band : Int) : M Unit := do
  let s ← derefH src_mat
  cassert (cmpstr s.tagMem "bsq".toList = 1)
  let samples := s.samples
  let lines := s.lines
  let d ← derefS dst_mat
  let dp ← nonNull dst_mat
  setS dp { d with rows := lines, cols := samples, data_type := s.data_type }
  let elemsize := get_elemsize s.data_type
  let off ← ev (samples * lines * (CI.lit band - CI.lit 1) * elemsize)
  let n ← ev (samples * lines * elemsize)
  memcpy d.data 0 s.data off n

/-- `simple_mat_2_hyper_mat`: imageprocess.c:529-542.  Both the offset and the length are in elements,
not bytes. -/
def simple_mat_2_hyper_mat (dst_mat src_mat : Option Nat) (band : Int) : M Unit := do
  let d ← derefH dst_mat
  let s ← derefS src_mat
  let samples := d.samples
  let lines := d.lines
  cassert (s.rows = lines ∧ s.cols = samples)
  cassert (band ≤ d.bands ∧ band > 0)
  cassert (cmpstr d.tagMem "bsq".toList = 1)
  let off ← ev (samples * lines * (CI.lit band - CI.lit 1))
  let n ← ev (samples * lines)
  memcpy d.data off s.data 0 n

/-- `simple_mat_transport(res, src)`: imageprocess.c:549-567 -/
def simple_mat_transport (res src : Option Nat) : M Unit := do
  let r ← derefS res
  let s ← derefS src
  let rows := r.rows
  let cols := r.cols
  cassert (rows = s.cols ∧ cols = s.rows ∧ r.data_type = s.data_type)
  let elemsize := get_elemsize s.data_type
  forI 0 rows fun i =>
    forI 0 cols fun j =>
      forI 0 elemsize fun k => do
        let si ← ev (j * rows * elemsize + i * elemsize + k)
        let v ← load s.data si
        let di ← ev (i * cols * elemsize + j * elemsize + k)
        store r.data di v

/-- `simple_mat_addition_uchar`: imageprocess.c:569-597.  All three images are indexed with the row
stride of the overlap (the smaller number of columns). -/
def simple_mat_addition_uchar (mat1 mat2 dst_mat : Option Nat) : M Unit := do
  cassert (mat1 ≠ none ∧ mat2 ≠ none ∧ dst_mat ≠ none)
  let a ← derefS mat1
  let b ← derefS mat2
  let d ← derefS dst_mat
  cassert (a.channels = b.channels)
  let rows := if a.rows ≥ b.rows then b.rows else a.rows
  let cols := if a.cols ≥ b.cols then b.cols else a.cols
  forI 0 rows fun i =>
    forI 0 cols fun j =>
      forI 0 a.channels fun k => do
        let ix ← ev (i * cols * a.channels + j * a.channels + k)
        let v1 ← load a.data ix
        let v2 ← load b.data ix
        store d.data ix (uchar (ival v1 + ival v2))

/-- `hyper_mat_splicing`: imageprocess.c:643-653 -/
def hyper_mat_splicing (mat part : Option Nat) (start_index : Int) : M Unit := do
  let m ← derefH mat
  let p ← derefH part
  cassert (m.data_type = p.data_type)
  let elemsize := get_elemsize m.data_type
  let off ← ev (start_index * elemsize)
  let n ← ev (p.samples * p.lines * p.bands * elemsize)
  memcpy m.data off p.data 0 n

end HyperCV
