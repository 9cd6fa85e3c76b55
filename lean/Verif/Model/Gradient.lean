/- Model of /repo/modules/process/src/c_src/gradient.c. -/
import Verif.Model.SimpleMat
import Verif.Model.Round

namespace HyperCV

/-- the index selection `if (p < 0 || p >= len) index = hypercv_border_Interpolate(p, len, border_type); else index = p;`
of gradient.c:47-55, gradient.c:111-118 and filter.c:107-117, 368-375, 415-422 (gradient.c writes `j+n>cols` for
`j+n-1>=cols`) -/
def tapIndex (p len border_type : Int) : M Int :=
  if p < 0 ∨ p ≥ len then borderM p len border_type else pure p

/-- `kernel[m][n]` after gradient.c:25-32 -/
def lapKernel (k_size m n : Int) : FV :=
  let k := f32.ofInt (if m = 1 ∧ n = 1 then -4 else if m = 1 ∨ n = 1 then 1 else 0)
  if k_size = 2 then f32.mul k (f32.ofInt 2) else k

/-- gradient.c:47-57: one term of the sum -/
def lapTap (s : SimpleMat) (k_size border_type i j m n : Int) (sum : FV) : M FV := do
  let pm ← ev (CI.lit i + CI.lit m - CI.lit 1)
  let index_m ← tapIndex pm s.rows border_type
  let pn ← ev (CI.lit j + CI.lit n - CI.lit 1)
  let index_n ← tapIndex pn s.cols border_type
  let k ← ev (CI.lit index_m * CI.lit s.cols + CI.lit index_n)
  let v ← load s.data k
  pure (f32.add sum (f32.mul (lapKernel k_size m n) (f32.ofInt (v.toNat : Int))))

/-- gradient.c:42-60 -/
def lapPixel (s d : SimpleMat) (k_size border_type i j : Int) : M Unit := do
  let sum ← forA 0 3 (FV.fin false 0) fun m sum => forA 0 3 sum fun n sum => lapTap s k_size border_type i j m n sum
  let k ← ev (CI.lit i * CI.lit s.cols + CI.lit j)
  store d.data k (saturate_cast_float2uchar sum)

/-- `hypercv_laplacian`: gradient.c:16-63.  The two pointers are tested together; a NULL one exits. -/
def hypercv_laplacian (src dst : Option Nat) (k_size border_type : Int) : M Unit := do
  let sp ← nonNull src
  let dp ← nonNull dst
  cassert (k_size > 0)
  let s ← getS sp
  let d ← getS dp
  forI 0 s.rows fun i => forI 0 s.cols fun j => lapPixel s d k_size border_type i j

/-- `gx[m][n]`: gradient.c:92 -/
def sobelX (m n : Int) : Int := (if m = 1 then 2 else 1) * (n - 1)
/-- `gy[m][n]`: gradient.c:93 -/
def sobelY (m n : Int) : Int := (if n = 1 then 2 else 1) * (1 - m)

/-- gradient.c:111-121: one term of the two sums -/
def sobelTap (s : SimpleMat) (border_type i j m n : Int) (g : Int × Int) : M (Int × Int) := do
  let pm ← ev (CI.lit i + CI.lit m - CI.lit 1)
  let index_m ← tapIndex pm s.rows border_type
  let pn ← ev (CI.lit j + CI.lit n - CI.lit 1)
  let index_n ← tapIndex pn s.cols border_type
  let k ← ev (CI.lit index_m * CI.lit s.cols + CI.lit index_n)
  let v ← load s.data k
  let gradx ← ev (CI.lit g.1 + CI.lit (sobelX m n) * CI.lit (v.toNat : Int))
  let grady ← ev (CI.lit g.2 + CI.lit (sobelY m n) * CI.lit (v.toNat : Int))
  pure (gradx, grady)

/-- gradient.c:104-127.  `abs` of the smallest `int` would be undefined; the sums are far from it, and it is
written here with the checked negation. -/
def sobelPixel (s d : SimpleMat) (threshold border_type i j : Int) : M Unit := do
  let g ← forA 0 3 ((0, 0) : Int × Int) fun m g => forA 0 3 g fun n g => sobelTap s border_type i j m n g
  let gradx ← ev (if g.1 < 0 then - CI.lit g.1 else CI.lit g.1)
  let grady ← ev (if g.2 < 0 then - CI.lit g.2 else CI.lit g.2)
  let pix := if gradx > grady then gradx else grady
  let k ← ev (CI.lit i * CI.lit s.cols + CI.lit j)
  store d.data k (if pix > threshold then 255 else 0)

/-- `hypercv_sobel`: gradient.c:75-130 -/
def hypercv_sobel (src dst : Option Nat) (threshold border_type : Int) : M Unit := do
  let s ← derefS src
  let d ← derefS dst
  cassert (s.rows = d.rows ∧ s.cols = d.cols)
  cassert (border_type = 2 ∨ border_type = 4 ∨ border_type = 1 ∨ border_type = 3 ∨ border_type = 0)
  cassert (s.channels = 1)
  forI 0 s.rows fun i => forI 0 s.cols fun j => sobelPixel s d threshold border_type i j

end HyperCV
