/- Model of /repo/modules/algorithm/src/cluster.c. -/
import Verif.Model.Statistics

namespace HyperCV

/-- `distance`: cluster.c:10-13.  The sum is a `double` that is converted to `int`.  Assumption: `pow(x, 2)` is the correctly
rounded square of `x`. -/
def kmDist (p : Int × Int) (i j : Int) : M Int := do
  let dx ← ev (CI.lit p.1 - CI.lit j)
  let dy ← ev (CI.lit p.2 - CI.lit i)
  truncInt (f64.add (f64.mul (f64.ofInt dx) (f64.ofInt dx)) (f64.mul (f64.ofInt dy) (f64.ofInt dy)))

/-- the centre chosen for pixel (`i`, `j`): cluster.c:67-76.  Simplification: a distance that is stored is not computed a
second time. -/
def kmNearest (v1 : Int → Int × Int) (kind rows cols i j : Int) : M (Int × Int) := do
  let d0 ← ev (CI.lit rows * CI.lit rows + CI.lit cols * CI.lit cols)
  forA 0 kind (0, d0) fun k best => do
    let d ← kmDist (v1 k) i j
    if d < best.2 then pure (k, d) else pure best

/-- the contents of the local arrays `v2` and `num` (cluster.c:40-42): sums of coordinates and number of pixels.
Simplification: the two blocks, which are freed before the function returns, are functions; every index is `min_index` or a
loop variable below `kind`, so all accesses are in bounds. -/
structure KmAcc where
  v2 : Int → Int × Int
  num : Int → Int

/-- cluster.c:52-54 and 96-98 -/
def KmAcc.zero : KmAcc := ⟨fun _ => (0, 0), fun _ => 0⟩

/-- cluster.c:65-80: one pixel -/
def kmPixel (data : Nat) (v1 : Int → Int × Int) (kind rows cols i j : Int) (a : KmAcc) : M KmAcc := do
  let p ← ev (CI.lit i * CI.lit cols + CI.lit j)
  let v ← load data p
  if v ≠ 0 then do
    let best ← kmNearest v1 kind rows cols i j
    let x ← ev (CI.lit (a.v2 best.1).1 + CI.lit j)
    let y ← ev (CI.lit (a.v2 best.1).2 + CI.lit i)
    let n ← ev (CI.lit (a.num best.1) + CI.lit 1)
    pure ⟨fun k => if k = best.1 then (x, y) else a.v2 k, fun k => if k = best.1 then n else a.num k⟩
  else pure a

/-- cluster.c:86-90: the new position of centre `k` -/
def kmMean (a : KmAcc) (k : Int) : M (Int × Int) :=
  if a.num k ≠ 0 then do
    let x ← ev (CI.lit (a.v2 k).1 / CI.lit (a.num k))
    let y ← ev (CI.lit (a.v2 k).2 / CI.lit (a.num k))
    pure (x, y)
  else pure (a.v2 k)

/-- cluster.c:91-92: the test whether centre `k` moved -/
def kmMoved (old new : Int × Int) (iter_threshold : Int) : M Bool := do
  let dx ← ev (CI.lit new.1 - CI.lit old.1)
  if dx > iter_threshold then pure true else do
    let dy ← ev (CI.lit new.2 - CI.lit old.2)
    pure (decide (dy > iter_threshold))

/-- the body of the endless loop, cluster.c:57-102: the new centres and `flag` -/
def kmRound (data : Nat) (kind rows cols iter_threshold : Int) (v1 : Int → Int × Int) : M ((Int → Int × Int) × Bool) := do
  let a ← forA 0 rows KmAcc.zero fun i a => forA 0 cols a fun j a => kmPixel data v1 kind rows cols i j a
  forA 0 kind (v1, false) fun k s => do
    let c ← kmMean a k
    let moved ← kmMoved (s.1 k) c iter_threshold
    pure (fun l => if l = k then c else s.1 l, s.2 || moved)

/-- the endless loop, cluster.c:57-102, cut off after `fuel` rounds.  The function returns if this succeeds for some `fuel`, and
runs for ever if it is `diverge` for every `fuel`. -/
def kmLoop (data : Nat) (kind rows cols iter_threshold : Int) : Nat → (Int → Int × Int) → M (Int → Int × Int)
  | 0, _ => fail .diverge
  | fuel + 1, v1 => do
    let s ← kmRound data kind rows cols iter_threshold v1
    if s.2 then kmLoop data kind rows cols iter_threshold fuel s.1 else pure s.1

/-- `hypercv_k_means`: cluster.c:24-105.  `size` is `vector_size(v1)`; the points that are written to `v1` are the result.
`rand n` is the value of the `n`-th call of `rand()`, which is not negative.  The grey version of a colour image is never
deleted. -/
def hypercv_k_means (fuel : Nat) (rand : Nat → Nat) (src : Option Nat) (size : Nat) (kind iter_threshold : Int) : M (Int → Int × Int) := do
  cassert src.isSome
  cassert (decide (kind ≥ 1))
  cassert (decide ((size : Int) = kind))
  let s ← derefS src
  let mat ← greyOfMat src s.channels
  let t ← derefS mat
  kmLoop t.data kind s.rows s.cols iter_threshold fuel fun k => ((rand (2 * k.toNat) : Int) % s.cols, (rand (2 * k.toNat + 1) : Int) % s.rows)

end HyperCV
