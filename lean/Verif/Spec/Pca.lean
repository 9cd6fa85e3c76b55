/- Specification vocabulary for the principal component analysis. -/
import Verif.Spec.Typed

namespace HyperCV.Spec

/-- `c + x 0 * y 0 + … + x (n-1) * y (n-1)` in `float` arithmetic, from left to right -/
def productSum (c : FV) (x y : Nat → FV) : Nat → FV
  | 0 => c
  | n+1 => f32.add (productSum c x y n) (f32.mul (x n) (y n))

/-- the mean of the first `n` values in `float` arithmetic -/
def pixelMean (x : Nat → FV) (n : Nat) : FV := f32.div ((List.range n).foldl (fun s k => f32.add s (x k)) (.fin false 0)) (f32.ofInt n)

/-- every address that the allocator can return is a multiple of 16 but not 48 modulo 64 (needed to delete an image, see C23) -/
def GoodAddresses (m : Mem) : Prop := ∀ h, m.addr h % 16 = 0 ∧ m.addr h % 64 ≠ 48

/-- `n` more blocks of memory exist in `m'` than in `m` -/
def MoreBlocks (m m' : Mem) (n : Nat) : Prop :=
  ∃ f : Nat → Nat, (∀ i j, i < n → j < n → f i = f j → i = j) ∧ (∀ i, i < n → m.blk (f i) = none ∧ m'.blk (f i) ≠ none) ∧
    ∀ x, m.blk x = none → m'.blk x ≠ none → ∃ i, i < n ∧ x = f i

end HyperCV.Spec
