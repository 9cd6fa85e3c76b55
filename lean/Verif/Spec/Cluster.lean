/- Vocabulary for clustering. -/
import Mathlib.Algebra.BigOperators.Ring.Finset
import Mathlib.Data.Finset.Prod

namespace HyperCV.Spec

/-- squared distance of pixel (row `i`, column `j`) from the centre with coordinates `c = (x, y)` -/
def sqDist (c : Nat × Nat) (i j : Nat) : ℤ := ((c.1 : ℤ) - j) ^ 2 + ((c.2 : ℤ) - i) ^ 2

/-- `k` is the first of the centres `c 0`, ..., `c (K-1)` that is nearest to pixel (`i`, `j`) -/
def FirstNearest (K : Nat) (c : Nat → Nat × Nat) (i j k : Nat) : Prop :=
  k < K ∧ (∀ l, l < K → sqDist (c k) i j ≤ sqDist (c l) i j) ∧ ∀ l, l < k → sqDist (c k) i j < sqDist (c l) i j

/-- the foreground pixels with label `k` -/
def members (R C : Nat) (fg : Nat → Nat → Bool) (label : Nat → Nat → Nat) (k : Nat) : Finset (Nat × Nat) :=
  (Finset.range R ×ˢ Finset.range C).filter fun q => fg q.1 q.2 = true ∧ label q.1 q.2 = k

/-- truncated mean position (x, y) of a set of pixels (row, column); (0, 0) for the empty set -/
def centroid (s : Finset (Nat × Nat)) : Nat × Nat := ((∑ q ∈ s, q.2) / s.card, (∑ q ∈ s, q.1) / s.card)

/-- one round of k-means: every foreground pixel goes to the nearest centre, and each centre moves to the mean of its pixels -/
def KmRound (K R C : Nat) (fg : Nat → Nat → Bool) (c c' : Nat → Nat × Nat) : Prop :=
  ∃ label, (∀ i j, i < R → j < C → FirstNearest K c i j (label i j)) ∧ ∀ k, k < K → c' k = centroid (members R C fg label k)

/-- all centres lie inside the image -/
def InImage (K R C : Nat) (c : Nat → Nat × Nat) : Prop := ∀ k, k < K → (c k).1 < C ∧ (c k).2 < R

/-- some coordinate of some centre has grown by more than the threshold -/
def Grew (K : Nat) (th : ℤ) (c c' : Nat → Nat × Nat) : Prop :=
  ∃ k, k < K ∧ (((c' k).1 : ℤ) - (c k).1 > th ∨ ((c' k).2 : ℤ) - (c k).2 > th)

end HyperCV.Spec
