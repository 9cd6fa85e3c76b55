/- Specification vocabulary for the wavelet filters. -/
import Verif.Spec.Typed
import Mathlib.Analysis.Real.Sqrt

namespace HyperCV.Spec

/-- `h` is a block of exactly `n` numbers of type `double`, all finite, with the values `v` -/
def HasDoubles (m : Mem) (h n : Nat) (v : Nat → ℚ) : Prop :=
  ∃ a, IsArray m h 8 n a ∧ ∀ i, i < n → ∃ s, f64.decode (a i) = .fin s (v i)

/-- the four filters of a two-channel filter bank: decomposition (low pass, high pass), reconstruction (low pass, high pass) -/
structure Bank where
  len : Nat
  loD : Nat → ℝ
  hiD : Nat → ℝ
  loR : Nat → ℝ
  hiR : Nat → ℝ

/-- Daubechies' scaling filter with three vanishing moments, in closed form -/
noncomputable def daubechies3 (k : Nat) : ℝ :=
  let a := √10
  let b := √(5 + 2 * √10)
  √2 / 32 *
    match k with
    | 0 => 1 + a + b
    | 1 => 5 + a + 3 * b
    | 2 => 10 - 2 * a + 2 * b
    | 3 => 10 - 2 * a - 2 * b
    | 4 => 5 + a - 3 * b
    | 5 => 1 + a - b
    | _ => 0

/-- the filter bank of Daubechies' wavelet: the decomposition low pass is the scaling filter backwards, the high passes mirror the low passes -/
noncomputable def db3 : Bank where
  len := 6
  loD k := daubechies3 (5 - k)
  hiD k := (-1) ^ (k + 1) * daubechies3 k
  loR k := daubechies3 k
  hiR k := (-1) ^ k * daubechies3 (5 - k)

/-- the decomposition low pass of the spline wavelet 3.7, times 16384 / √2 -/
def spline37 : List Int := [35, -105, -195, 865, 363, -3489, -307, 11025, 11025, -307, -3489, 363, 865, -195, -105, 35]

/-- the reconstruction low pass of the spline wavelet 3.7, times 8 / √2 -/
def spline3 : List Int := [0, 0, 0, 0, 0, 0, 1, 3, 3, 1, 0, 0, 0, 0, 0, 0]

/-- the filter bank of the biorthogonal spline wavelet 3.7 -/
noncomputable def bior37 : Bank where
  len := 16
  loD k := √2 / 16384 * (spline37.getD k 0 : ℝ)
  hiD k := (-1) ^ (k + 1) * (√2 / 8 * (spline3.getD k 0 : ℝ))
  loR k := √2 / 8 * (spline3.getD k 0 : ℝ)
  hiR k := (-1) ^ k * (√2 / 16384 * (spline37.getD k 0 : ℝ))

/-- the array `h` holds the filter `f` of length `n` backwards, rounded to four digits -/
def HoldsBackwards (m : Mem) (h n : Nat) (f : Nat → ℝ) (v : Nat → ℚ) : Prop :=
  HasDoubles m h n v ∧ ∀ i, i < n → |(v i : ℝ) - f (n - 1 - i)| ≤ 1 / 20000

/-- decomposition of the signal `x`: filtering with `h` and keeping every other value -/
noncomputable def analysis (L : Nat) (h : Nat → ℝ) (x : ℤ → ℝ) (k : ℤ) : ℝ := ∑ j ∈ Finset.range L, h j * x (2 * k - j)

/-- reconstruction: zeros are put between the values and the result is filtered with `g` -/
noncomputable def synthesis (L : Nat) (g : Nat → ℝ) (a : ℤ → ℝ) (n : ℤ) : ℝ :=
  ∑ i ∈ Finset.range L, if (n - i) % 2 = 0 then g i * a ((n - i) / 2) else 0

/-- the signal reconstructed from both decompositions of `x` -/
noncomputable def roundTrip (L : Nat) (loD hiD loR hiR : Nat → ℝ) (x : ℤ → ℝ) (n : ℤ) : ℝ :=
  synthesis L loR (analysis L loD x) n + synthesis L hiR (analysis L hiD x) n

/-- exactly the blocks in `bs` and the image headers in `ps` were released -/
def Released (m m' : Mem) (bs ps : Nat → Prop) : Prop :=
  m'.hm = m.hm ∧ (∀ x, bs x → m'.blk x = none) ∧ (∀ x, ¬ bs x → m'.blk x = m.blk x) ∧ (∀ p, ps p → m'.sm p = none) ∧ (∀ p, ¬ ps p → m'.sm p = m.sm p)

/-- the image `p` (if there is one) keeps its pixels in the block `x`, in the same allocation as its header -/
def KeepsIn (m : Mem) (p : Option Nat) (x : Nat) : Prop := ∃ a h, p = some a ∧ m.sm a = some h ∧ h.inl = true ∧ h.data = x

end HyperCV.Spec
