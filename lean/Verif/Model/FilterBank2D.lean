import Verif.Model.Backend2D
import Mathlib.Analysis.SpecialFunctions.Exp

/-!
# `kymatio/scattering2d/filter_bank.py`

Floats are exact reals (the code stores some intermediate arrays in single precision).
-/

namespace Verif

open Finset

/-- `gabor_2d(M, N, sigma, theta, xi, slant)` with `offset = 0`, filter_bank.py L132-176.  `curv` is
`R D R^{-1} / (2 sigma^2)` written out; the two loops over `ex`, `ey` in `[-2, ..., 2]` are sums. -/
noncomputable def gabor2d (M N : Nat) (sigma theta xi slant : ℝ) : Img ℂ :=
  let c := Real.cos theta
  let s := Real.sin theta
  let c00 := (c * c + s * slant ^ 2 * s) / (2 * sigma * sigma)
  let c01 := (c * s - s * slant ^ 2 * c) / (2 * sigma * sigma)
  let c10 := (s * c - c * slant ^ 2 * s) / (2 * sigma * sigma)
  let c11 := (s * s + c * slant ^ 2 * c) / (2 * sigma * sigma)
  let norm := 2 * 3.1415 * sigma * sigma / slant
  Img.tab M N fun x y =>
    (∑ ex ∈ range 5, ∑ ey ∈ range 5,
      let xx : ℝ := x + ((ex : ℝ) - 2) * M
      let yy : ℝ := y + ((ey : ℝ) - 2) * N
      Complex.exp ((-(c00 * (xx * xx) + (c01 + c10) * (xx * yy) + c11 * (yy * yy)) : ℝ) +
        Complex.I * ((xx * xi * c + yy * xi * s : ℝ) : ℂ))) / (norm : ℂ)

/-- `np.sum`. -/
noncomputable def imgSum (x : Img ℂ) : ℂ := ∑ i ∈ range x.h, ∑ j ∈ range x.w, x.px i j

/-- `morlet_2d(M, N, sigma, theta, xi, slant)`, filter_bank.py L94-129. -/
noncomputable def morlet2d (M N : Nat) (sigma theta xi slant : ℝ) : Img ℂ :=
  let wv := gabor2d M N sigma theta xi slant
  let wvMod := gabor2d M N sigma theta 0 slant
  let K := imgSum wv / imgSum wvMod
  Img.tab M N fun i j => wv.px i j - K * wvMod.px i j

/-- `np.real(fft2(x))`. -/
noncomputable def realFft2 (x : Img ℂ) : Img ℝ := (dft2 x).map Complex.re

/-- Is index `i` of an axis of length `M` zeroed by the mask (filter_bank.py L76-82)?
`int(M * (1 - 2**(-res)))` and `int(M * 2**(-res-1))` are floors of dyadic numbers. -/
def masked (M res i : Nat) : Bool :=
  let len := M * (2 ^ res - 1) / 2 ^ res
  let start := M / 2 ^ (res + 1)
  start ≤ i && i < start + len

/-- `periodize_filter_fft(x, res)`, filter_bank.py L56-91: mask, then sum of the aliases. -/
noncomputable def periodizeFilter (x : Img ℝ) (res : Nat) : Img ℝ :=
  let y : Nat → Nat → ℝ := fun i j => if masked x.h res i || masked x.w res j then 0 else x.px i j
  Img.tab (x.h / 2 ^ res) (x.w / 2 ^ res) fun k l =>
    ∑ i ∈ range (2 ^ res), ∑ j ∈ range (2 ^ res),
      y (k + i * (x.h / 2 ^ res)) (l + j * (x.w / 2 ^ res))

/-- One wavelet of the bank (filter_bank.py L32-43). `int(L - L/2 - 1)` is `(L-2)/2` for `L ≥ 1`
(truncation towards zero makes it `0` for `L = 1`). -/
noncomputable def makePsi2 (M N J L j theta : Nat) : Filt2 (Img ℝ) :=
  let psi := realFft2 (morlet2d M N (0.8 * 2 ^ j)
    (((((L - 2) / 2 : Nat) : ℝ) - theta) * Real.pi / L) (3 / 4 * Real.pi / 2 ^ j) (4 / L))
  ⟨(List.range (min (j + 1) (max (J - 1) 1))).map (periodizeFilter psi), j, theta⟩

/-- `filter_bank(M, N, J, L)`, filter_bank.py L5-53: the levels of the low-pass and the wavelets.
`2**(J-1)` is a real power (`J = 0` gives one half). -/
noncomputable def filterBank2 (M N J L : Nat) : List (Img ℝ) × List (Filt2 (Img ℝ)) :=
  let phi := realFft2 (gabor2d M N (0.8 * (2 ^ J / 2)) 0 0 1)
  ((List.range J).map (periodizeFilter phi),
   (List.range J).flatMap fun j => (List.range L).map fun theta => makePsi2 M N J L j theta)

end Verif
