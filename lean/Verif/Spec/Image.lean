import Mathlib.Analysis.SpecialFunctions.Complex.Log
import Mathlib.Analysis.SpecialFunctions.Trigonometric.Basic

/-!
# Image-processing vocabulary used in the 2-D statements

These definitions do not use the model: an image of shape `(h, w)` is a function of two indices.
-/

namespace Verif.Spec

open Finset Complex

/-- The impulse response, doubly periodic, of the real transfer function `f` of shape `(h, w)`:
`1/(h w) sum_{k,l} f(k,l) exp(2 pi i (k m / h + l n / w))`. -/
noncomputable def impulse2 (h w : ℕ) (f : ℕ → ℕ → ℝ) (m n : ℤ) : ℂ :=
  (∑ k ∈ range h, ∑ l ∈ range w, (f k l : ℂ) *
    exp (2 * Real.pi * I * ((k * m : ℤ) / h + (l * n : ℤ) / w))) / (h * w)

/-- Circular convolution of the real image `x` of shape `(h, w)` with `g`, at `(m, n)`. -/
noncomputable def conv2 (h w : ℕ) (x : ℕ → ℕ → ℝ) (g : ℤ → ℤ → ℂ) (m n : ℤ) : ℂ :=
  ∑ u ∈ range h, ∑ v ∈ range w, (x u v : ℂ) * g (m - u) (n - v)

/-- Band-pass, modulus and decimation by `2^e` of a real image of shape `(h, w)`. -/
noncomputable def band2 (h w : ℕ) (x f : ℕ → ℕ → ℝ) (e : ℕ) (m n : ℕ) : ℝ :=
  ‖conv2 h w x (impulse2 h w f) (m * 2 ^ e) (n * 2 ^ e)‖

/-- Low-pass and decimation by `2^e`. -/
noncomputable def low2 (h w : ℕ) (x f : ℕ → ℕ → ℝ) (e : ℕ) (m n : ℕ) : ℝ :=
  (conv2 h w x (impulse2 h w f) (m * 2 ^ e) (n * 2 ^ e)).re

/-- `y` is `np.roll(x, (s, t), axis=(0, 1))`. -/
def IsRoll2 {α : Type} (h w : ℕ) (s t : ℤ) (x y : ℕ → ℕ → α) : Prop :=
  ∀ m n : ℕ, m < h → n < w →
    y m n = x (((m : ℤ) - s) % h).toNat (((n : ℤ) - t) % w).toNat

/-- The labels `(j, n, theta)` of the channels of 2-D scattering with `J` scales and `L` angles, in
output order: order zero; all `(j1, theta1)`; all `(j1, theta1, j2, theta2)` with `j2 > j1`.  Wavelet
`(j, theta)` has number `j L + theta`. -/
def channels2 (J L : ℕ) (maxOrder : ℤ) : List (List ℕ × List ℕ × List ℕ) :=
  [([], [], [])] ++
  ((List.range J).flatMap fun j => (List.range L).map fun t => ([j], [j * L + t], [t])) ++
  (if maxOrder < 2 then [] else
    (List.range J).flatMap fun j1 => (List.range L).flatMap fun t1 =>
      (List.range (J - (j1 + 1))).flatMap fun d => (List.range L).map fun t2 =>
        ([j1, j1 + 1 + d], [j1 * L + t1, (j1 + 1 + d) * L + t2], [t1, t2]))

/-- The angle number that takes the place of `t` when the two axes of the image are exchanged, for an
even number `L` of angles: angle `theta` becomes `pi/2 - theta`, up to `pi`. -/
def flipAngle (L t : ℕ) : ℕ := (L + L / 2 - 2 - t) % L

/-- The mother Gabor function: Gaussian of unit width along the first axis and `1/s` along the second,
modulated along the first axis at frequency `w`. -/
noncomputable def gaborMother (s w u v : ℝ) : ℂ :=
  exp (-(((u ^ 2 + s ^ 2 * v ^ 2) / 2 : ℝ) : ℂ)) * exp (I * ((w * u : ℝ) : ℂ))

/-- The mother function rotated by `theta` and dilated by `sigma`, divided by `sigma^2`. -/
noncomputable def gaborAtom (sigma theta s w x y : ℝ) : ℂ :=
  gaborMother s w ((Real.cos theta * x + Real.sin theta * y) / sigma)
    ((Real.cos theta * y - Real.sin theta * x) / sigma) / (sigma ^ 2 : ℝ)

/-- Periodisation with five periods along each axis, two on each side. -/
noncomputable def periodise2 (M N : ℕ) (g : ℝ → ℝ → ℂ) (x y : ℕ) : ℂ :=
  ∑ a ∈ Icc (-2 : ℤ) 2, ∑ b ∈ Icc (-2 : ℤ) 2, g (x + a * M) (y + b * N)

/-- Real part of the discrete Fourier transform at `(k, l)` of an image of shape `(M, N)`. -/
noncomputable def reDft2 (M N : ℕ) (g : ℕ → ℕ → ℂ) (k l : ℕ) : ℝ :=
  (∑ x ∈ range M, ∑ y ∈ range N, g x y *
    exp (-(2 * Real.pi * I * ((k * x : ℕ) / M + (l * y : ℕ) / N)))).re

/-- A function minus the multiple of an envelope that makes its sum vanish. -/
noncomputable def zeroMean2 (M N : ℕ) (g e : ℕ → ℕ → ℂ) (x y : ℕ) : ℂ :=
  g x y - (∑ x ∈ range M, ∑ y ∈ range N, g x y) / (∑ x ∈ range M, ∑ y ∈ range N, e x y) * e x y

/-- The wavelet of scale `j` and angle number `t` among `L`, and its envelope when `w = 0`: the mother
function with eccentricity `4/L` rotated by `pi (int(L - L/2 - 1) - t) / L` and dilated by `0.8 * 2^j`. -/
noncomputable def wavelet2 (M N L j t : ℕ) (w : ℝ) : ℕ → ℕ → ℂ :=
  periodise2 M N (gaborAtom (0.8 * 2 ^ j) (Real.pi * (((L - 2) / 2 : ℕ) - t) / L) (4 / L) w)

/-- Euclidean norm of a real image of shape `(h, w)`. -/
noncomputable def norm2 (h w : ℕ) (x : ℕ → ℕ → ℝ) : ℝ := Real.sqrt (∑ i ∈ range h, ∑ k ∈ range w, x i k ^ 2)

end Verif.Spec
