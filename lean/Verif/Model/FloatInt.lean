import Verif.Model.Utils1D
import Verif.Model.FilterBank1D
import Verif.Model.FilterBank2D
import Mathlib.Analysis.SpecialFunctions.Log.Base

/-!
# Integers computed through floating-point numbers

The rest of the model computes the integers of the constructors exactly.  The code computes some of them with
floating-point numbers: `log2_T`, `log2_stride` and `J_pad` with a floating-point logarithm
(kymatio/scattering1d/frontend/base_frontend.py L77-80, L89-91, L256-274, L738-755), the `j` of a filter
(kymatio/scattering1d/filter_bank.py L230-232, L367), the indices of `periodize_filter_fft` with products and quotients
(kymatio/scattering2d/filter_bank.py L77-89, L35).  Here the same functions are written with the floating-point
operations as a parameter.

Double-precision numbers are modelled with 53 bits of significand and an unbounded exponent (no overflow, no
subnormals, no `nan`).  `math.log2` of a Python int converts it to a double first.
-/

namespace Verif

/-- A double-precision number: `m * 2^e` with `|m| < 2^53`. -/
def IsDouble (r : ℝ) : Prop := ∃ m e : ℤ, |m| < 2 ^ 53 ∧ r = m * (2 : ℝ) ^ e

/-- The floating-point operations that the constructors use: rounding to a double, and the logarithm of the library. -/
structure FloatOps where
  rnd : ℝ → ℝ
  log2 : ℝ → ℝ

/-- `int(math.floor(math.log2(T)))` (base_frontend.py L274, L739; filter_bank.py L367). -/
noncomputable def FloatOps.floorLog2 (F : FloatOps) (T : Rat) : Int := ⌊F.log2 (F.rnd T)⌋

/-- `int(np.ceil(np.log2(n)))` (base_frontend.py L90). -/
noncomputable def FloatOps.ceilLog2 (F : FloatOps) (n : Nat) : Int := ⌈F.log2 (F.rnd n)⌉

open Classical in
/-- `math.floor(log2_stride) != math.ceil(log2_stride)` (base_frontend.py L263-264), negated. -/
noncomputable def FloatOps.isPow2 (F : FloatOps) (n : Nat) : Bool := decide (F.floorLog2 n = F.ceilLog2 n)

/-- `log2_T` (base_frontend.py L272-274, L297-299). -/
noncomputable def FloatOps.log2T (F : FloatOps) (T : PyT) (J Ninput : Nat) : Py Int := do
  let p ← parseT T J Ninput
  .ok (F.floorLog2 p.1)

/-- `log2_stride` (base_frontend.py L256-270). -/
noncomputable def FloatOps.log2Stride (F : FloatOps) (stride : Option PyNum) (T : PyT) (J Ninput : Nat) : Py Int :=
  match stride with
  | none => F.log2T T J Ninput
  | some (.flt _) => .error .value
  | some (.int n) =>
    if n ≤ 0 then .error .value
    else if !F.isPow2 n.toNat then .error .value
    else do
      let p ← parseT T J Ninput
      if p.2 = .no ∨ p.2 = .glob then .error .value
      else .ok (F.floorLog2 n)

/-- The oversampling block of `build` (base_frontend.py L63-80). -/
noncomputable def FloatOps.applyOversampling (F : FloatOps) (oversampling : Option PyNum) (stride : Option PyNum)
    (T : PyT) (J Ninput : Nat) : Py (Option PyNum) :=
  match oversampling with
  | none => .ok stride
  | some o =>
    if o.val < 0 then .error .value
    else match o with
      | .flt _ => .error .value
      | .int o =>
        if 0 < o then do
          let lT ← F.log2T T J Ninput
          match stride with
          | none => .ok (some (pyTwoPow (lT - o)))
          | some s =>
            if s.val = (pyTwoPow (lT - o - 1)).val then .ok (some (pyTwoPow (lT - o)))
            else .error .value
        else .ok stride

/-- `J_pad` (base_frontend.py L89-91), for `N_input ≥ 1`. -/
noncomputable def FloatOps.jPad (F : FloatOps) (Ninput minToPad : Nat) : Nat :=
  (min (F.ceilLog2 (Ninput + 2 * minToPad)) (F.floorLog2 ((3 * Ninput - 2 : Nat) : Rat))).toNat

/-- `ScatteringBase1D.build` (base_frontend.py L37-98), as `build1D`. -/
noncomputable def FloatOps.build1D (F : FloatOps) (shape : PyShape) (J : Nat) (T : PyT)
    (stride oversampling : Option PyNum) (minToPad : Nat) : Py Built1D := do
  let N ← parseShape shape
  let stride' ← F.applyOversampling oversampling stride T J N
  let lT ← F.log2T T J N
  let Npadded := 2 ^ F.jPad N minToPad
  let (l, r) ← computePadding Npadded N
  let (s, e) := computeBorderIndices lT.toNat J l (l + N)
  .ok { Ninput := N, Npadded := Npadded, padLeft := l, padRight := r,
        indStart := s, indEnd := e, stride := stride' }

/-- The last two lines of `get_max_dyadic_subsampling` (scattering1d/filter_bank.py L231-232), given the double
`upper_bound`. -/
noncomputable def FloatOps.dyadic (F : FloatOps) (upper : ℝ) : Int := ⌊-F.log2 upper⌋ - 1

/-- `int(r)` for a float `r`: truncation towards zero. -/
noncomputable def pyTrunc (r : ℝ) : Int := if 0 ≤ r then ⌊r⌋ else ⌈r⌉

/-- `int(M * (1 - 2 ** (-res)))` (scattering2d/filter_bank.py L77). -/
noncomputable def FloatOps.maskLen (F : FloatOps) (M res : Nat) : Nat :=
  (pyTrunc (F.rnd (M * F.rnd (1 - F.rnd ((2 : ℝ) ^ (-(res : Int))))))).toNat

/-- `int(M * 2 ** (-res - 1))` (scattering2d/filter_bank.py L78). -/
noncomputable def FloatOps.maskStart (F : FloatOps) (M res : Nat) : Nat :=
  (pyTrunc (F.rnd (M * F.rnd ((2 : ℝ) ^ (-(res : Int) - 1))))).toNat

/-- `int(M / 2 ** res)` (scattering2d/filter_bank.py L85-89). -/
noncomputable def FloatOps.cropLen (F : FloatOps) (M res : Nat) : Nat := (pyTrunc (F.rnd (M / 2 ^ res))).toNat

/-- The mask (scattering2d/filter_bank.py L76-82). -/
noncomputable def FloatOps.masked (F : FloatOps) (M res i : Nat) : Bool :=
  F.maskStart M res ≤ i && i < F.maskStart M res + F.maskLen M res

/-- `periodize_filter_fft(x, res)` (scattering2d/filter_bank.py L56-91); the sums of filter values are exact. -/
noncomputable def FloatOps.periodizeFilter (F : FloatOps) (x : Img ℝ) (res : Nat) : Img ℝ :=
  let y : Nat → Nat → ℝ := fun i j => if F.masked x.h res i || F.masked x.w res j then 0 else x.px i j
  Img.tab (F.cropLen x.h res) (F.cropLen x.w res) fun k l =>
    ∑ i ∈ Finset.range (2 ^ res), ∑ j ∈ Finset.range (2 ^ res),
      y (k + i * F.cropLen x.h res) (l + j * F.cropLen x.w res)

/-- `int(L-L/2-1)` (scattering2d/filter_bank.py L35). -/
noncomputable def FloatOps.midAngle (F : FloatOps) (L : Nat) : Int :=
  pyTrunc (F.rnd (F.rnd (L - F.rnd ((L : ℝ) / 2)) - 1))

end Verif
