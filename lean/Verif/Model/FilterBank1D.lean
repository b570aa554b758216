import Verif.Model.Backend1D
import Verif.Model.Utils1D
import Mathlib.Analysis.SpecialFunctions.Pow.Real
import Mathlib.Analysis.SpecialFunctions.Log.Base
import Mathlib.Data.Nat.Find

/-!
# `kymatio/scattering1d/filter_bank.py`

Floats are exact reals; `math.pow(2, 1/Q)` is the real power.
-/

namespace Verif

open Finset

/-! ## Morlet and Gauss filters -/

/-- `adaptive_choice_P(sigma, eps)`, filter_bank.py L6-48. -/
noncomputable def adaptiveChoiceP (sigma eps : ℝ) : ℤ :=
  ⌈Real.sqrt (-2 * sigma ^ 2 * Real.log eps) + 1⌉

/-- `np.fft.fftfreq(N)[k]`. -/
noncomputable def fftfreq (N k : Nat) : ℝ :=
  if k < (N + 1) / 2 then (k : ℝ) / N else ((k : ℝ) - N) / N

/-- `v.reshape(r, -1).mean(axis=0)` for an array whose length is a multiple of `r`
(filter_bank.py L84, L89). -/
noncomputable def reshapeMean (r : Nat) (v : List ℝ) : List ℝ :=
  tab (v.length / r) fun k => (∑ p ∈ range r, v.getD (p * (v.length / r) + k) 0) / r

/-- `np.arange((1 - P) * N, P * N) / N`, filter_bank.py L76. -/
noncomputable def morletFreqs (N P : Nat) : List ℝ :=
  tab ((2 * P - 1) * N) fun i => (((1 : ℝ) - P) * N + i) / N

/-- `morlet_1d` up to and including filter_bank.py L95, i.e. before the division by the L1 norm.
`xi = None` and `xi = 0` both take the low-pass branch (`if xi:`). -/
noncomputable def morletRaw (N : Nat) (xi : Option ℝ) (sigma : ℝ) : List ℝ :=
  let P := (min (adaptiveChoiceP sigma (1e-7)) 5).toNat
  let freqs := morletFreqs N P
  let freqsLow := if P = 1 then tab N (fftfreq N) else freqs
  let low := reshapeMean (2 * P - 1) (freqsLow.map fun w => Real.exp (-(w ^ 2) / (2 * sigma ^ 2)))
  match xi with
  | none => low
  | some xi =>
    if xi = 0 then low
    else
      let gabor := reshapeMean (2 * P - 1)
        (freqs.map fun w => Real.exp (-(w - xi) ^ 2 / (2 * sigma ^ 2)))
      let kappa := gabor.getD 0 0 / low.getD 0 0
      List.zipWith (fun g l => g - kappa * l) gabor low

/-- `np.abs(ifft(h)).sum()` (filter_bank.py L96). -/
noncomputable def l1norm (h : List ℝ) : ℝ :=
  ((idft (h.map fun r : ℝ => (r : ℂ))).map fun z => ‖z‖).sum

/-- `morlet_1d(N, xi, sigma)`, filter_bank.py L51-98.  When the L1 norm vanishes numpy gives NaN
(0/0) where this model gives 0; theorems about the normalised filter therefore assume a nonzero
norm, except those that hold for the zero filter anyway. -/
noncomputable def morlet1d (N : Nat) (xi : Option ℝ) (sigma : ℝ) : List ℝ :=
  let f := morletRaw N xi sigma
  f.map fun v => v / l1norm f

/-- `gauss_1d(N, sigma)`, filter_bank.py L101-102. -/
noncomputable def gauss1d (N : Nat) (sigma : ℝ) : List ℝ := morlet1d N none sigma

/-! ## Filter parameters -/

/-- `compute_sigma_psi(xi, Q, r)`, filter_bank.py L105-139. -/
noncomputable def computeSigmaPsi (xi : ℝ) (Q : Nat) (r : ℝ) : ℝ :=
  let factor := 1 / (2 : ℝ) ^ ((1 : ℝ) / Q)
  let term1 := (1 - factor) / (1 + factor)
  let term2 := 1 / Real.sqrt (2 * Real.log (1 / r))
  xi * term1 * term2

/-- The array `np.max(l1_residual, axis=0)` at index `i` (filter_bank.py L179-184): the residual of
one row is `sum(|h[i:half]|)`, and the maximum is over the rows (0 when there is no row; numpy
would raise). `rows` are the impulse responses `ifft(h_f, axis=1)`. -/
noncomputable def maxResidual (rows : List (List ℂ)) (half i : Nat) : ℝ :=
  (rows.map fun h => ∑ m ∈ Ico i half, ‖h.getD m 0‖).foldr max 0

open Classical in
/-- `compute_temporal_support(h_f, criterion_amplitude)`, filter_bank.py L142-196; `n` is
`h_f.shape[1]`. -/
noncomputable def computeTemporalSupport (hf : List (List ℝ)) (n : Nat) (crit : ℝ) : Nat :=
  let rows := hf.map fun h => idft (h.map fun r : ℝ => (r : ℂ))
  let half := n / 2
  if h : ∃ i, i < half ∧ maxResidual rows half i ≤ crit then Nat.find h + 1 else half

/-- `get_max_dyadic_subsampling(xi, sigma, alpha)`, filter_bank.py L199-233. -/
noncomputable def getMaxDyadicSubsampling (xi sigma alpha : ℝ) : ℤ :=
  let upper := min (|xi| + alpha * sigma) (1 / 2)
  ⌊-Real.logb 2 upper⌋ - 1

/-- `compute_xi_max(Q)`, filter_bank.py L236-251. -/
noncomputable def computeXiMax (Q : Nat) : ℝ :=
  max (1 / (1 + (2 : ℝ) ^ ((3 : ℝ) / Q))) 0.35

/-! ## `anden_generator` -/

/-- `while cond(s): s = step(s); yield s` run for at most `fuel` tests of the condition.
Returns the yielded states and the final state, or `none` if the fuel ran out. -/
def whileYield {σ : Type} (cond : σ → Prop) [DecidablePred cond] (step : σ → σ) :
    Nat → σ → Option (List σ × σ)
  | 0, _ => none
  | fuel + 1, s =>
    if cond s then (whileYield cond step fuel (step s)).map fun r => (step s :: r.1, r.2)
    else some ([], s)

/-- The unbounded loop: `none` if it never ends. -/
noncomputable def runWhile {σ : Type} (cond : σ → Prop) [DecidablePred cond] (step : σ → σ)
    (s : σ) : Option (List σ × σ) := by
  classical
  exact if h : ∃ fuel, (whileYield cond step fuel s).isSome
    then whileYield cond step (Nat.find h) s else none

/-- The arithmetic part (filter_bank.py L307-311): `n` times, `xi -= 1/Q * elbow_xi; yield`. -/
noncomputable def arithPart (Q : Nat) (elbow sigmaMin : ℝ) : Nat → ℝ → List (ℝ × ℝ)
  | 0, _ => []
  | n + 1, xi =>
    (xi - 1 / Q * elbow, sigmaMin) :: arithPart Q elbow sigmaMin n (xi - 1 / Q * elbow)

open Classical in
/-- `anden_generator(J, Q, sigma0, r_psi)`, filter_bank.py L254-311: the list of everything it
yields, or `none` if it never stops. -/
noncomputable def andenGenerator (J Q : Nat) (sigma0 r : ℝ) : Option (List (ℝ × ℝ)) :=
  let xi := computeXiMax Q
  let sigma := computeSigmaPsi xi Q r
  let sigmaMin := sigma0 / 2 ^ J
  if sigma ≤ sigmaMin then some (arithPart Q sigma sigmaMin (Q - 1) sigma)
  else
    (runWhile (fun s : ℝ × ℝ => s.2 > sigmaMin * (2 : ℝ) ^ ((1 : ℝ) / Q))
      (fun s => (s.1 / (2 : ℝ) ^ ((1 : ℝ) / Q), s.2 / (2 : ℝ) ^ ((1 : ℝ) / Q))) (xi, sigma)).map
      fun r => (xi, sigma) :: r.1 ++ arithPart Q r.2.1 sigmaMin (Q - 1) r.2.1

/-- The filterbank of `Scattering1D`: `r_psi = sqrt(0.5)`, `sigma0 = 0.1`
(base_frontend.py L46-48, L250-254).  The generator terminates (theorem
`C24_anden_terminates`), so the default value is never used. -/
noncomputable def anden (J Q : Nat) : List (ℝ × ℝ) :=
  (andenGenerator J Q 0.1 (Real.sqrt 0.5)).getD []

/-- `spin`, filter_bank.py L314-319: the filters followed by their mirror images. -/
def spin (bank : Nat → Nat → List (ℝ × ℝ)) (J Q : Nat) : List (ℝ × ℝ) :=
  bank J Q ++ (bank J Q).map fun f => (-f.1, f.2)

/-! ## `scattering_filter_factory` -/

/-- A filter dictionary with keys `levels`, `xi`, `sigma`, `j`. -/
structure FiltX where
  levels : List (List ℝ)
  xi : ℝ
  sigma : ℝ
  j : ℤ

/-- `_reduction(h.reshape(2**level, -1), axis=0)` (filter_bank.py L375-376, L390-391), for
`_reduction = np.sum`, or `np.mean` if `mean`.  `reshape` raises `ValueError` if `2**level` does
not divide the length. -/
noncomputable def reduceLevel (mean : Bool) (h : List ℝ) (level : Nat) : Py (List ℝ) :=
  if 2 ^ level ∣ h.length then
    .ok (tab (h.length / 2 ^ level) fun m =>
      (∑ i ∈ range (2 ^ level), h.getD (i * (h.length / 2 ^ level) + m) 0) /
        (if mean then 2 ^ level else 1))
  else .error .value

/-- Levels `[h] + [reduce(h, level) for level in range(1, b)]`. -/
noncomputable def makeLevels (mean : Bool) (h : List ℝ) (b : ℤ) : Py (List (List ℝ)) := do
  let rest ← (List.range' 1 (b - 1).toNat).mapM (reduceLevel mean h)
  .ok (h :: rest)

/-- One wavelet (filter_bank.py L366-378). -/
noncomputable def makePsi (mean : Bool) (N : Nat) (alpha : ℝ) (previousJ log2T : ℤ)
    (p : ℝ × ℝ) : Py FiltX := do
  let j := getMaxDyadicSubsampling p.1 p.2 alpha
  let levels ← makeLevels mean (morlet1d N (some p.1) p.2) (min (min previousJ j) (1 + log2T))
  .ok ⟨levels, p.1, p.2, j⟩

/-- The loop over layers (filter_bank.py L360-383); `maxJ` is the running maximum, which is also
`previous_J` when a layer starts. -/
noncomputable def makeLayers (mean : Bool) (N : Nat) (alpha : ℝ) (log2T : ℤ) :
    List (List (ℝ × ℝ)) → ℤ → Py (List (List FiltX) × ℤ)
  | [], maxJ => .ok ([], maxJ)
  | bank :: banks, maxJ => do
    let layer ← bank.mapM (makePsi mean N alpha maxJ log2T)
    let r ← makeLayers mean N alpha log2T banks (layer.foldl (fun m f => max f.j m) maxJ)
    .ok (layer :: r.1, r.2)

/-- `scattering_filter_factory(N, J, Q, T, filterbank, _reduction)`, filter_bank.py L322-404.
`bank J Q` is the list yielded by `filterbank_fn`. -/
noncomputable def filterFactory (mean : Bool) (N J : Nat) (Qs : List Nat) (T : Rat)
    (bank : Nat → Nat → List (ℝ × ℝ)) (alpha sigma0 : ℝ) : Py (FiltX × List (List FiltX)) := do
  let log2T := floorLog2 T
  let r ← makeLayers mean N alpha log2T (Qs.map (bank J)) 0
  let sigmaLow := sigma0 / T
  let levels ← makeLevels mean (gauss1d N sigmaLow) (max r.2 (1 + log2T))
  .ok (⟨levels, 0, sigmaLow, log2T⟩, r.1)

open Classical in
/-- `_check_filterbanks(psi1s, psi2s)`, kymatio/frontend/base_frontend.py L17-31. -/
noncomputable def checkFilterbanks (psi1s psi2s : List FiltX) : Py Unit :=
  if ¬ (∀ p ∈ psi1s, p.xi < 0.5 / (2 : ℝ) ^ p.j) then .error .assertion
  else if ¬ (∀ p ∈ psi1s, ∀ q ∈ psi2s, p.j < q.j → p.xi > q.xi) then .error .assertion
  else .ok ()

/-- `ScatteringBase1D.create_filters`, base_frontend.py L100-104. -/
noncomputable def createFilters (Npadded J : Nat) (Q1 Q2 : Nat) (T : Rat) :
    Py (FiltX × List FiltX × List FiltX) := do
  let r ← filterFactory false Npadded J [Q1, Q2] T anden 5 0.1
  match r.2 with
  | [psi1, psi2] => do
    let _ ← checkFilterbanks psi1 psi2
    .ok (r.1, psi1, psi2)
  | _ => .error .value

/-- The filter as seen by the core. -/
def FiltX.toFilt (f : FiltX) : Filt (List ℝ) := ⟨f.levels, f.j.toNat⟩

end Verif
