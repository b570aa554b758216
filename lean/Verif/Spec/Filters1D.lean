import Mathlib.Analysis.SpecialFunctions.Pow.Real
import Mathlib.Analysis.SpecialFunctions.Log.Basic
import Mathlib.Algebra.BigOperators.Group.Finset.Basic
import Mathlib.Order.Interval.Finset.Nat
import Mathlib.Data.Int.Interval
import Mathlib.Analysis.Real.Sqrt

/-!
# Filters of the 1-D transforms, described independently of the model

Frequencies are counted in cycles per sample.
-/

namespace Verif.Spec

open Finset

/-- Gaussian profile of bandwidth `sigma`. -/
noncomputable def gaussian (sigma w : ℝ) : ℝ := Real.exp (-(w ^ 2) / (2 * sigma ^ 2))

/-- The sum of the `2 P - 1` translates of a profile by the integers `1 - P, ..., P - 1`. -/
noncomputable def periods (P : ℕ) (g : ℝ → ℝ) (w : ℝ) : ℝ :=
  ∑ p ∈ Icc (1 - P : ℤ) (P - 1), g (w + p)

/-- Number of periods for a bandwidth: the least `P >= 2` such that the Gaussian is at most `1e-7` at
distance `P - 1`, or `5` if that one is larger. -/
def IsPeriods (sigma : ℝ) (P : ℕ) : Prop :=
  2 ≤ P ∧ P ≤ 5 ∧ (P = 5 ∨ gaussian sigma (P - 1) ≤ 1e-7) ∧
    ∀ R : ℕ, 1 ≤ R → R < P → 1e-7 < gaussian sigma (R - 1)

/-- Morlet profile: a Gaussian around `xi` minus the multiple of the Gaussian around zero that makes it
vanish at frequency zero, both periodised. -/
noncomputable def morletProfile (P : ℕ) (xi sigma w : ℝ) : ℝ :=
  periods P (fun u => gaussian sigma (u - xi)) w -
    periods P (fun u => gaussian sigma (u - xi)) 0 / periods P (gaussian sigma) 0 *
      periods P (gaussian sigma) w

/-- Highest centre frequency. -/
noncomputable def xiMax (Q : ℕ) : ℝ := max (1 / (1 + (2 : ℝ) ^ ((3 : ℝ) / Q))) 0.35

/-- Bandwidth of the wavelet at `xi` when neighbours `2^(1/Q)` apart meet at `sqrt 0.5`. -/
noncomputable def bandwidth (Q : ℕ) (xi : ℝ) : ℝ :=
  xi * (((2 : ℝ) ^ ((1 : ℝ) / Q) - 1) / ((2 : ℝ) ^ ((1 : ℝ) / Q) + 1)) / Real.sqrt (Real.log 2)

/-- The list of pairs (centre frequency, bandwidth) of a filter bank of `Q` wavelets per octave and
maximal scale `2^J`: `K + 1` wavelets in geometric progression, `K` being the only integer for which
the last bandwidth is in `(sigma_min, 2^(1/Q) sigma_min]`, then `Q - 1` wavelets of bandwidth
`sigma_min = 0.1/2^J` in arithmetic progression from the last centre frequency down to zero.  If the
first bandwidth is not above `sigma_min` there is no geometric part and the arithmetic part starts
from that bandwidth. -/
def IsBank (J Q : ℕ) (l : List (ℝ × ℝ)) : Prop :=
  (bandwidth Q (xiMax Q) ≤ 0.1 / 2 ^ J ∧
    l = (List.range (Q - 1)).map fun q : ℕ =>
      (bandwidth Q (xiMax Q) * (1 - ((q : ℝ) + 1) / Q), 0.1 / 2 ^ J)) ∨
  ∃ K : ℕ, 0.1 / 2 ^ J < bandwidth Q (xiMax Q) / (2 : ℝ) ^ ((K : ℝ) / Q) ∧
    bandwidth Q (xiMax Q) / (2 : ℝ) ^ ((K : ℝ) / Q) ≤ (2 : ℝ) ^ ((1 : ℝ) / Q) * (0.1 / 2 ^ J) ∧
    l = ((List.range (K + 1)).map fun k : ℕ => (xiMax Q / (2 : ℝ) ^ ((k : ℝ) / Q),
        bandwidth Q (xiMax Q) / (2 : ℝ) ^ ((k : ℝ) / Q))) ++
      (List.range (Q - 1)).map fun q : ℕ =>
        (xiMax Q / (2 : ℝ) ^ ((K : ℝ) / Q) * (1 - ((q : ℝ) + 1) / Q), 0.1 / 2 ^ J)

end Verif.Spec
