import Verif.Model.Frontend1D
import Verif.Model.FilterBank1D

/-!
# Construction of a `Scattering1D` object

`ScatteringNumPy1D.__init__` (scattering1d/frontend/numpy_frontend.py L6-16): the base constructor,
then `build()`, then `create_filters()`.
-/

namespace Verif

/-- Constructor arguments (scattering1d/frontend/base_frontend.py L16-35).  `J` is a
nonnegative integer here; the code does not check that. -/
structure Args1D where
  J : Nat
  shape : PyShape
  Q : PyQ
  T : PyT
  stride : Option PyNum
  maxOrder : Int
  oversampling : Option PyNum
  outType : OutType

/-- `min_to_pad` of `build` (L82-85): three times the temporal support of the low-pass at the input
length. -/
noncomputable def minToPad (N : Nat) (T : Rat) : Nat :=
  3 * computeTemporalSupport [gauss1d N (0.1 / T)] N 1e-3

/-- Everything the constructor stores. -/
structure Sc1D where
  built : Built1D
  phi : FiltX
  psi1 : List FiltX
  psi2 : List FiltX
  average : Average

/-- The integer value of `self._oversampling` once `build` has accepted it. -/
def oversamplingInt : Option PyNum → Option Int
  | some (.int n) => some n
  | _ => none

/-- Construction of the object: `build` then `create_filters`.  The properties `T`, `Q`, `average`
are evaluated from the constructor arguments each time they are read; they are evaluated once here,
where `build` first needs them. -/
noncomputable def Args1D.make (a : Args1D) : Py Sc1D := do
  let N ← parseShape a.shape
  let T ← parseT a.T a.J N
  let b ← build1D a.shape a.J a.T a.stride a.oversampling (minToPad N T.1)
  let Q ← parseQ a.Q
  let f ← createFilters b.Npadded a.J Q.1.toNat Q.2.toNat T.1
  .ok ⟨b, f.1, f.2.1, f.2.2, T.2⟩

/-- The object as seen by `scattering` and `meta`. -/
def Args1D.obj (a : Args1D) (s : Sc1D) : Obj1D (List ℝ) :=
  ⟨s.built.padLeft, s.built.padRight, s.built.indStart, s.built.indEnd, s.phi.toFilt,
    s.psi1.map FiltX.toFilt, s.psi2.map FiltX.toFilt, a.maxOrder,
    log2Stride s.built.stride a.T a.J s.built.Ninput, s.average,
    oversamplingInt a.oversampling, a.outType⟩

/-- `Scattering1D(J, shape, Q, ...)(x)` with the numpy backend, on one signal. -/
noncomputable def Args1D.run (a : Args1D) (x : List ℝ) : Py (Out1D (List ℝ)) := do
  let s ← a.make
  Front1D.scattering npBackend npFront (a.obj s) x

end Verif
