import Verif.Model.Object1D
import Verif.Model.ObjectJTFS

/-!
# The parameters read back from an object

`ScatteringTransformer1D` and `TimeFrequencyScatteringTransformer` inherit from `sklearn.base.BaseEstimator`
(frontend/sklearn_frontend.py L4, scattering1d/frontend/sklearn_frontend.py L7-15).  `get_params()` of that class takes the
names of the parameters of `__init__` and reads the attribute of each name; `sklearn.base.clone`, used by cross validation and
grid search, constructs a new object with these values.  In `ScatteringBase1D` the attributes `Q`, `T`, `stride`, `oversampling`
are properties, and `build` replaces `shape`.

The values are taken as they are: copies made by `clone` and its check that the new object stores the very same Python objects
are not modelled, nor is `backend`, which is the module that the constructor accepts as well (`Select`).
-/

namespace Verif

/-- `S.get_params()` of a constructed 1-D object: `shape` is a 1-tuple after `build` (scattering1d/frontend/base_frontend.py
L51-52); `Q` (L276-291), `T` (L297-299), `stride` (L293-295) and `oversampling` (L239-244) are properties; `J`, `max_order` and
`out_type` are stored as given (L20-26).  The warning of `oversampling` is not modelled. -/
def Args1D.params (a : Args1D) (s : Sc1D) : Py Args1D := do
  let Q ← parseQ a.Q
  let T ← parseT a.T a.J s.built.Ninput
  let k ← log2Stride s.built.stride a.T a.J s.built.Ninput
  .ok ⟨a.J, .tuple [s.built.Ninput], .tuple [Q.1, Q.2], .num T.1, some (pyTwoPow k), a.maxOrder, a.oversampling, a.outType⟩

/-- `S.get_params()` of a constructed time-frequency object: in addition `Q_fr` is a 1-tuple after `build` (L547-548), `F`
(L726-729) and `stride_fr` (L757-759) are properties, and `J_fr`, `format` are stored as given (L532-537). -/
def JArgs.params (a : JArgs) (s : ScJ) : Py JArgs := do
  let Q ← parseQ a.Q
  let T ← parseT a.T a.J s.base.built.Ninput
  let k ← log2Stride s.base.built.stride a.T a.J s.base.built.Ninput
  let q ← parseQfr a.Qfr
  let F ← parseT a.F a.Jfr ((a.J + 1) * Q.1.toNat)
  let l ← log2Stride a.strideFr a.F a.Jfr ((a.J + 1) * Q.1.toNat)
  .ok ⟨a.J, a.Jfr, .tuple [Q.1, Q.2], .tuple [s.base.built.Ninput], .num T.1, some (pyTwoPow k), .tuple [q], .num F.1,
    some (pyTwoPow l), a.outType, a.fmt⟩

end Verif
