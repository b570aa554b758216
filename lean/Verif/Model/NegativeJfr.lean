import Verif.Model.NegativeJ
import Verif.Model.FloatF

/-!
# Any integer as `J_fr`

kymatio/scattering1d/frontend/base_frontend.py L525-579, L719-759, core/timefrequency_scattering.py L246-248.

`J_fr` is a natural number in `Model/ObjectJTFS`.  The constructor of `TimeFrequencyScattering` does not check that, so
here it is an integer.  `F` is an int when it is a number, as in `JArgs`.  For negative `J_fr`, `2 ** self.J_fr` is a
float less than 1, so `min_to_pad_fr = 8 * min(self.F, 2 ** self.J_fr)` (L557) is a float whatever `F` is, and so are
`_N_padded_fr` (L567) and `phi['N']`, with an integral value.  As in `Model/FloatF`, the filters do not depend on the
type of `N`, and `pad_frequency` raises `TypeError` for a float width.
-/

namespace Verif

/-- Constructor arguments (base_frontend.py L525-537). -/
structure JArgsZ where
  J : Nat
  Jfr : ℤ
  Q : PyQ
  shape : PyShape
  T : PyT
  stride : Option PyNum
  Qfr : PyQ
  F : PyT
  strideFr : Option PyNum
  outType : OutType
  fmt : Format

/-- The arguments with another `J_fr`, a natural number. -/
def JArgsZ.withJfr (a : JArgsZ) (Jfr : Nat) : JArgs :=
  ⟨a.J, Jfr, a.Q, a.shape, a.T, a.stride, a.Qfr, a.F, a.strideFr, a.outType, a.fmt⟩

/-- Natural numbers are integers. -/
def JArgs.toZ (a : JArgs) : JArgsZ :=
  ⟨a.J, a.Jfr, a.Q, a.shape, a.T, a.stride, a.Qfr, a.F, a.strideFr, a.outType, a.fmt⟩

/-- The base class part: `max_order=2`, `oversampling=None` (L528-531). -/
def JArgsZ.base (a : JArgsZ) : Args1D := ⟨a.J, a.shape, a.Q, a.T, a.stride, 2, none, a.outType⟩

/-- The value of `_N_padded_fr` (L556-567): `oversampling_fr` is 0, so `K_fr = max(J_fr, 0)`. -/
def nPaddedFrZ (Jfr : ℤ) (Ninput : Nat) (F : Rat) : Nat :=
  (⌊(Ninput : Rat) + 8 * min F ((2 : Rat) ^ Jfr)⌋ / 2 ^ Jfr.toNat).toNat * 2 ^ Jfr.toNat

open Classical in
/-- The frequential filters (L569-579); `scattering_filter_factory` only passes `J_fr` on to the generator. -/
noncomputable def createFiltersFrZ (N : Nat) (Jfr : ℤ) (Qfr : Nat) (F : Rat) : Py (FiltX × List FiltX) := do
  let r0 ← filterFactory false N 0 [] F (spin fun _ Q => andenZ Jfr Q) 5 0.1
  let r1 ← filterFactory false N 0 [Qfr] ((2 : Rat) ^ Jfr) (spin fun _ Q => andenZ Jfr Q) 5 0.1
  match r1.2 with
  | [psis] => if ∀ p ∈ psis, |p.xi| < 0.5 / (2 : ℝ) ^ p.j then .ok (r0.1, r1.1 :: psis) else .error .assertion
  | _ => .error .value

/-- `build` then `create_filters` (L539-579). -/
noncomputable def JArgsZ.make (a : JArgsZ) : Py ScJ := do
  let s ← a.base.make
  let Q ← parseQ a.Q
  let q ← parseQfr a.Qfr
  let F ← parseTZ a.F a.Jfr ((a.J + 1) * Q.1.toNat)
  let N := nPaddedFrZ a.Jfr ((a.J + 1) * Q.1.toNat) F.1
  let f ← createFiltersFrZ N a.Jfr q.toNat F.1
  .ok ⟨s, f.1, f.2, N, F.2⟩

/-- The object as seen by `scattering`.  A negative `phi['j']` is replaced by 0: a call that would read it raises
`TypeError` before. -/
noncomputable def JArgsZ.obj (a : JArgsZ) (s : ScJ) (Q1 : Nat) : JObj (List ℝ) :=
  ⟨s.base.built.padLeft, s.base.built.padRight, s.base.built.indStart, s.base.built.indEnd,
    s.base.phi.toFilt, s.base.psi1.map FiltX.toFilt, s.base.psi2.map FiltX.toFilt,
    log2Stride s.base.built.stride a.T a.J s.base.built.Ninput, s.base.average,
    ⟨s.phiFr.levels, s.phiFr.j.toNat, s.nFr⟩, s.psisFr.map FiltX.toFiltFr,
    log2StrideZ a.strideFr a.F a.Jfr ((a.J + 1) * Q1), s.averageFr, a.outType, a.fmt⟩

/-- `TimeFrequencyScattering(...)(x)` with numpy.  `log2_stride_fr` may be negative; a call that would use it raises
`TypeError` before. -/
noncomputable def JArgsZ.run (a : JArgsZ) (x : List ℝ) : Py (JOut (List ℝ) (Img ℝ)) := do
  let s ← a.make
  let Q ← parseQ a.Q
  if a.Jfr < 0 then FrontJ.scattering npJ.floatPad npFrontJ (a.obj s Q.1.toNat) x
  else FrontJ.scattering npJ npFrontJ (a.obj s Q.1.toNat) x

/-- The same with torch (`JArgs.runTorch`). -/
noncomputable def JArgsZ.runTorch (a : JArgsZ) (x : List ℝ) : Py (JOut (List ℝ) (Img ℝ)) := do
  let s ← a.make
  let Q ← parseQ a.Q
  let S ← if a.Jfr < 0 then FrontJ.unassembled torchJ.floatPad torchFrontJ (a.obj s Q.1.toNat) x
    else FrontJ.unassembled torchJ torchFrontJ (a.obj s Q.1.toNat) x
  let S' ← S.mapM (FrontJ.torchReshape (a.obj s Q.1.toNat))
  FrontJ.assemble torchFrontJ (a.obj s Q.1.toNat) S'

end Verif
