import Verif.Model.Object1D
import Verif.Model.Object2D
import Verif.Model.Object3D

/-!
# Any integer as `J`

`J` is a natural number in `Model/Object1D`, `Model/Object2D` and `Model/Object3D`.  No constructor checks that, so here
`J` is an integer.  In Python `2 ** J` is a float for negative `J`.  Only the steps that read `J` are written again, for
the numpy backend.
-/

namespace Verif

/-! ## One dimension -/

/-- Constructor arguments (scattering1d/frontend/base_frontend.py L16-35). -/
structure ArgsZ1D where
  J : ℤ
  shape : PyShape
  Q : PyQ
  T : PyT
  stride : Option PyNum
  maxOrder : Int
  oversampling : Option PyNum
  outType : OutType

/-- `parse_T(T, J, N_input)`, scattering1d/utils.py L71-108. -/
def parseTZ (T : PyT) (J : ℤ) (Ninput : Nat) : Py (Rat × Average) :=
  match T with
  | .none => .ok ((2 : Rat) ^ J, .loc)
  | .global => .ok ((2 : Rat) ^ J, .glob)
  | .num t =>
    if t > Ninput then .error .value
    else if t = 0 then .ok ((2 : Rat) ^ J, .no)
    else if t < 1 then .error .value
    else .ok (t, .loc)

/-- `log2_T`, base_frontend.py L272-274. -/
def log2TZ (T : PyT) (J : ℤ) (Ninput : Nat) : Py Int := do
  let p ← parseTZ T J Ninput
  .ok (floorLog2 p.1)

/-- `log2_stride`, base_frontend.py L256-270. -/
def log2StrideZ (stride : Option PyNum) (T : PyT) (J : ℤ) (Ninput : Nat) : Py Int :=
  match stride with
  | none => log2TZ T J Ninput
  | some (.flt _) => .error .value
  | some (.int n) =>
    if n ≤ 0 then .error .value
    else if !isPow2 n.toNat then .error .value
    else do
      let p ← parseTZ T J Ninput
      if p.2 = .no ∨ p.2 = .glob then .error .value
      else .ok (Nat.log 2 n.toNat : Int)

/-- The oversampling block of `build`, base_frontend.py L63-80. -/
def applyOversamplingZ (oversampling : Option PyNum) (stride : Option PyNum)
    (T : PyT) (J : ℤ) (Ninput : Nat) : Py (Option PyNum) :=
  match oversampling with
  | none => .ok stride
  | some o =>
    if o.val < 0 then .error .value
    else match o with
      | .flt _ => .error .value
      | .int o =>
        if 0 < o then do
          let lT ← log2TZ T J Ninput
          match stride with
          | none => .ok (some (pyTwoPow (lT - o)))
          | some s =>
            if s.val = (pyTwoPow (lT - o - 1)).val then .ok (some (pyTwoPow (lT - o)))
            else .error .value
        else .ok stride

/-- `compute_border_indices(log2_T, J, i0, i1)`, utils.py L4-39: `range(1, max(log2_T, J) + 1)` is empty when both are
negative. -/
def computeBorderIndicesZ (log2T J : ℤ) (i0 i1 : Nat) : Dict Nat × Dict Nat :=
  (borderDict (max log2T J).toNat i0, borderDict (max log2T J).toNat i1)

/-- `build`, base_frontend.py L37-98. -/
def build1DZ (shape : PyShape) (J : ℤ) (T : PyT) (stride oversampling : Option PyNum)
    (minToPad : Nat) : Py Built1D := do
  let N ← parseShape shape
  let stride' ← applyOversamplingZ oversampling stride T J N
  let lT ← log2TZ T J N
  let Npadded := 2 ^ jPad N minToPad
  let (l, r) ← computePadding Npadded N
  let (s, e) := computeBorderIndicesZ lT J l (l + N)
  .ok { Ninput := N, Npadded := Npadded, padLeft := l, padRight := r,
        indStart := s, indEnd := e, stride := stride' }

open Classical in
/-- `anden_generator(J, Q, sigma0, r_psi)`, filter_bank.py L254-311. -/
noncomputable def andenGeneratorZ (J : ℤ) (Q : Nat) (sigma0 r : ℝ) : Option (List (ℝ × ℝ)) :=
  let xi := computeXiMax Q
  let sigma := computeSigmaPsi xi Q r
  let sigmaMin := sigma0 / (2 : ℝ) ^ J
  if sigma ≤ sigmaMin then some (arithPart Q sigma sigmaMin (Q - 1) sigma)
  else
    (runWhile (fun s : ℝ × ℝ => s.2 > sigmaMin * (2 : ℝ) ^ ((1 : ℝ) / Q))
      (fun s => (s.1 / (2 : ℝ) ^ ((1 : ℝ) / Q), s.2 / (2 : ℝ) ^ ((1 : ℝ) / Q))) (xi, sigma)).map
      fun r => (xi, sigma) :: r.1 ++ arithPart Q r.2.1 sigmaMin (Q - 1) r.2.1

/-- The filterbank of `Scattering1D` (base_frontend.py L46-48, L250-254). -/
noncomputable def andenZ (J : ℤ) (Q : Nat) : List (ℝ × ℝ) :=
  (andenGeneratorZ J Q 0.1 (Real.sqrt 0.5)).getD []

/-- `scattering_filter_factory` (filter_bank.py L322-404) and `create_filters` (base_frontend.py L100-104): `J` is only
passed on to the generator. -/
noncomputable def createFiltersZ (Npadded : Nat) (J : ℤ) (Q1 Q2 : Nat) (T : Rat) :
    Py (FiltX × List FiltX × List FiltX) := do
  let r ← filterFactory false Npadded 0 [Q1, Q2] T (fun _ Q => andenZ J Q) 5 0.1
  match r.2 with
  | [psi1, psi2] => do
    let _ ← checkFilterbanks psi1 psi2
    .ok (r.1, psi1, psi2)
  | _ => .error .value

/-- Construction of the object: `build` then `create_filters`. -/
noncomputable def ArgsZ1D.make (a : ArgsZ1D) : Py Sc1D := do
  let N ← parseShape a.shape
  let T ← parseTZ a.T a.J N
  let b ← build1DZ a.shape a.J a.T a.stride a.oversampling (minToPad N T.1)
  let Q ← parseQ a.Q
  let f ← createFiltersZ b.Npadded a.J Q.1.toNat Q.2.toNat T.1
  .ok ⟨b, f.1, f.2.1, f.2.2, T.2⟩

/-- The object as seen by `scattering`. -/
def ArgsZ1D.obj (a : ArgsZ1D) (s : Sc1D) : Obj1D (List ℝ) :=
  ⟨s.built.padLeft, s.built.padRight, s.built.indStart, s.built.indEnd, s.phi.toFilt,
    s.psi1.map FiltX.toFilt, s.psi2.map FiltX.toFilt, a.maxOrder,
    log2StrideZ s.built.stride a.T a.J s.built.Ninput, s.average,
    oversamplingInt a.oversampling, a.outType⟩

/-- `scattering(x)` (base_frontend.py L106-155) when `log2_stride` may be negative.  With local averaging the core then
computes `cdgmm(rfft(U_0), phi['levels'][0])` and calls `subsample_fourier(., 2**log2_stride)` with a float
(core/scattering1d.py L38-49); its `reshape` raises `TypeError` (backend/numpy_backend.py L28).  Without it the core does
not use `log2_stride`. -/
noncomputable def scatteringZ (o : Obj1D (List ℝ)) (x : List ℝ) : Py (Out1D (List ℝ)) := do
  Front1D.checkRuntimeArgs o
  let U0 ← npPad x o.padLeft o.padRight
  let ls ← o.log2Stride
  if ls < 0 ∧ o.average = .loc then do
    let U0hat ← npBackend.rfft U0
    let _ ← listGet (sliceTo [[], o.psi1, o.psi2] (1 + o.maxOrder)) 0
    let f ← listGet o.phi.levels 0
    let _ ← npBackend.cdgmm U0hat f
    .error .type
  else do
    let out ← Core1D.scattering1d npBackend U0 o.phi (Front1D.psis o) ls.toNat (decide (o.average = .loc))
    let out' ← out.mapM (Front1D.post npFront o ls.toNat)
    Front1D.assemble npFront o out'

/-- `Scattering1D(J, shape, Q, ...)(x)`. -/
noncomputable def ArgsZ1D.run (a : ArgsZ1D) (x : List ℝ) : Py (Out1D (List ℝ)) := do
  let s ← a.make
  scatteringZ (a.obj s) x

/-! ## Two dimensions -/

/-- Constructor arguments of `ScatteringNumPy2D` (scattering2d/frontend/numpy_frontend.py L7-8). -/
structure ArgsZ2D where
  J : ℤ
  M : Nat
  N : Nat
  L : Nat
  maxOrder : Int
  prePad : Bool
  outType : OutType2

/-- One side of `compute_padding(M, N, J)`, scattering2d/utils.py L21-22; `//` on floats is the floor of the quotient. -/
def padded2Z (M : Nat) (J : ℤ) : PyNum :=
  if 0 ≤ J then .int (padded2 M J.toNat)
  else .flt ((⌊((M : ℚ) + 2 ^ J) / 2 ^ J⌋ + 1) * 2 ^ J)

/-- A side of `np.zeros((M, N), np.complex64)` in `gabor_2d` (filter_bank.py L154), the first use of the padded sizes
that needs integers: `TypeError` for a float. -/
def zerosSide : PyNum → Py Nat
  | .int n => .ok n.toNat
  | .flt _ => .error .type

/-- `build` (base_frontend.py L19-32) and `create_filters` (L34-36).  `range(J)` is empty for negative `J`, and the
low-pass filter is computed for every `J` (filter_bank.py L29-46). -/
noncomputable def ArgsZ2D.make (a : ArgsZ2D) : Py Sc2D :=
  if (2 : ℚ) ^ a.J > a.M ∨ (2 : ℚ) ^ a.J > a.N then .error .runtime
  else do
    let Mp ← zerosSide (padded2Z a.M a.J)
    let Np ← zerosSide (padded2Z a.N a.J)
    let f := filterBank2 Mp Np a.J.toNat a.L
    .ok ⟨Mp, Np, f.1, f.2⟩

/-! ## Three dimensions -/

/-- Constructor arguments (scattering3d/frontend/numpy_frontend.py L8-9). -/
structure ArgsZ3D where
  J : ℤ
  shape : Idx3
  L : ℕ
  sigma0 : ℝ
  maxOrder : ℤ
  rot : Bool
  powers : List ℝ

/-- `create_filters` (base_frontend.py L25-30): `np.zeros((J + 1, 2 * l + 1, M, N, O))` raises `ValueError` for a negative
dimension (filter_bank.py L34), as does `np.zeros((J + 2, M, N, O))` (L65).  The loops over `range(J + 1)` fill the rest. -/
noncomputable def ArgsZ3D.make (a : ArgsZ3D) (Y : ℤ → ℕ → ℝ → ℝ → ℂ) : Py (List (List (List (Vol ℂ)))) := do
  let filters ← (List.range (a.L + 1)).mapM fun l =>
    if a.J + 1 < 0 then .error .value
    else .ok ((List.range (a.J + 1).toNat).map fun j => solidHarmonic3d Y a.shape (a.sigma0 * 2 ^ j) l true)
  if a.J + 2 < 0 then .error .value
  else .ok filters

/-- Body of the loop over `l` of the core (core/scattering3d.py L27-63), `range(J + 1)` for an integer `J`. -/
noncomputable def perLZ (B : Backend3D) (rot : Bool) (J : ℤ) (maxOrder : Int) (filters : List (List (List B.F)))
    (U0c : B.C) (l : Nat) : Py (List B.A × List B.A) := do
  let fl ← listGet filters l
  let r ← (List.range (J + 1).toNat).mapM (Core3D.order1 B rot J.toNat maxOrder fl U0c)
  .ok (r.map Prod.fst, (r.map Prod.snd).flatten)

/-- `HarmonicScattering3D(J, shape, ...)(x)` on one volume (numpy_frontend.py L22-49, core/scattering3d.py L1-75). -/
noncomputable def ArgsZ3D.run (a : ArgsZ3D) (Y : ℤ → ℕ → ℝ → ℝ → ℂ) (x : Vol ℝ) : Py (List (List (List ℝ))) := do
  let filters ← a.make Y
  if x.shape ≠ a.shape then .error .runtime
  else do
    let U0c ← (np3Backend a.powers).rfft x
    let s ← (List.range (a.L + 1)).mapM (perLZ (np3Backend a.powers) a.rot a.J a.maxOrder filters U0c)
    let s1 := s.map Prod.fst
    let s2 := s.map Prod.snd
    let S := if a.maxOrder = 2 then List.zipWith (fun x y => x ++ y) s1 s2 else s1
    Core3D.stackRows (zipStar S).flatten a.L

end Verif
