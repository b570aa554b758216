import Verif.Model.Core1D
import Verif.Model.Utils1D

/-!
# `kymatio/scattering1d/core/timefrequency_scattering.py`

The generators are modelled by the lists of everything they yield; an exception anywhere makes the
whole consumption raise.  The batch axes are left out (one signal).
-/

namespace Verif

/-- The backend operations used by joint time-frequency scattering.  In the code the same functions
act on signals (last axis: time) and on stacks of signals (axes: frequency, time); the types are
separated here.  `subsample x e` is `subsample_fourier(x, 2 ** e)`; `e` may be negative, in which case
`2 ** e` is a float. -/
structure JBackend where
  /-- real signals -/
  R : Type
  /-- complex signals -/
  C : Type
  /-- one resolution of a filter -/
  F : Type
  /-- real stacks -/
  RS : Type
  /-- complex stacks -/
  CS : Type
  rfft : R → Py C
  ifft : C → Py C
  irfft : C → Py R
  modulus : C → Py R
  cdgmm : C → F → Py C
  subsample : C → Int → Py C
  averageGlobal : R → Py R
  stackR : List R → Py RS
  stackC : List C → Py CS
  swapR : RS → Py RS
  swapC : CS → Py CS
  padFrequencyR : RS → Int → Py RS
  padFrequencyC : CS → Int → Py CS
  rfftS : RS → Py CS
  cfftS : CS → Py CS
  ifftS : CS → Py CS
  irfftS : CS → Py RS
  modulusS : CS → Py RS
  cdgmmS : CS → F → Py CS
  subsampleS : CS → Int → Py CS
  averageGlobalS : RS → Py RS
  unpadFrequency : RS → Nat → Nat → Py RS
  /-- `coef_list` of `time_formatting` (L377-381), given `n1_max` and `n1_stride`: the rows of the stack,
  or a list of `None` when the coefficient is `None`. -/
  split : RS → Nat → Nat → Py (List R)

/-- `l[k]` with Python's negative indices. -/
def listGetI {α : Type} (l : List α) (k : Int) : Py α :=
  if 0 ≤ k then listGet l k.toNat
  else if 0 ≤ (l.length : Int) + k then listGet l ((l.length : Int) + k).toNat
  else .error .index

/-- A frequential filter: `'levels'`, `'j'` and the sign of `'xi'`. -/
structure FiltFr (F : Type) where
  levels : List F
  j : Nat
  spin : Int

/-- The frequential low-pass: `'levels'`, `'j'` and `'N'`. -/
structure PhiFr (F : Type) where
  levels : List F
  j : Nat
  N : Nat

/-- A stack yielded by `time_scattering_widthfirst`. -/
structure TPath (α : Type) where
  coef : α
  j : List Int
  n : List Int
  n1Max : Nat

/-- A path yielded by `frequency_scattering`; `'j_fr'` and `'n_fr'` are 1-tuples in the code. -/
structure FPath (α : Type) where
  coef : α
  j : List Int
  n : List Int
  n1Max : Nat
  jFr : Nat
  nFr : Nat
  n1Stride : Nat
  spin : Int

/-- The attribute `format`. -/
inductive Format where
  | time
  | joint
  | other
  deriving DecidableEq

/-- A coefficient: a stack in format `'joint'`, a signal otherwise. -/
inductive JCoef (R RS : Type) where
  | sig (r : R)
  | stk (s : RS)

/-- A path yielded by `jtfs_average_and_format`.  `fr` is `(j_fr, n_fr, spin)`, absent at order zero;
`n1` is `(n1_max, n1_stride)`, deleted by `time_formatting`. -/
structure JPath (R RS : Type) where
  coef : JCoef R RS
  j : List Int
  n : List Int
  order : Nat
  fr : Option (Nat × Nat × Int)
  n1 : Option (Nat × Nat)

namespace JTFS

variable (B : JBackend)

/-- The zeroth order (L117-127). -/
def zeroth (phi : Filt B.F) (ls : Nat) (avg : Bool) (U0 : B.R) (U0hat : B.C) : Py B.R :=
  if avg then do
    let f ← listGet phi.levels 0
    let c ← B.cdgmm U0hat f
    let h ← B.subsample c ls
    B.irfft h
  else .ok U0

/-- `k1 = min(j1, log2_stride) if average_local else j1` (L136, L172). -/
def sub1 (ls : Nat) (avg : Bool) (j1 : Nat) : Nat := if avg then min j1 ls else j1

/-- Body of the loop over `n1` (L133-153): `U_1_hat` and `S_1_r`.  The low-pass is applied whether or not
`average_local`. -/
def first (phi : Filt B.F) (ls : Nat) (avg : Bool) (U0hat : B.C) (psi : Filt B.F) : Py (B.C × B.R) := do
  let f ← listGet psi.levels 0
  let c ← B.cdgmm U0hat f
  let h ← B.subsample c (sub1 ls avg psi.j)
  let y ← B.ifft h
  let m ← B.modulus y
  let U1hat ← B.rfft m
  let g ← listGet phi.levels (sub1 ls avg psi.j)
  let c' ← B.cdgmm U1hat g
  let h' ← B.subsample c' ((ls : Int) - sub1 ls avg psi.j)
  let S ← B.irfft h'
  .ok (U1hat, S)

/-- `k2 = min(j2-k1, log2_stride) if average_local else (j2-k1)` (L175). -/
def sub2 (ls : Nat) (avg : Bool) (j1 j2 : Nat) : Nat :=
  if avg then min (j2 - sub1 ls avg j1) ls else j2 - sub1 ls avg j1

/-- One row of `Y_2` (L175-179). -/
def second (ls : Nat) (avg : Bool) (psi2 : Filt B.F) (u : Nat × B.C) : Py B.C := do
  let f ← listGet psi2.levels (sub1 ls avg u.1)
  let c ← B.cdgmm u.2 f
  let h ← B.subsample c (sub2 ls avg u.1 psi2.j)
  B.ifft h

/-- Body of the loop over `n2` (L166-189); `us` are the pairs `(j1, U_1_hat)`. -/
def stack2 (ls : Nat) (avg : Bool) (us : List (Nat × B.C)) (psi2 : Filt B.F) (n2 : Nat) :
    Py (List (TPath B.CS)) := do
  let ys ← (us.filter fun u => decide (psi2.j > u.1)).mapM (second B ls avg psi2)
  if ys.length > 0 then do
    let Y ← B.stackC ys
    .ok [⟨Y, [-1, (psi2.j : Int)], [-1, (n2 : Int)], ys.length⟩]
  else .ok []

/-- `time_scattering_widthfirst` (L84-189). -/
def widthFirst (U0 : B.R) (phi : Filt B.F) (psi1 psi2 : List (Filt B.F)) (ls : Nat) (avg : Bool) :
    Py (B.R × TPath B.RS × List (TPath B.CS)) := do
  let U0hat ← B.rfft U0
  let S0 ← zeroth B phi ls avg U0 U0hat
  let l ← psi1.mapM (first B phi ls avg U0hat)
  let S1 ← B.stackR (l.map Prod.snd)
  let Y2 ← Core1D.forEnum (stack2 B ls avg (List.zip (psi1.map fun p => p.j) (l.map Prod.fst))) psi2 0
  .ok (S0, ⟨S1, [-1], [-1], l.length⟩, Y2)

/-- `k_fr = min(j_fr, log2_stride_fr) if average_local_fr else j_fr` (L263). -/
def subFr (lsFr : Nat) (avgFr : Bool) (j : Nat) : Nat := if avgFr then min j lsFr else j

/-- Body of the loop of `frequency_scattering` (L260-275). -/
def frBody (lsFr : Nat) (avgFr : Bool) (j n : List Int) (n1Max : Nat) (Xhat : B.CS) (psi : FiltFr B.F)
    (nFr : Nat) : Py (List (FPath B.CS)) := do
  let f ← listGet psi.levels 0
  let c ← B.cdgmmS Xhat f
  let h ← B.subsampleS c (subFr lsFr avgFr psi.j)
  let y ← B.ifftS h
  let Y ← B.swapC y
  .ok [⟨Y, j, n.tail ++ [(nFr : Int)], n1Max, psi.j, nFr, 2 ^ psi.j, psi.spin⟩]

/-- `frequency_scattering(X, ..., spinned=False)` (L192-275): real input, filters with `xi >= 0`. -/
def frequencyReal (phi : PhiFr B.F) (psis : List (FiltFr B.F)) (lsFr : Nat) (avgFr : Bool)
    (X : TPath B.RS) : Py (List (FPath B.CS)) := do
  let XT ← B.swapR X.coef
  let Xp ← B.padFrequencyR XT ((phi.N : Int) - X.n1Max)
  let Xhat ← B.rfftS Xp
  Core1D.forEnum (frBody B lsFr avgFr X.j X.n X.n1Max Xhat) (psis.filter fun p => decide (0 ≤ p.spin)) 0

/-- `frequency_scattering(X, ..., spinned=True)`: complex input, all filters. -/
def frequencyComplex (phi : PhiFr B.F) (psis : List (FiltFr B.F)) (lsFr : Nat) (avgFr : Bool)
    (X : TPath B.CS) : Py (List (FPath B.CS)) := do
  let XT ← B.swapC X.coef
  let Xp ← B.padFrequencyC XT ((phi.N : Int) - X.n1Max)
  let Xhat ← B.cfftS Xp
  Core1D.forEnum (frBody B lsFr avgFr X.j X.n X.n1Max Xhat) psis 0

/-- `joint_timefrequency_scattering` (L4-81): the zeroth order and the list of the other paths. -/
def joint (U0 : B.R) (phi : Filt B.F) (psi1 psi2 : List (Filt B.F)) (ls : Nat) (avg : Bool)
    (phiFr : PhiFr B.F) (psisFr : List (FiltFr B.F)) (lsFr : Nat) (avgFr : Bool) :
    Py (B.R × List (FPath B.CS)) := do
  let t ← widthFirst B U0 phi psi1 psi2 ls avg
  let y1 ← frequencyReal B phiFr psisFr lsFr avgFr t.2.1
  let y2 ← t.2.2.mapM (frequencyComplex B phiFr psisFr lsFr avgFr)
  .ok (t.1, y1 ++ y2.flatten)

/-- `time_averaging` (L278-315) on the coefficient; `j` is `U_2['j']`. -/
def timeAveraging (phi : Filt B.F) (ls : Nat) (j : List Int) (U : B.RS) : Py B.RS :=
  match j.getLast? with
  | none => .error .index
  | some kIn => do
    let h ← B.rfftS U
    let f ← listGetI phi.levels kIn
    let c ← B.cdgmmS h f
    let s ← B.subsampleS c ((ls : Int) - kIn)
    B.irfftS s

/-- `frequency_averaging` (L318-373) with `average_fr` `'global'` or `'local'`: the coefficient and
`n1_stride`.  (The case `average_fr=False` returns the input with the stride it already has.) -/
def frequencyAveraging (phiFr : PhiFr B.F) (lsFr : Nat) (glob : Bool) (n1Max jFr : Nat) (U : B.RS) :
    Py (B.RS × Nat) := do
  let UT ← B.swapR U
  if glob then do
    let S ← B.averageGlobalS UT
    let S' ← B.swapR S
    .ok (S', n1Max)
  else do
    let h ← B.rfftS UT
    let f ← listGet phiFr.levels (min jFr phiFr.j)
    let c ← B.cdgmmS h f
    let s ← B.subsampleS c ((lsFr : Int) - (min jFr phiFr.j : Nat))
    let S ← B.irfftS s
    let S' ← B.swapR S
    .ok (S', 2 ^ lsFr)

/-- `range(0, n1_max, n1_stride)`. -/
def n1Range (n1Max n1Stride : Nat) : List Nat :=
  (List.range ((n1Max + n1Stride - 1) / n1Stride)).map fun i => i * n1Stride

/-- `time_formatting` (L376-392): one path for each `n1`.  `coef_list[i]` may raise `IndexError`.
The `'order'` is `len(path["n"]) - 1` for the `n` before `n1` is put in front. -/
def timeFormatting (p : FPath B.RS) : Py (List (JPath B.R B.RS)) := do
  let l ← B.split p.coef p.n1Max p.n1Stride
  Core1D.forEnum (fun (n1 : Nat) i => do
    let c ← listGet l i
    .ok [⟨.sig c, p.j, (n1 : Int) :: p.n, p.n.length - 1, some (p.jFr, p.nFr, p.spin), none⟩])
    (n1Range p.n1Max p.n1Stride) 0

/-- Temporal averaging of a path (L411-427). -/
def averageTime (phi : Filt B.F) (ls : Nat) (average : Average) (p : FPath B.CS) (U : B.RS) : Py B.RS :=
  if average = .glob then B.averageGlobalS U
  else if average = .loc ∧ p.n.length > 1 then timeAveraging B phi ls p.j U
  else .ok U

/-- Frequential averaging of a path unless its spin is zero (L429-433). -/
def averageFreq (phiFr : PhiFr B.F) (lsFr : Nat) (averageFr : Average) (p : FPath B.CS) (U : B.RS) :
    Py (B.RS × Nat) :=
  if averageFr ≠ .no ∧ p.spin ≠ 0 then
    frequencyAveraging B phiFr lsFr (decide (averageFr = .glob)) p.n1Max p.jFr U
  else .ok (U, p.n1Stride)

/-- Frequential unpadding unless the output is a joint array (L435-438). -/
def unpadFr (arrayOut : Bool) (fmt : Format) (n1Max stride : Nat) (U : B.RS) : Py B.RS :=
  if ¬ (arrayOut = true ∧ fmt = .joint) then B.unpadFrequency U n1Max stride else .ok U

/-- Formatting (L440-444).  Another format yields nothing. -/
def formatPath (fmt : Format) (p : FPath B.RS) : Py (List (JPath B.R B.RS)) :=
  match fmt with
  | .joint => .ok [⟨.stk p.coef, p.j, p.n, p.n.length, some (p.jFr, p.nFr, p.spin), some (p.n1Max, p.n1Stride)⟩]
  | .time => timeFormatting B p
  | .other => .ok []

/-- Body of the loop of `jtfs_average_and_format` (L405-444). -/
def averageBody (phi : Filt B.F) (ls : Nat) (average : Average) (phiFr : PhiFr B.F) (lsFr : Nat)
    (averageFr : Average) (arrayOut : Bool) (fmt : Format) (p : FPath B.CS) :
    Py (List (JPath B.R B.RS)) := do
  let U ← B.modulusS p.coef
  let U' ← averageTime B phi ls average p U
  let S ← averageFreq B phiFr lsFr averageFr p U'
  let S' ← unpadFr B arrayOut fmt p.n1Max S.2 S.1
  formatPath B fmt ⟨S', p.j, p.n, p.n1Max, p.jFr, p.nFr, S.2, p.spin⟩

/-- The zeroth order of `jtfs_average_and_format` (L397-402). -/
def averageZeroth (average : Average) (U : B.R) : Py B.R :=
  if average = .glob then B.averageGlobal U else .ok U

/-- `jtfs_average_and_format` (L395-444). -/
def averageAndFormat (g : B.R × List (FPath B.CS)) (phi : Filt B.F) (ls : Nat) (average : Average)
    (phiFr : PhiFr B.F) (lsFr : Nat) (averageFr : Average) (arrayOut : Bool) (fmt : Format) :
    Py (List (JPath B.R B.RS)) := do
  let z ← averageZeroth B average g.1
  let l ← g.2.mapM (averageBody B phi ls average phiFr lsFr averageFr arrayOut fmt)
  .ok (⟨.sig z, [], [], 0, none, none⟩ :: l.flatten)

end JTFS

end Verif
