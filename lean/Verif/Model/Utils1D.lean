import Verif.Model.Py
import Mathlib.Data.Nat.Log
import Mathlib.Data.Int.Log
import Mathlib.Data.Rat.Floor

/-!
# `kymatio/scattering1d/utils.py` and the parameter handling of `ScatteringBase1D`
-/

namespace Verif

/-! ## `utils.py` -/

/-- `(i // 2) + (i % 2)`, utils.py L37-38. -/
def halfUp (i : Nat) : Nat := i / 2 + i % 2

/-- One of the two dictionaries of `compute_border_indices` (utils.py L34-39): start from
`{0: i}` and for `j` in `range(1, K + 1)` set `d[j] = d[j-1] // 2 + d[j-1] % 2`.
Reading the absent key `j-1` cannot occur; it would leave the key absent here. -/
def borderDict (K i : Nat) : Dict Nat :=
  (List.range' 1 K).foldl (fun d j => Dict.set d j ((d (j - 1)).map halfUp))
    (fun k => if k = 0 then some i else none)

/-- `compute_border_indices(log2_T, J, i0, i1)`, utils.py L4-39. -/
def computeBorderIndices (log2T J i0 i1 : Nat) : Dict Nat × Dict Nat :=
  (borderDict (max log2T J) i0, borderDict (max log2T J) i1)

/-- `compute_padding(N, N_input)`, utils.py L41-68. -/
def computePadding (N Ninput : Nat) : Py (Nat × Nat) :=
  if N < Ninput then .error .value
  else
    let toAdd := N - Ninput
    let padLeft := toAdd / 2
    let padRight := toAdd - padLeft
    if max padLeft padRight ≥ Ninput then .error .value
    else .ok (padLeft, padRight)

/-- The user-supplied `T` (or `F`): `None`, the string `'global'`, or a number.  Numbers are
rationals (every int and every finite float is one). -/
inductive PyT where
  | none
  | global
  | num (t : Rat)

/-- The averaging mode returned by `parse_T`: `'local'`, `'global'` or `False`. -/
inductive Average where
  | loc
  | glob
  | no
  deriving DecidableEq, Repr

/-- `parse_T(T, J, N_input)`, utils.py L71-108.  The order of the tests is that of the code. -/
def parseT (T : PyT) (J Ninput : Nat) : Py (Rat × Average) :=
  match T with
  | .none => .ok ((2 : Rat) ^ J, .loc)
  | .global => .ok ((2 : Rat) ^ J, .glob)
  | .num t =>
    if t > Ninput then .error .value
    else if t = 0 then .ok ((2 : Rat) ^ J, .no)
    else if t < 1 then .error .value
    else .ok (t, .loc)

/-! ## `ScatteringBase1D` parameters -/

/-- A Python number: an `int` or a `float` (`numbers.Integral` distinguishes the two). -/
inductive PyNum where
  | int (n : Int)
  | flt (q : Rat)

/-- The numerical value, as used by `==` and `<`. -/
def PyNum.val : PyNum → Rat
  | .int n => n
  | .flt q => q

/-- `2 ** e` for a Python int `e`: an int if `e ≥ 0`, a float otherwise. -/
def pyTwoPow (e : Int) : PyNum :=
  if 0 ≤ e then .int (2 ^ e.toNat) else .flt ((2 : Rat) ^ e)

/-- The constructor argument `shape`. -/
inductive PyShape where
  | int (n : Nat)
  | tuple (l : List Nat)
  | other

/-- The constructor argument `Q`: an int, a tuple of ints, or something else whose
`np.any(np.array(Q) < 1)` is the given Boolean (e.g. a list or a float). -/
inductive PyQ where
  | int (n : Int)
  | tuple (l : List Int)
  | other (anyLtOne : Bool)

/-- `ScatteringBase1D.Q`, base_frontend.py L276-291. -/
def parseQ (q : PyQ) : Py (Int × Int) :=
  match q with
  | .int n => if n < 1 then .error .value else .ok (n, 1)
  | .tuple l =>
    if l.any (fun x => decide (x < 1)) then .error .value
    else match l with
      | [a] => .ok (a, 1)
      | [a, b] => .ok (a, b)
      | _ => .error .notImpl
  | .other _ => .error .value

/-- `int(math.floor(math.log2(T)))`, base_frontend.py L272-274, in exact arithmetic. -/
def floorLog2 (T : Rat) : Int := Int.log 2 T

/-- `ScatteringBase1D.log2_T`, base_frontend.py L272-274 and L297-299. -/
def log2T (T : PyT) (J Ninput : Nat) : Py Int := do
  let p ← parseT T J Ninput
  .ok (floorLog2 p.1)

/-- Is the integer `n` a power of two, i.e. is `math.log2(n)` an integer
(base_frontend.py L263-264)?  For `n ≥ 1`; in exact arithmetic. -/
def isPow2 (n : Nat) : Bool := 2 ^ Nat.log 2 n == n

/-- `ScatteringBase1D.log2_stride`, base_frontend.py L256-270.  `math.log2` of a
nonpositive int raises `ValueError`. -/
def log2Stride (stride : Option PyNum) (T : PyT) (J Ninput : Nat) : Py Int :=
  match stride with
  | none => log2T T J Ninput
  | some (.flt _) => .error .value
  | some (.int n) =>
    if n ≤ 0 then .error .value
    else if !isPow2 n.toNat then .error .value
    else do
      let p ← parseT T J Ninput
      if p.2 = .no ∨ p.2 = .glob then .error .value
      else .ok (Nat.log 2 n.toNat : Int)

/-- Normalisation of `shape`, base_frontend.py L51-61; returns `N_input = self.shape[0]`. -/
def parseShape (s : PyShape) : Py Nat :=
  match s with
  | .int n => .ok n
  | .tuple l =>
    if l.length > 1 then .error .value
    else listGet l 0
  | .other => .error .value

/-- The oversampling block of `build`, base_frontend.py L63-80: given the constructor
arguments `oversampling` and `stride`, the new value of `self._stride`. -/
def applyOversampling (oversampling : Option PyNum) (stride : Option PyNum)
    (T : PyT) (J Ninput : Nat) : Py (Option PyNum) :=
  match oversampling with
  | none => .ok stride
  | some o =>
    if o.val < 0 then .error .value
    else match o with
      | .flt _ => .error .value
      | .int o =>
        if 0 < o then do
          let lT ← log2T T J Ninput
          match stride with
          | none => .ok (some (pyTwoPow (lT - o)))
          | some s =>
            if s.val = (pyTwoPow (lT - o - 1)).val then .ok (some (pyTwoPow (lT - o)))
            else .error .value
        else .ok stride

/-- `J_pad`, base_frontend.py L89-91: `int(np.floor(np.log2(3N-2)))` is `Nat.log 2 (3N-2)` and
`int(np.ceil(np.log2(N + 2*min_to_pad)))` is `Nat.clog 2 (N + 2*min_to_pad)` in exact
arithmetic. -/
def jPad (Ninput minToPad : Nat) : Nat :=
  min (Nat.clog 2 (Ninput + 2 * minToPad)) (Nat.log 2 (3 * Ninput - 2))

/-- What `build` stores on the object. -/
structure Built1D where
  Ninput : Nat
  Npadded : Nat
  padLeft : Nat
  padRight : Nat
  indStart : Dict Nat
  indEnd : Dict Nat
  stride : Option PyNum

/-- `ScatteringBase1D.build`, base_frontend.py L37-98.  `minToPad` stands for
`3 * compute_temporal_support(gauss_1d(N_input, sigma0/T))` (L83-85), which is modelled in
`FilterBank1D`; every theorem about `build` holds for all values of it. -/
def build1D (shape : PyShape) (J : Nat) (T : PyT) (stride oversampling : Option PyNum)
    (minToPad : Nat) : Py Built1D := do
  let N ← parseShape shape
  let stride' ← applyOversampling oversampling stride T J N
  let lT ← log2T T J N
  let Npadded := 2 ^ jPad N minToPad
  let (l, r) ← computePadding Npadded N
  let (s, e) := computeBorderIndices lT.toNat J l (l + N)
  .ok { Ninput := N, Npadded := Npadded, padLeft := l, padRight := r,
        indStart := s, indEnd := e, stride := stride' }

end Verif
