import Verif.Model.Py
import Mathlib.Data.Complex.Basic
import Mathlib.Analysis.Real.Sqrt

/-!
# CUDA kernels and the stable modulus

`kymatio/scattering1d/backend/torch_skcuda_backend.py` L30-166,
`kymatio/scattering2d/backend/torch_skcuda_backend.py` L31-171,
`kymatio/backend/torch_backend.py` L5-96.

Integers of the kernels do not overflow and floating-point arithmetic is exact.  The macros
`#define NT T / k` have no parentheses: `i * NT` is `i * T / k`, evaluated from left to right.
-/

namespace Verif

namespace Cuda

/-- `(x, y, z)` of a grid, of a block or of an index. -/
structure Dim3 where
  x : Nat
  y : Nat
  z : Nat

/-- A thread: `blockIdx` and `threadIdx`. -/
structure Thread where
  block : Dim3
  thread : Dim3

/-- The threads of a launch. -/
def InGrid (grid block : Dim3) (t : Thread) : Prop :=
  t.block.x < grid.x ∧ t.block.y < grid.y ∧ t.block.z < grid.z ∧
    t.thread.x < block.x ∧ t.thread.y < block.y ∧ t.thread.z < block.z

/-- What one thread does: the address it writes and the addresses it reads. -/
structure Access where
  write : Nat
  reads : List Nat

/-- `get_blocks(N, threads)` (1-D L123-124, 2-D L64-65). -/
def getBlocks (n threads : Nat) : Nat := (n + threads - 1) / threads

/-- The memory after the threads of a list have run one after the other.  `value` is the value a thread
computes from the numbers it reads. -/
def exec {α : Type} (kernel : Thread → Option Access) (value : List α → α) (input : Nat → α)
    (ts : List Thread) (mem : Nat → α) : Nat → α :=
  ts.foldl (fun m t => match kernel t with
    | none => m
    | some a => fun i => if i = a.write then value (a.reads.map input) else m i) mem

/-! ## 1-D -/

/-- Kernel `periodize` of 1-D (L133-156); addresses count complex numbers. -/
def periodize1 (block : Dim3) (B T k : Nat) (t : Thread) : Option Access :=
  let tx := t.block.x * block.x + t.thread.x
  let ty := t.block.y * block.y + t.thread.y
  if tx ≥ T / k ∨ ty ≥ B then none
  else some ⟨ty * T / k + tx, (List.range k).map fun i => ty * T + tx + i * T / k⟩

/-- `res` of the kernel (L146-154): the sum of the numbers read, divided by `k`. -/
noncomputable def value1 (k : Nat) (l : List ℂ) : ℂ := l.foldl (· + ·) 0 / k

/-- `self.block` (L120). -/
def block1 : Dim3 := ⟨1024, 1, 1⟩

/-- Number of complex numbers of the output of `SubsampleFourier.__call__` (L131) for an input of shape
`shape + (2,)`. -/
def outSize1 (shape : List Nat) (k : Nat) : Nat :=
  shape.dropLast.prod * (shape.getLastD 0 / k)

/-- The grid (L160-162): `out.shape[-2]` is `T // k` for the last axis, `out.nelement()` is twice the number of
complex numbers.  A zero length is a division by zero. -/
def grid1 (shape : List Nat) (k : Nat) : Py Dim3 :=
  if k = 0 then .error .zeroDiv
  else
    let n := shape.getLastD 0 / k
    if n = 0 then .error .zeroDiv
    else .ok ⟨getBlocks n block1.x, getBlocks (2 * outSize1 shape k / (2 * n)) block1.y, 1⟩

/-- `SubsampleFourier.__call__` of 1-D (L126-166) for an input of shape `shape + (2,)`: the grid and the
kernel launched.  `B = x.shape[0] * x.shape[1]` and `T = x.shape[2]` (L157-158); with fewer than two axes
besides the last, `x.shape[2]` is an `IndexError`, and with exactly two it is the final `2`. -/
def subsample1 (shape : List Nat) (k : Nat) : Py (Dim3 × (Thread → Option Access)) :=
  match (shape ++ [2])[0]?, (shape ++ [2])[1]?, (shape ++ [2])[2]? with
  | some a, some b, some T => do
    let g ← grid1 shape k
    .ok (g, periodize1 block1 (a * b) T k)
  | _, _, _ => .error .index

/-! ## 2-D -/

/-- Kernel `periodize` of 2-D (L78-102). -/
def periodize2 (block : Dim3) (B H W k : Nat) (t : Thread) : Option Access :=
  let tx := t.block.x * block.x + t.thread.x
  let ty := t.block.y * block.y + t.thread.y
  let tz := t.block.z * block.z + t.thread.z
  if tx ≥ W / k ∨ ty ≥ H / k ∨ tz ≥ B then none
  else some ⟨tz * H / k * W / k + ty * W / k + tx,
    (List.range k).flatMap fun j => (List.range k).map fun i =>
      tz * H * W + ty * W + tx + (j * H / k * W + i * W / k)⟩

/-- `res` of the kernel (L91-100): the sum of the numbers read, divided by `k * k`. -/
noncomputable def value2 (k : Nat) (l : List ℂ) : ℂ := l.foldl (· + ·) 0 / (k * k)

/-- `self.block` (L62). -/
def block2 : Dim3 := ⟨32, 32, 1⟩

/-- The grid (L108-110): `out.shape[1]` is `H // k` and `out.shape[2]` is `W // k`. -/
def grid2 (B H W k : Nat) : Dim3 :=
  ⟨getBlocks (H / k) block2.x, getBlocks (W / k) block2.y, getBlocks B block2.z⟩

/-! ## Modulus -/

/-- Kernel `abs_complex_value` (1-D L72-82, 2-D L156-166): addresses written count real numbers, addresses
read too. -/
def absKernel (block : Dim3) (n : Nat) (t : Thread) : Option Access :=
  let i := t.block.x * block.x + t.thread.x
  if i ≥ n then none else some ⟨i, [2 * i, 2 * i + 1]⟩

/-- `normf(2, p)`: the Euclidean norm of the two numbers read. -/
noncomputable def valueAbs (l : List ℝ) : ℝ := Real.sqrt (l.foldl (fun s x => s + x ^ 2) 0)

/-- `CUDA_NUM_THREADS` (1-D L58). -/
def blockAbs : Dim3 := ⟨1024, 1, 1⟩

/-- The grid of the modulus (1-D L84, 2-D L168). -/
def gridAbs (n : Nat) : Dim3 := ⟨getBlocks n blockAbs.x, 1, 1⟩

end Cuda

/-! ## `ModulusStable` -/

namespace ModulusStable

/-- `forward` (L32-61) at one element. -/
noncomputable def forward (x : ℝ × ℝ) : ℝ := Real.sqrt (x.1 * x.1 + x.2 * x.2)

/-- Division of tensors: `none` stands for a `nan` or an infinity. -/
noncomputable def divT (x y : ℝ) : Option ℝ := if y = 0 then none else some (x / y)

/-- `backward` (L63-96) at one element: `x.mul(grad_output).div(output)`, then
`masked_fill_(output == 0, 0)`. -/
noncomputable def backward (x : ℝ × ℝ) (g : ℝ) : Option ℝ × Option ℝ :=
  let output := forward x
  let d := (divT (x.1 * g) output, divT (x.2 * g) output)
  if output = 0 then (some 0, some 0) else d

end ModulusStable

end Verif
