import Verif.Model.Select

/-!
# Filters of the torch frontends as buffers

`kymatio/scattering1d/frontend/torch_frontend.py` L31-78, L123-154,
`kymatio/scattering2d/frontend/torch_frontend.py` L23-71,
`kymatio/scattering3d/frontend/torch_frontend.py` L25-36, L62-64.

`N` is the type of numpy arrays, `T` the type of tensors, `conv` the conversion
(`torch.from_numpy(..).float().view(-1, 1)` in 1-D, `torch.from_numpy(..).unsqueeze(-1)` in 2-D, the pair of
real and imaginary parts in 3-D).  The buffers of the module are a dictionary; `named_buffers()` leaves
out a tensor object it has already met, which does not happen here since every filter is converted to
a new object.
-/

namespace Verif

namespace Buffers

open Select (Str)

/-- `"tensor" + str(n)`. -/
def name (n : Nat) : Str := "tensor".toList ++ Nat.toDigits 10 n

/-- The dictionary `named_buffers()`. -/
abbrev Buf (T : Type) := Str → Option T

/-- `register_buffer(name, tensor)`. -/
def register {T : Type} (d : Buf T) (k : Str) (t : T) : Buf T := fun s => if s = k then some t else d s

/-- `buffer_dict[name]`. -/
def get {T : Type} (d : Buf T) (k : Str) : Py T :=
  match d k with
  | some t => .ok t
  | none => .error .key

variable {N T : Type}

/-- `for level in range(len(filter["levels"]))` of `register_filters` (1-D L36-41): the converted levels, the
buffers and the counter. -/
def regLevels (conv : N → T) : List N → Nat → Buf T → List T × Buf T × Nat
  | [], n, d => ([], d, n)
  | x :: l, n, d =>
    let r := regLevels conv l (n + 1) (register d (name n) (conv x))
    (conv x :: r.1, r.2)

/-- `for psi_f in bank` (1-D L42-48, L49-55). -/
def regBank (conv : N → T) : List (List N) → Nat → Buf T → List (List T) × Buf T × Nat
  | [], n, d => ([], d, n)
  | p :: l, n, d =>
    let q := regLevels conv p n d
    let r := regBank conv l q.2.2 q.2.1
    (q.1 :: r.1, r.2)

/-- `for level in range(len(filter["levels"]))` of `load_filters` (1-D L63-65). -/
def loadLevels (d : Buf T) : List T → Nat → Py (List T × Nat)
  | [], n => .ok ([], n)
  | _ :: l, n => do
    let t ← get d (name n)
    let r ← loadLevels d l (n + 1)
    .ok (t :: r.1, r.2)

/-- `for psi_f in bank` of `load_filters` (1-D L67-75). -/
def loadBank (d : Buf T) : List (List T) → Nat → Py (List (List T) × Nat)
  | [], n => .ok ([], n)
  | p :: l, n => do
    let q ← loadLevels d p n
    let r ← loadBank d l q.2
    .ok (q.1 :: r.1, r.2)

/-! ## 1-D and joint time-frequency -/

/-- `phi_f["levels"]`, and the levels of `psi1_f`, `psi2_f`; `fr0` and `fr1` are `filters_fr[0]["levels"]` and the levels
of `filters_fr[1]` (empty for `ScatteringTorch1D`). -/
structure Filters (α : Type) where
  phi : List α
  psi1 : List (List α)
  psi2 : List (List α)
  fr0 : List α
  fr1 : List (List α)

/-- `register_filters` (L31-56; L123-139 for the last two). -/
def registerFilters (conv : N → T) (f : Filters N) (d : Buf T) : Filters T × Buf T :=
  let a := regLevels conv f.phi 0 d
  let b := regBank conv f.psi1 a.2.2 a.2.1
  let c := regBank conv f.psi2 b.2.2 b.2.1
  let e := regLevels conv f.fr0 c.2.2 c.2.1
  let g := regBank conv f.fr1 e.2.2 e.2.1
  (⟨a.1, b.1, c.1, e.1, g.1⟩, g.2.1)

/-- `load_filters` (L58-76; L141-151 for the last two). -/
def loadFilters (d : Buf T) (f : Filters T) : Py (Filters T) := do
  let a ← loadLevels d f.phi 0
  let b ← loadBank d f.psi1 a.2
  let c ← loadBank d f.psi2 b.2
  let e ← loadLevels d f.fr0 c.2
  let g ← loadBank d f.fr1 e.2
  .ok ⟨a.1, b.1, c.1, e.1, g.1⟩

/-- What happens to a module between its construction and a call: all buffers are replaced, each by a
function of its name and its value (device move, cast, `load_state_dict`), or `scattering` is called, which
loads the filters first (L78-80). -/
inductive Step (T : Type) where
  | replace (g : Str → T → T)
  | call

/-- One step on the filters and the buffers. -/
def step (s : Filters T × Buf T) : Step T → Py (Filters T × Buf T)
  | .replace g => .ok (s.1, fun k => (s.2 k).map (g k))
  | .call => do
    let f ← loadFilters s.2 s.1
    .ok (f, s.2)

/-- A sequence of steps. -/
def steps (s : Filters T × Buf T) : List (Step T) → Py (Filters T × Buf T)
  | [] => .ok s
  | a :: l => do
    let s' ← step s a
    steps s' l

/-! ## 2-D -/

/-- `register_filters` of 2-D (L28-45): `self.phi` and `self.psi` keep their numpy arrays. -/
def registerFilters2 (conv : N → T) (phi : List N) (psi : List (List N)) (d : Buf T) : Buf T :=
  let a := regLevels conv phi 0 d
  (regBank conv psi a.2.2 a.2.1).2.1

/-- One list of levels of `load_filters` of 2-D (L58-60, L66-68). -/
def loadLevels2 (d : Buf T) : List N → Nat → Py (List T × Nat)
  | [], n => .ok ([], n)
  | _ :: l, n => do
    let t ← get d (name n)
    let r ← loadLevels2 d l (n + 1)
    .ok (t :: r.1, r.2)

/-- The loop over `self.psi` (L62-68). -/
def loadBank2 (d : Buf T) : List (List N) → Nat → Py (List (List T) × Nat)
  | [], n => .ok ([], n)
  | p :: l, n => do
    let q ← loadLevels2 d p n
    let r ← loadBank2 d l q.2
    .ok (q.1 :: r.1, r.2)

/-- `load_filters` of 2-D (L50-70). -/
def loadFilters2 (d : Buf T) (phi : List N) (psi : List (List N)) : Py (List T × List (List T)) := do
  let a ← loadLevels2 d phi 0
  let b ← loadBank2 d psi a.2
  .ok (a.1, b.1)

/-! ## 3-D -/

/-- `register_filters` of 3-D (L25-36): one buffer per `l`, and the Gaussian. -/
def registerFilters3 (conv convG : N → T) (filters : List N) (gaussian : N) (d : Buf T) : List T × Buf T :=
  let a := regLevels conv filters 0 d
  (a.1, register a.2.1 "tensor_gaussian_filter".toList (convG gaussian))

/-- Reloading in `scattering` of 3-D (L62-64): the Gaussian is not reloaded. -/
def loadFilters3 (d : Buf T) (filters : List T) : Py (List T) := do
  let a ← loadLevels d filters 0
  .ok a.1

end Buffers

end Verif
