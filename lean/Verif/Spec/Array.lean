import Verif.Model.NdArray
import Verif.Model.Backend2D

/-!
# Entries of an array by multi-index
-/

namespace Verif

namespace Spec

/-- Row-major position of a multi-index in an array of a given shape; `none` out of bounds. -/
def position : List Nat → List Nat → Option Nat
  | [], [] => some 0
  | d :: s, i :: ix => if i < d then (position s ix).map (i * s.prod + ·) else none
  | _, _ => none

/-- `x[ix]`. -/
def entry {α : Type} (x : Nd α) (ix : List Nat) : Option α := (position x.shape ix).bind (x.data[·]?)

/-- The signal `x[b]`, where the last axis of `x` has length `N`. -/
noncomputable def signal (x : Nd ℝ) (N : Nat) (b : List Nat) : List ℝ :=
  tab N fun t => (entry x (b ++ [t])).getD 0

/-- The image `x[b]`, where the last axes of `x` have lengths `h`, `w`. -/
noncomputable def image (x : Nd ℝ) (h w : Nat) (b : List Nat) : Img ℝ :=
  Img.tab h w fun r q => (entry x (b ++ [r, q])).getD 0

/-- Pixel of an image, `none` out of bounds. -/
def pixel {α : Type} (y : Img α) (r q : Nat) : Option α := if r < y.h ∧ q < y.w then some (y.px r q) else none

/-- The image of shape `(h, w)` with the given entries, row by row. -/
noncomputable def unflatten (h w : Nat) (l : List ℝ) : Img ℝ := Img.tab h w fun r q => l.getD (r * w + q) 0

/-- The entries of a list of images: image by image, row by row. -/
def flatten {α : Type} (rows : List (Img α)) : List α :=
  rows.flatMap fun y => (List.range y.h).flatMap fun r => (List.range y.w).map fun q => y.px r q

end Spec

end Verif
