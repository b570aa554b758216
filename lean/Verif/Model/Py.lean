/-!
# Python values and exceptions used by the model

Exceptions are values of `Except PyErr`.  Only the class of the exception is kept, not
its message.
-/

namespace Verif

/-- The exception classes raised by the modelled code. -/
inductive PyErr where
  | value        -- ValueError
  | runtime      -- RuntimeError
  | index        -- IndexError
  | key          -- KeyError
  | type         -- TypeError
  | assertion    -- AssertionError
  | notImpl      -- NotImplementedError
  | importErr    -- ImportError
  | name         -- NameError
  | attribute    -- AttributeError
  | zeroDiv      -- ZeroDivisionError
  | os           -- OSError
  deriving DecidableEq, Repr

/-- A Python computation that returns a value or raises. -/
abbrev Py (α : Type) := Except PyErr α

/-- `l[i]` for a nonnegative `i` on a Python list: the element or `IndexError`. -/
def listGet {α : Type} (l : List α) (i : Nat) : Py α :=
  match l[i]? with
  | some a => .ok a
  | none => .error .index

/-- A Python dictionary with integer keys. -/
abbrev Dict (α : Type) := Nat → Option α

/-- `d[k] = v`. -/
def Dict.set {α : Type} (d : Dict α) (k : Nat) (v : Option α) : Dict α :=
  fun i => if i = k then v else d i

/-- `d[k]` : the value or `KeyError`. -/
def dictGet {α : Type} (d : Dict α) (k : Nat) : Py α :=
  match d k with
  | some a => .ok a
  | none => .error .key

/-- `l[:k]` for any integer `k`. -/
def sliceTo {α : Type} (l : List α) (k : Int) : List α :=
  if 0 ≤ k then l.take k.toNat else l.take (l.length + k).toNat

end Verif
