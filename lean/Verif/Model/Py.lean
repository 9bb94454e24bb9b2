/-
Python / numpy primitives used by the model.

These definitions give the meaning we assign to built-in Python operations that the
modelled code calls.  They are part of the trusted base (see DESIGN.md).
-/
import Mathlib.Data.Rat.Floor
import Mathlib.Algebra.Order.Round

namespace Soapy

/-- The exception classes that the modelled code can raise. -/
inductive PyErr where
  | indexError
  | valueError
  | typeError
  | attributeError
  | keyError
  | ioError
  | configurationError
  | zeroDivisionError
  | unboundLocalError
  | overflowError
  | assertionError
  | nameError
  deriving DecidableEq, Repr

deriving instance DecidableEq for Except

/-- Python `int(x)` on a non-integer number: truncation towards zero. -/
def pyInt (x : ℚ) : ℤ := if 0 ≤ x then ⌊x⌋ else ⌈x⌉

/-- Python 3 `round(x)`: nearest integer, ties to the even one ("banker's rounding"). -/
def pyRound (x : ℚ) : ℤ :=
  let f := ⌊x⌋
  if x - f < 1 / 2 then f
  else if 1 / 2 < x - f then f + 1
  else if f % 2 = 0 then f else f + 1

/-- One bound of a Python slice on a sequence of length `n`: negative values count from the end,
everything is clamped to `[0, n]`. -/
def sliceBound (n : ℕ) (i : ℤ) : ℕ :=
  if i < 0 then (n + i).toNat else min i.toNat n

/-- Half-open index range `[lo, hi)` selected by the Python slice `start:stop` on length `n`. -/
def sliceRange (n : ℕ) (start stop : ℤ) : ℕ × ℕ :=
  (sliceBound n start, sliceBound n stop)

/-- Number of elements selected by the Python slice `start:stop` on a sequence of length `n`. -/
def sliceLen (n : ℕ) (start stop : ℤ) : ℕ :=
  sliceBound n stop - sliceBound n start

/-- `xs[start:stop]`. -/
def pySlice {α : Type*} (xs : List α) (start stop : ℤ) : List α :=
  (xs.take (sliceBound xs.length stop)).drop (sliceBound xs.length start)

/-- `xs[i]` with Python negative indexing. -/
def pyGet {α : Type*} (xs : List α) (i : ℤ) : Except PyErr α :=
  let j : ℤ := if i < 0 then i + xs.length else i
  if j < 0 then .error .indexError
  else match xs[j.toNat]? with
    | some x => .ok x
    | none => .error .indexError

end Soapy
