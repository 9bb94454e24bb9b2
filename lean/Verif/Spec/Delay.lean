/-
Specification of a command delay line, independent of the model of the code.
-/
import Mathlib.Data.Nat.Notation
import Mathlib.Data.Int.Notation

namespace Soapy.DelaySpec

/-- What a delay line with constant delay `d` must output on call `n` of the inputs `xs`:
a zero during the first `d` calls, afterwards the input of `d` calls earlier. -/
def constDelay {α : Type*} (zeroLike : α → α) (d : ℕ) (xs : List α) (n : ℕ) : Option α :=
  if n < d then (xs[n]?).map zeroLike else xs[n - d]?

/-- What a delay line must output on call `n` when call `i` asks for the delay `cs i`:
the input of `cs n` calls ago, provided it exists and is newer than everything asked for before;
otherwise a zero. -/
def varDelay {α : Type*} (zeroLike : α → α) (xs : List α) (cs : List ℕ) (n : ℕ) : Option α :=
  match cs[n]? with
  | none => none
  | some c =>
    if c ≤ n ∧ ∀ i, i < n → ∀ ci, cs[i]? = some ci → i + c < n + ci then xs[n - c]?
    else (xs[n]?).map zeroLike

end Soapy.DelaySpec
