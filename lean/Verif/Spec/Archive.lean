/-
What a recorded history should hold.
-/
import Mathlib.Data.List.Basic
import Mathlib.Data.Nat.Notation

namespace Soapy.ArchiveSpec

/-- The value of the last frame `k` with `k % N = j`, the frames being numbered from `k`. -/
def latestFrom {α : Type} (N j : ℕ) : ℕ → List α → Option α
  | _, [] => none
  | k, x :: xs => (latestFrom N j (k + 1) xs).orElse fun _ => if k % N = j then some x else none

/-- The value of the last frame whose number is `j` modulo `N`. -/
def latest {α : Type} (N j : ℕ) (xs : List α) : Option α := latestFrom N j 0 xs

end Soapy.ArchiveSpec
