/-
What it means that a sequence of images moves.
-/
import Verif.Model.Py

namespace Soapy.WindSpec

/-- In the pixels of `region` the images `out n` show one fixed picture that moves by `u` pixels (rows, columns) per frame. -/
def Moves (out : ℕ → ℕ → ℕ → Except PyErr ℚ) (region : ℕ → ℕ → Prop) (u : ℚ × ℚ) : Prop :=
  ∃ picture : ℚ → ℚ → ℚ, ∀ n i j, region i j → out n i j = .ok (picture (i - n * u.1) (j - n * u.2))

/-- All but a frame of two pixels of an image of `m × m`. -/
def Inside (m i j : ℕ) : Prop := 2 ≤ i ∧ i + 2 < m ∧ 2 ≤ j ∧ j + 2 < m

/-- All of an image of `m × m`. -/
def Whole (m i j : ℕ) : Prop := i < m ∧ j < m

end Soapy.WindSpec
