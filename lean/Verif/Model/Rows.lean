/-
Model of the rows an infinite phase screen grows by: the separations calculated in `atmosphere.py` and the recursion they feed.
The class `PhaseScreenVonKarman` of aotools, which calls `calc_seperations` and makes the new rows, is not part of the repository; what it does with the separations is stated in `IsRowFilter` and `grow`.
-/
import Mathlib.LinearAlgebra.Matrix.NonsingularInverse
import Mathlib.LinearAlgebra.BilinearMap
import Mathlib.Analysis.SpecialFunctions.Pow.Real

namespace Soapy.Rows

open Finset

/-- One element of `seperations` (atmosphere.py:577-587). -/
noncomputable def separation (p q : ℝ × ℝ) : ℝ :=
  let dx := q.1 - p.1
  let dy := q.2 - p.2
  √(dx ^ 2 + dy ^ 2)

/-- `positions` (atmosphere.py:560): first the stencil, `m` rows of `N` pixels, then the new row, which is row `-1` (aotools; `s` is the pixel scale). -/
def positions {m N : ℕ} (s : ℝ) : (Fin m × Fin N) ⊕ Fin N → ℝ × ℝ
  | .inl (k, j) => (k * s, j * s)
  | .inr j => (-1 * s, j * s)

/-- `seperations` after `calculate_seperations(positions, seperations)` (atmosphere.py:561-563, 577-587): every pair of positions, in both orders. -/
noncomputable def separations {m N : ℕ} (s : ℝ) : Matrix ((Fin m × Fin N) ⊕ Fin N) ((Fin m × Fin N) ⊕ Fin N) ℝ := fun a b => separation (positions s a) (positions s b)

/-- The covariance matrix aotools makes of the separations: the covariance function `c` of the turbulence, element by element. -/
noncomputable def covariances {m N : ℕ} (c : ℝ → ℝ) (s : ℝ) : Matrix ((Fin m × Fin N) ⊕ Fin N) ((Fin m × Fin N) ⊕ Fin N) ℝ := (separations s).map c

/-- What aotools requires of the matrices `A` and `B` of a new row, from the blocks of the covariance matrix (stencil z, new row x): `A cov_zz = cov_xz` and `B Bᵀ = cov_xx - A cov_zx`. -/
def IsRowFilter {m N : ℕ} (C : Matrix ((Fin m × Fin N) ⊕ Fin N) ((Fin m × Fin N) ⊕ Fin N) ℝ) (A : Matrix (Fin N) (Fin m × Fin N) ℝ) (B : Matrix (Fin N) (Fin N) ℝ) : Prop :=
  A * C.toBlocks₁₁ = C.toBlocks₂₁ ∧ B * B.transpose = C.toBlocks₂₂ - A * C.toBlocks₁₂

/-- The screen as a list of rows of random variables (elements of `H`), newest first.  `get_new_row` of aotools: `A` times the pixels of the stencil, the first `m` rows, plus `B` times `N` new random numbers;
`move_screen` puts it on top (atmosphere.py:513-518). -/
def newRow {H : Type} [AddCommGroup H] [Module ℝ H] {m N : ℕ} (A : Matrix (Fin N) (Fin m × Fin N) ℝ) (B : Matrix (Fin N) (Fin N) ℝ) (stencil : Fin m × Fin N → H) (noise : Fin N → H) (i : Fin N) : H :=
  ∑ a, A i a • stencil a + ∑ l, B i l • noise l

/-- Row `n` of the screen, counted in the order in which the rows appear: the first `m` rows are given (`init`, oldest first), every later row is made from the `m` before it and fresh random numbers.  In the stencil
the newest row comes first. -/
def grow {H : Type} [AddCommGroup H] [Module ℝ H] {m N : ℕ} (A : Matrix (Fin N) (Fin m × Fin N) ℝ) (B : Matrix (Fin N) (Fin N) ℝ) (init : ℕ → Fin N → H) (noise : ℕ → Fin N → H) (n : ℕ) : Fin N → H :=
  if n < m then init n
  else newRow A B (fun a => if _h : n - 1 - a.1 < n then grow A B init noise (n - 1 - a.1) a.2 else 0) (noise n)
  termination_by n

end Soapy.Rows
