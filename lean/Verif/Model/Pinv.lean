/-
Model of the inversion of the interaction matrix: `MVM.calcCMat`, which calls `numpy.linalg.pinv`.

Trusted: `numpy.linalg.svd(full_matrices=False)` returns some singular value decomposition (`Svd`), exactly.
-/
import Mathlib.Data.Matrix.Mul
import Mathlib.Data.Matrix.Diagonal
import Mathlib.Data.Real.Basic
import Mathlib.Data.Real.Archimedean
import Mathlib.LinearAlgebra.Matrix.ConjTranspose

namespace Soapy.Pinv

open Matrix

/-- What `numpy.linalg.svd(M, full_matrices=False)` returns for a matrix of `a` rows (actuators) and `m` columns (measurements). -/
structure Svd {a m : ℕ} (M : Matrix (Fin a) (Fin m) ℝ) where
  u : Matrix (Fin a) (Fin (min a m)) ℝ
  s : Fin (min a m) → ℝ
  vt : Matrix (Fin (min a m)) (Fin m) ℝ
  orthU : uᵀ * u = 1
  orthV : vt * vtᵀ = 1
  nonneg : ∀ i, 0 ≤ s i
  eq : u * diagonal s * vt = M

variable {a m : ℕ} {M : Matrix (Fin a) (Fin m) ℝ}

/-- The largest singular value (`amax(s)`). -/
noncomputable def Svd.top (S : Svd M) : ℝ := ⨆ i, S.s i

/-- `large = s > cutoff` with `cutoff = rcond * amax(s)`. -/
def Svd.kept (S : Svd M) (rcond : ℝ) (i : Fin (min a m)) : Prop := rcond * S.top < S.s i

open Classical in
/-- `s = divide(1, s, where=large); s[~large] = 0`. -/
noncomputable def Svd.inv (S : Svd M) (rcond : ℝ) (i : Fin (min a m)) : ℝ := if S.kept rcond i then 1 / S.s i else 0

/-- `numpy.linalg.pinv(M, rcond)`: `matmul(transpose(vt), multiply(s[..., newaxis], transpose(u)))`.  The control matrix of `MVM.calcCMat` (reconstruction.py:455-465) is this with `rcond = svdConditioning`; it has a row for
every measurement and a column for every actuator. -/
noncomputable def Svd.pinv (S : Svd M) (rcond : ℝ) : Matrix (Fin m) (Fin a) ℝ := S.vtᵀ * (diagonal (S.inv rcond) * S.uᵀ)

/-- `control_matrix.T.dot(measurements)` (reconstruction.py:437). -/
noncomputable def commands (P : Matrix (Fin m) (Fin a) ℝ) (x : Fin m → ℝ) : Fin a → ℝ := Pᵀ *ᵥ x

/-- What the sensors measure when commands are given to the mirrors: every actuator adds its row of the interaction matrix. -/
noncomputable def measured (M : Matrix (Fin a) (Fin m) ℝ) (c : Fin a → ℝ) : Fin m → ℝ := Mᵀ *ᵥ c

end Soapy.Pinv
