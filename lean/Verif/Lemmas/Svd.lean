/-
Every real matrix has a singular value decomposition.
-/
import Verif.Model.Pinv
import Mathlib.Analysis.InnerProductSpace.PiL2
import Mathlib.Analysis.Matrix.Spectrum
import Mathlib.Analysis.Matrix.PosDef
import Mathlib.Algebra.Order.Star.Real

namespace Soapy.Pinv

open Matrix

private theorem tall {a m : ℕ} (h : m ≤ a) (M : Matrix (Fin a) (Fin m) ℝ) :
    ∃ (u : Matrix (Fin a) (Fin m) ℝ) (s : Fin m → ℝ) (vt : Matrix (Fin m) (Fin m) ℝ), uᵀ * u = 1 ∧ vt * vtᵀ = 1 ∧ (∀ i, 0 ≤ s i) ∧ u * diagonal s * vt = M := by
  have hH : (Mᵀ * M).IsHermitian := by
    have := isHermitian_conjTranspose_mul_self M
    simpa [conjTranspose_eq_transpose_of_trivial] using this
  have hp : (Mᵀ * M).PosSemidef := by
    have := posSemidef_conjTranspose_mul_self M
    simpa [conjTranspose_eq_transpose_of_trivial] using this
  let b := hH.eigenvectorBasis
  let lam := hH.eigenvalues
  let s : Fin m → ℝ := fun i => Real.sqrt (lam i)
  have hs : ∀ i, s i * s i = lam i := fun i => Real.mul_self_sqrt (hp.eigenvalues_nonneg i)
  have hb : ∀ i, (Mᵀ * M) *ᵥ (b i).ofLp = lam i • (b i).ofLp := fun i => hH.mulVec_eigenvectorBasis i
  have hbb : ∀ i j, (b i).ofLp ⬝ᵥ (b j).ofLp = if i = j then 1 else 0 := by
    intro i j
    have := orthonormal_iff_ite.mp b.orthonormal i j
    rw [← this, EuclideanSpace.inner_eq_star_dotProduct]
    simp [dotProduct_comm]
  have hg : ∀ i j, (M *ᵥ (b i).ofLp) ⬝ᵥ (M *ᵥ (b j).ofLp) = if i = j then lam i else 0 := by
    intro i j
    rw [dotProduct_mulVec, vecMul_mulVec, ← mulVec_transpose, transpose_mul, transpose_transpose, hb, smul_dotProduct, hbb]
    simp
  -- left vectors
  let f : Fin a → EuclideanSpace ℝ (Fin a) := fun j => if hj : j.1 < m then WithLp.toLp 2 ((s ⟨j, hj⟩)⁻¹ • (M *ᵥ (b ⟨j, hj⟩).ofLp)) else 0
  let S : Set (Fin a) := {j | ∃ hj : j.1 < m, s ⟨j, hj⟩ ≠ 0}
  have hf : ∀ (j : Fin a) (hj : j.1 < m), f j = WithLp.toLp 2 ((s ⟨j, hj⟩)⁻¹ • (M *ᵥ (b ⟨j, hj⟩).ofLp)) := fun j hj => by simp only [f, hj, dif_pos]
  have hS : Orthonormal ℝ (S.domRestrict f) := by
    rw [orthonormal_iff_ite]
    rintro ⟨i, hi, hi0⟩ ⟨j, hj, hj0⟩
    change inner ℝ (f i) (f j) = _
    rw [hf i hi, hf j hj, EuclideanSpace.inner_eq_star_dotProduct]
    simp only [star_trivial, dotProduct_smul, smul_dotProduct, hg, smul_eq_mul, Fin.mk.injEq, Subtype.mk.injEq]
    by_cases hij : i = j
    · subst hij
      simp only [if_true]
      rw [← hs]
      field_simp
    · have : ¬ (j.1 = i.1) := fun e => hij (Fin.ext e.symm)
      simp [hij, this]
  obtain ⟨e, he⟩ := hS.exists_orthonormalBasis_extension_of_card_eq (ι := Fin a) (by simp)
  let emb : Fin m → Fin a := fun i => ⟨i, by omega⟩
  have hMv : ∀ i, M *ᵥ (b i).ofLp = s i • (e (emb i)).ofLp := by
    intro i
    by_cases h0 : s i = 0
    · rw [h0, zero_smul]
      have := hg i i
      rw [if_pos rfl, ← hs, h0, mul_zero] at this
      exact dotProduct_self_eq_zero.mp this
    · rw [he (emb i) ⟨i.2, h0⟩]
      rw [hf (emb i) i.2]
      simp only [emb, Fin.eta]
      rw [smul_smul, mul_inv_cancel₀ h0, one_smul]
  refine ⟨of fun p i => e (emb i) p, s, of fun i q => b i q, ?_, ?_, fun i => Real.sqrt_nonneg _, ?_⟩
  · ext i j
    have := orthonormal_iff_ite.mp e.orthonormal (emb i) (emb j)
    rw [EuclideanSpace.inner_eq_star_dotProduct] at this
    simp only [mul_apply, transpose_apply, of_apply, one_apply]
    have hij : (emb i = emb j) ↔ i = j := by simp [emb, Fin.ext_iff]
    simp only [hij] at this
    rw [← this]
    simp [dotProduct, mul_comm]
  · ext i j
    simp only [mul_apply, transpose_apply, of_apply, one_apply]
    rw [← hbb]
    rfl
  · have hv : (of fun i q => b i q : Matrix (Fin m) (Fin m) ℝ)ᵀ * (of fun i q => b i q) = 1 := by
      rw [mul_eq_one_comm]
      ext i j
      simp only [mul_apply, transpose_apply, of_apply, one_apply]
      rw [← hbb]
      rfl
    have hMV : M * (of fun i q => b i q : Matrix (Fin m) (Fin m) ℝ)ᵀ = (of fun p i => e (emb i) p : Matrix (Fin a) (Fin m) ℝ) * diagonal s := by
      ext p i
      have := congrFun (hMv i) p
      simp only [mul_diagonal, of_apply]
      simp only [mulVec, dotProduct, Pi.smul_apply, smul_eq_mul] at this
      rw [mul_comm, ← this]
      simp [mul_apply]
    rw [← hMV, Matrix.mul_assoc, hv, Matrix.mul_one]

/-- Every interaction matrix has a decomposition of the kind `numpy.linalg.svd` returns. -/
theorem exists_svd {a m : ℕ} (M : Matrix (Fin a) (Fin m) ℝ) : Nonempty (Svd M) := by
  suffices ∀ k, k = min a m → ∃ (u : Matrix (Fin a) (Fin k) ℝ) (s : Fin k → ℝ) (vt : Matrix (Fin k) (Fin m) ℝ), uᵀ * u = 1 ∧ vt * vtᵀ = 1 ∧ (∀ i, 0 ≤ s i) ∧ u * diagonal s * vt = M by
    obtain ⟨u, s, vt, h1, h2, h3, h4⟩ := this _ rfl
    exact ⟨⟨u, s, vt, h1, h2, h3, h4⟩⟩
  intro k hk
  rcases le_total m a with h | h
  · rw [min_eq_right h] at hk
    subst hk
    exact tall h M
  · rw [min_eq_left h] at hk
    subst hk
    obtain ⟨u, s, vt, h1, h2, h3, h4⟩ := tall h Mᵀ
    refine ⟨vtᵀ, s, uᵀ, by rw [transpose_transpose]; exact h2, by rw [transpose_transpose]; exact h1, h3, ?_⟩
    rw [← transpose_transpose M, ← h4, transpose_mul, transpose_mul, diagonal_transpose, Matrix.mul_assoc]

end Soapy.Pinv
