/-
C125: what `svdConditioning` does.
-/
import Verif.Model.Pinv
import Verif.Lemmas.Svd
import Verif.Model.Loop
import Verif.Props.Control
import Verif.Props.Tomo
import Mathlib.Data.Fin.VecNotation
import Mathlib.Tactic.NormNum
import Mathlib.LinearAlgebra.Lagrange
import Mathlib.Algebra.Polynomial.AlgebraMap
import Mathlib.Tactic.Linarith
import Mathlib.Tactic.Positivity
import Mathlib.Tactic.FieldSimp
import Mathlib.LinearAlgebra.Matrix.NonsingularInverse
import Mathlib.Analysis.Real.Sqrt

namespace Soapy.Props

open Soapy.Pinv Matrix

variable {a m : ℕ} {M : Matrix (Fin a) (Fin m) ℝ}

private theorem svd_eq (S : Svd M) : S.u * (diagonal S.s * S.vt) = M := by rw [← Matrix.mul_assoc, S.eq]

private theorem svd_transpose (S : Svd M) : S.vtᵀ * (diagonal S.s * S.uᵀ) = Mᵀ := by
  have h := congrArg Matrix.transpose (svd_eq S)
  rw [Matrix.transpose_mul, Matrix.transpose_mul, diagonal_transpose, Matrix.mul_assoc] at h
  exact h

private theorem svd_step (S : Svd M) (d : Fin (min a m) → ℝ) : Mᵀ * M * (S.vtᵀ * (diagonal d * S.uᵀ)) = S.vtᵀ * (diagonal (fun i => S.s i ^ 2 * d i) * S.uᵀ) := by
  have h : Mᵀ * M = S.vtᵀ * (diagonal S.s * S.uᵀ) * (S.u * (diagonal S.s * S.vt)) := by rw [svd_eq, svd_transpose]
  rw [h]
  simp only [Matrix.mul_assoc]
  rw [← Matrix.mul_assoc S.vt S.vtᵀ, S.orthV, Matrix.one_mul, ← Matrix.mul_assoc S.uᵀ S.u, S.orthU, Matrix.one_mul]
  rw [← Matrix.mul_assoc (diagonal _) (diagonal _), diagonal_mul_diagonal, ← Matrix.mul_assoc (diagonal _) (diagonal _), diagonal_mul_diagonal]
  congr 3
  funext i
  ring

private theorem svd_pow (S : Svd M) : ∀ n : ℕ, (Mᵀ * M) ^ n * Mᵀ = S.vtᵀ * (diagonal (fun i => (S.s i ^ 2) ^ n * S.s i) * S.uᵀ)
  | 0 => by simp [svd_transpose]
  | n + 1 => by
    rw [pow_succ', Matrix.mul_assoc, svd_pow S n, svd_step]
    congr 3
    funext i
    ring

private theorem svd_poly (S : Svd M) (q : Polynomial ℝ) : Polynomial.aeval (Mᵀ * M) q * Mᵀ = S.vtᵀ * (diagonal (fun i => q.eval (S.s i ^ 2) * S.s i) * S.uᵀ) := by
  induction q using Polynomial.induction_on' with
  | add p q hp hq =>
    rw [map_add, Matrix.add_mul, hp, hq, ← Matrix.mul_add, ← Matrix.add_mul, diagonal_add]
    congr 3
    funext i
    rw [Polynomial.eval_add]
    ring
  | monomial n c =>
    rw [Polynomial.aeval_monomial, Matrix.mul_assoc, svd_pow S n, Algebra.algebraMap_eq_smul_one, Matrix.smul_mul, Matrix.one_mul, ← Matrix.mul_smul, ← Matrix.smul_mul, ← diagonal_smul]
    congr 3
    funext i
    simp [Polynomial.eval_monomial]
    ring

private theorem core_eq (S : Svd M) (d : Fin (min a m) → ℝ) (h : S.vtᵀ * (diagonal d * S.uᵀ) = 0) : d = 0 := by
  have : S.vt * (S.vtᵀ * (diagonal d * S.uᵀ)) * S.u = diagonal d := by
    rw [← Matrix.mul_assoc, S.orthV, Matrix.one_mul, Matrix.mul_assoc, S.orthU, Matrix.mul_one]
  rw [h] at this
  simp at this
  exact (Matrix.diagonal_eq_zero.mp this.symm)

private theorem values_shared (S T : Svd M) (i : Fin (min a m)) : S.s i = 0 ∨ ∃ j, S.s i = T.s j := by
  have h : S.vtᵀ * (diagonal (fun i => (∏ j, (Polynomial.X - Polynomial.C (T.s j ^ 2))).eval (S.s i ^ 2) * S.s i) * S.uᵀ) = 0 := by
    rw [← svd_poly S, svd_poly T]
    have : (fun i => (∏ j, (Polynomial.X - Polynomial.C (T.s j ^ 2))).eval (T.s i ^ 2) * T.s i) = 0 := by
      funext i
      rw [Polynomial.eval_prod, Finset.prod_eq_zero (Finset.mem_univ i) (by simp)]
      simp
    rw [this]
    simp
  have := congrFun (core_eq S _ h) i
  simp only [Pi.zero_apply, mul_eq_zero] at this
  rcases this with h | h
  · right
    rw [Polynomial.eval_prod, Finset.prod_eq_zero_iff] at h
    obtain ⟨j, _, hj⟩ := h
    simp only [Polynomial.eval_sub, Polynomial.eval_X, Polynomial.eval_C, sub_eq_zero] at hj
    exact ⟨j, (pow_left_inj₀ (S.nonneg i) (T.nonneg j) two_ne_zero).mp hj⟩
  · exact Or.inl h

private theorem le_top (S : Svd M) (i : Fin (min a m)) : S.s i ≤ S.top := le_ciSup (Set.finite_range S.s).bddAbove i

private theorem top_nonneg (S : Svd M) : 0 ≤ S.top := Real.iSup_nonneg S.nonneg

private theorem top_le (S T : Svd M) : S.top ≤ T.top := by
  refine Real.iSup_le (fun i => ?_) (top_nonneg T)
  rcases values_shared S T i with h | ⟨j, h⟩
  · rw [h]; exact top_nonneg T
  · rw [h]; exact le_top T j

private theorem top_eq (S T : Svd M) : S.top = T.top := le_antisymm (top_le S T) (top_le T S)

/-- **C125 (well defined).**  The control matrix does not depend on which of the many singular value decompositions the linear algebra library happens to return. -/
theorem C125_unique (S T : Svd M) (r : ℝ) (hr : 0 ≤ r) : S.pinv r = T.pinv r := by
  classical
  let f : ℝ → ℝ := fun y => if r * S.top < Real.sqrt y then 1 / y else 0
  let nodes : Finset ℝ := (Finset.univ.image fun i => S.s i ^ 2) ∪ (Finset.univ.image fun i => T.s i ^ 2)
  let q := Lagrange.interpolate nodes id f
  have hq : ∀ y ∈ nodes, q.eval y = f y := fun y hy => Lagrange.eval_interpolate_at_node f (Set.injOn_id _) hy
  have key : ∀ R : Svd M, R.top = S.top → (∀ i, R.s i ^ 2 ∈ nodes) → R.pinv r = Polynomial.aeval (Mᵀ * M) q * Mᵀ := by
    intro R ht hn
    rw [svd_poly R]
    unfold Svd.pinv
    congr 3
    funext i
    rw [hq _ (hn i)]
    simp only [f, Svd.inv, Svd.kept, ht, Real.sqrt_sq (R.nonneg i)]
    split_ifs with hc
    · have : R.s i ≠ 0 := by
        intro h0
        rw [h0] at hc
        exact absurd hc (not_lt.mpr (mul_nonneg hr (top_nonneg S)))
      field_simp
    · ring
  rw [key S rfl (fun i => by simp [nodes]), key T (top_eq T S) (fun i => by simp [nodes])]

/-- **C125 (exists).**  Every interaction matrix and every conditioning have exactly one control matrix: some decomposition exists, and all of them give that matrix. -/
theorem C125_exists (M : Matrix (Fin a) (Fin m) ℝ) (r : ℝ) (hr : 0 ≤ r) :
    Nonempty (Svd M) ∧ ∃! P : Matrix (Fin m) (Fin a) ℝ, ∀ S : Svd M, P = S.pinv r := by
  obtain ⟨S⟩ := exists_svd M
  exact ⟨⟨S⟩, S.pinv r, fun T => C125_unique S T r hr, fun Q hQ => hQ S⟩

example : ∃! P : Matrix (Fin 2) (Fin 3) ℝ, ∀ S : Svd !![1, 2; 3, 4; 5, 6], P = S.pinv (1 / 10) := (C125_exists _ _ (by norm_num)).2

private theorem transpose_pinv (S : Svd M) (r : ℝ) : (S.pinv r)ᵀ = S.u * (diagonal (S.inv r) * S.vt) := by
  unfold Svd.pinv
  rw [Matrix.transpose_mul, Matrix.transpose_mul, diagonal_transpose, Matrix.transpose_transpose, Matrix.transpose_transpose, Matrix.mul_assoc]

private theorem u_norm (S : Svd M) (y : Fin (min a m) → ℝ) : (S.u *ᵥ y) ⬝ᵥ (S.u *ᵥ y) = y ⬝ᵥ y := by
  rw [Matrix.dotProduct_mulVec, Matrix.vecMul_mulVec, S.orthU]
  simp

private theorem v_norm (S : Svd M) (x : Fin m → ℝ) : (S.vt *ᵥ x) ⬝ᵥ (S.vt *ᵥ x) ≤ x ⬝ᵥ x := by
  have h : 0 ≤ (x - S.vtᵀ *ᵥ (S.vt *ᵥ x)) ⬝ᵥ (x - S.vtᵀ *ᵥ (S.vt *ᵥ x)) := Finset.sum_nonneg fun i _ => mul_self_nonneg _
  have e1 : x ⬝ᵥ (S.vtᵀ *ᵥ (S.vt *ᵥ x)) = (S.vt *ᵥ x) ⬝ᵥ (S.vt *ᵥ x) := by
    rw [Matrix.dotProduct_mulVec, Matrix.vecMul_transpose]
  have e2 : (S.vtᵀ *ᵥ (S.vt *ᵥ x)) ⬝ᵥ (S.vtᵀ *ᵥ (S.vt *ᵥ x)) = (S.vt *ᵥ x) ⬝ᵥ (S.vt *ᵥ x) := by
    rw [Matrix.dotProduct_mulVec, Matrix.vecMul_transpose, Matrix.mulVec_mulVec, S.orthV, Matrix.one_mulVec]
  rw [sub_dotProduct, dotProduct_sub, dotProduct_sub, dotProduct_comm (S.vtᵀ *ᵥ (S.vt *ᵥ x)) x, e1, e2] at h
  linarith

/-- **C125 (noise).**  No measurement, noise included, is turned into commands more than `1 / (svdConditioning × largest singular value)` times as large. -/
theorem C125_bounded (S : Svd M) (r : ℝ) (hr : 0 ≤ r) (x : Fin m → ℝ) : (r * S.top) ^ 2 * (commands (S.pinv r) x ⬝ᵥ commands (S.pinv r) x) ≤ x ⬝ᵥ x := by
  unfold commands
  rw [transpose_pinv, ← Matrix.mulVec_mulVec, u_norm, ← Matrix.mulVec_mulVec]
  refine le_trans ?_ (v_norm S x)
  generalize S.vt *ᵥ x = y
  simp only [dotProduct, Finset.mul_sum, mulVec_diagonal]
  refine Finset.sum_le_sum fun i _ => ?_
  unfold Svd.inv Svd.kept
  split_ifs with h
  · have h0 : 0 ≤ r * S.top := mul_nonneg hr (top_nonneg S)
    have hs : 0 < S.s i := lt_of_le_of_lt h0 h
    have : (r * S.top) ^ 2 * (1 / S.s i * y i * (1 / S.s i * y i)) = (r * S.top / S.s i) ^ 2 * (y i * y i) := by
      field_simp
    rw [this]
    have hle : (r * S.top / S.s i) ^ 2 ≤ 1 := by
      rw [sq_le_one_iff₀ (by positivity), div_le_one hs]
      exact h.le
    nlinarith [mul_self_nonneg (y i)]
  · nlinarith [mul_self_nonneg (y i)]

/-- What the loop makes of commands: the mirrors are commanded, the sensors measure, the measurements are turned into commands. -/
noncomputable def seenBack (S : Svd M) (r : ℝ) (c : Fin a → ℝ) : Fin a → ℝ := commands (S.pinv r) (measured M c)

open Classical in
private noncomputable def keep (S : Svd M) (r : ℝ) (i : Fin (min a m)) : ℝ := if S.kept r i then 1 else 0

private theorem keep_eq (S : Svd M) (r : ℝ) (hr : 0 ≤ r) (i : Fin (min a m)) : S.inv r i * S.s i = keep S r i := by
  unfold Svd.inv keep
  split_ifs with h
  · have : S.s i ≠ 0 := (lt_of_le_of_lt (mul_nonneg hr (top_nonneg S)) h).ne'
    field_simp
  · simp

private theorem seenBack_eq (S : Svd M) (r : ℝ) (hr : 0 ≤ r) (c : Fin a → ℝ) : seenBack S r c = S.u *ᵥ fun i => keep S r i * (S.uᵀ *ᵥ c) i := by
  unfold seenBack commands measured
  rw [transpose_pinv, ← svd_transpose S, Matrix.mulVec_mulVec]
  simp only [Matrix.mul_assoc]
  rw [← Matrix.mul_assoc S.vt S.vtᵀ, S.orthV, Matrix.one_mul, ← Matrix.mul_assoc (diagonal _) (diagonal _), diagonal_mul_diagonal]
  rw [← Matrix.mulVec_mulVec, ← Matrix.mulVec_mulVec]
  congr 1
  funext i
  rw [mulVec_diagonal, keep_eq S r hr]

private theorem ut_u (S : Svd M) (y : Fin (min a m) → ℝ) : S.uᵀ *ᵥ (S.u *ᵥ y) = y := by rw [Matrix.mulVec_mulVec, S.orthU, Matrix.one_mulVec]

private theorem keep_sq (S : Svd M) (r : ℝ) (i : Fin (min a m)) : keep S r i * keep S r i = keep S r i := by
  unfold keep
  split_ifs <;> simp

/-- **C125 (projection).**  Commands given to the mirrors come back as their orthogonal projection on the modes that are kept: nothing is invented, nothing is amplified, and what has come back once comes back unchanged. -/
theorem C125_projection (S : Svd M) (r : ℝ) (hr : 0 ≤ r) (c c' : Fin a → ℝ) :
    seenBack S r (seenBack S r c) = seenBack S r c ∧ seenBack S r c ⬝ᵥ c' = c ⬝ᵥ seenBack S r c' ∧ seenBack S r c ⬝ᵥ seenBack S r c ≤ c ⬝ᵥ c := by
  have idem : seenBack S r (seenBack S r c) = seenBack S r c := by
    simp only [seenBack_eq S r hr, ut_u]
    congr 1
    funext i
    rw [← mul_assoc, keep_sq]
  have symm : ∀ c c' : Fin a → ℝ, seenBack S r c ⬝ᵥ c' = c ⬝ᵥ seenBack S r c' := by
    intro c c'
    simp only [seenBack_eq S r hr]
    rw [dotProduct_comm, Matrix.dotProduct_mulVec, Matrix.dotProduct_mulVec, ← Matrix.mulVec_transpose, ← Matrix.mulVec_transpose]
    simp only [dotProduct]
    exact Finset.sum_congr rfl fun i _ => by ring
  refine ⟨idem, symm c c', ?_⟩
  have h : 0 ≤ (c - seenBack S r c) ⬝ᵥ (c - seenBack S r c) := Finset.sum_nonneg fun i _ => mul_self_nonneg _
  have e : c ⬝ᵥ seenBack S r c = seenBack S r c ⬝ᵥ seenBack S r c := by
    rw [symm c, idem]
  rw [sub_dotProduct, dotProduct_sub, dotProduct_sub, dotProduct_comm (seenBack S r c) c, e] at h
  linarith

/-- **C125 (modes).**  A mode (left singular vector) whose singular value is above `svdConditioning` times the largest comes back as it is; any other is not seen, and no measurement whatever can excite it. -/
theorem C125_modes (S : Svd M) (r : ℝ) (hr : 0 ≤ r) (i : Fin (min a m)) :
    (r * S.top < S.s i → seenBack S r (S.uᵀ i) = S.uᵀ i) ∧
    (S.s i ≤ r * S.top → seenBack S r (S.uᵀ i) = 0 ∧ ∀ x, S.uᵀ i ⬝ᵥ commands (S.pinv r) x = 0) := by
  have e : S.uᵀ i = S.u *ᵥ Pi.single i 1 := by
    rw [Matrix.mulVec_single_one]
    rfl
  constructor
  · intro h
    rw [seenBack_eq S r hr, e, ut_u]
    congr 1
    funext j
    by_cases hj : j = i
    · subst hj
      simp [keep, Svd.kept, h]
    · simp [hj]
  · intro h
    refine ⟨?_, ?_⟩
    · rw [seenBack_eq S r hr, e, ut_u]
      have : (fun j => keep S r j * (Pi.single i 1 : Fin (min a m) → ℝ) j) = 0 := by
        funext j
        by_cases hj : j = i
        · subst hj
          simp [keep, Svd.kept, not_lt.mpr h]
        · simp [hj]
      rw [this, Matrix.mulVec_zero]
    · intro x
      unfold commands
      rw [transpose_pinv, ← Matrix.mulVec_mulVec, e, Matrix.dotProduct_mulVec, ← Matrix.mulVec_transpose, ut_u, single_dotProduct, ← Matrix.mulVec_mulVec, mulVec_diagonal]
      simp [Svd.inv, Svd.kept, not_lt.mpr h]

private theorem residual (S : Svd M) (x : Fin m → ℝ) (z : Fin (min a m) → ℝ) :
    (x - S.vtᵀ *ᵥ z) ⬝ᵥ (x - S.vtᵀ *ᵥ z) = x ⬝ᵥ x - (S.vt *ᵥ x) ⬝ᵥ (S.vt *ᵥ x) + (S.vt *ᵥ x - z) ⬝ᵥ (S.vt *ᵥ x - z) := by
  have e1 : x ⬝ᵥ (S.vtᵀ *ᵥ z) = (S.vt *ᵥ x) ⬝ᵥ z := by
    rw [Matrix.dotProduct_mulVec, Matrix.vecMul_transpose]
  have e2 : (S.vtᵀ *ᵥ z) ⬝ᵥ (S.vtᵀ *ᵥ z) = z ⬝ᵥ z := by
    rw [Matrix.dotProduct_mulVec, Matrix.vecMul_transpose, Matrix.mulVec_mulVec, S.orthV, Matrix.one_mulVec]
  rw [sub_dotProduct, dotProduct_sub, dotProduct_sub, dotProduct_comm (S.vtᵀ *ᵥ z) x, e1, e2, sub_dotProduct, dotProduct_sub, dotProduct_sub, dotProduct_comm z (S.vt *ᵥ x)]
  ring

/-- **C125 (least squares).**  Of all commands made of modes that are kept, those reconstructed explain the measurements best. -/
theorem C125_least (S : Svd M) (r : ℝ) (hr : 0 ≤ r) (x : Fin m → ℝ) (c : Fin a → ℝ) (hc : seenBack S r c = c) :
    (x - measured M (commands (S.pinv r) x)) ⬝ᵥ (x - measured M (commands (S.pinv r) x)) ≤ (x - measured M c) ⬝ᵥ (x - measured M c) := by
  have hm : ∀ c, measured M c = S.vtᵀ *ᵥ fun i => S.s i * (S.uᵀ *ᵥ c) i := by
    intro c
    unfold measured
    rw [← svd_transpose S, ← Matrix.mulVec_mulVec, ← Matrix.mulVec_mulVec]
    congr 1
    funext i
    rw [mulVec_diagonal]
  have hu : S.uᵀ *ᵥ commands (S.pinv r) x = fun i => S.inv r i * (S.vt *ᵥ x) i := by
    unfold commands
    rw [transpose_pinv, ← Matrix.mulVec_mulVec, ut_u, ← Matrix.mulVec_mulVec]
    funext i
    rw [mulVec_diagonal]
  have hk : ∀ i, (S.uᵀ *ᵥ c) i = keep S r i * (S.uᵀ *ᵥ c) i := by
    intro i
    conv_lhs => rw [← hc, seenBack_eq S r hr, ut_u]
  rw [hm, hm, residual, residual, hu]
  have : ∀ u v w : ℝ, v ≤ w → u + v ≤ u + w := fun u v w h => by linarith
  refine this _ _ _ ?_
  simp only [dotProduct, Pi.sub_apply]
  refine Finset.sum_le_sum fun i _ => ?_
  rw [← mul_assoc, mul_comm (S.s i) (S.inv r i), keep_eq S r hr, hk i]
  unfold keep
  split_ifs
  · simp only [one_mul, sub_self, mul_zero]
    exact mul_self_nonneg _
  · simp

/-- **C125 (everything dropped).**  With `svdConditioning` of one or more nothing is ever corrected. -/
theorem C125_all_dropped (S : Svd M) (r : ℝ) (hr : 1 ≤ r) : S.pinv r = 0 := by
  have : S.inv r = 0 := by
    funext i
    unfold Svd.inv Svd.kept
    rw [if_neg]
    · rfl
    · have h1 := le_top S i
      have h2 := top_nonneg S
      nlinarith
  unfold Svd.pinv
  rw [this]
  simp

/-- The four conditions of Penrose. -/
structure Penrose (M : Matrix (Fin a) (Fin m) ℝ) (P : Matrix (Fin m) (Fin a) ℝ) : Prop where
  one : M * P * M = M
  two : P * M * P = P
  three : (M * P)ᵀ = M * P
  four : (P * M)ᵀ = P * M

theorem penrose_unique (P Q : Matrix (Fin m) (Fin a) ℝ) (hP : Penrose M P) (hQ : Penrose M Q) : P = Q := by
  have h1 : M * P = M * Q := by
    calc M * P = (M * P)ᵀ := hP.three.symm
      _ = ((M * Q * M) * P)ᵀ := by rw [hQ.one]
      _ = (M * P)ᵀ * (M * Q)ᵀ := by rw [Matrix.mul_assoc, Matrix.transpose_mul]
      _ = M * P * (M * Q) := by rw [hP.three, hQ.three]
      _ = M * Q := by rw [← Matrix.mul_assoc, hP.one]
  have h2 : P * M = Q * M := by
    calc P * M = (P * M)ᵀ := hP.four.symm
      _ = (P * (M * Q * M))ᵀ := by rw [hQ.one]
      _ = (Q * M)ᵀ * (P * M)ᵀ := by rw [Matrix.mul_assoc, ← Matrix.mul_assoc P M, Matrix.transpose_mul]
      _ = Q * M * (P * M) := by rw [hP.four, hQ.four]
      _ = Q * M := by rw [Matrix.mul_assoc, ← Matrix.mul_assoc M P M, hP.one]
  calc P = P * M * P := hP.two.symm
    _ = Q * (M * P) := by rw [h2, Matrix.mul_assoc]
    _ = Q := by rw [h1, ← Matrix.mul_assoc, hQ.two]

/-- **C125 (nothing dropped).**  If only singular values of zero are dropped the control matrix is the pseudo-inverse in the sense of Penrose. -/
theorem C125_penrose (S : Svd M) (r : ℝ) (hr : 0 ≤ r) (h : ∀ i, S.s i ≠ 0 → r * S.top < S.s i) : Penrose M (S.pinv r) := by
  have hk : ∀ i, keep S r i * S.s i = S.s i := by
    intro i
    unfold keep
    split_ifs with hc
    · simp
    · have : S.s i = 0 := by
        by_contra h0
        exact hc (h i h0)
      simp [this]
  have hk' : ∀ i, keep S r i * S.inv r i = S.inv r i := by
    intro i
    unfold keep Svd.inv
    split_ifs <;> simp
  have e1 : M * S.pinv r = S.u * (diagonal (keep S r) * S.uᵀ) := by
    have : M * S.pinv r = S.u * (diagonal S.s * S.vt) * S.pinv r := by rw [svd_eq]
    rw [this]
    unfold Svd.pinv
    simp only [Matrix.mul_assoc]
    rw [← Matrix.mul_assoc S.vt S.vtᵀ, S.orthV, Matrix.one_mul, ← Matrix.mul_assoc (diagonal _) (diagonal _), diagonal_mul_diagonal]
    congr 3
    funext i
    rw [mul_comm, keep_eq S r hr]
  have e2 : S.pinv r * M = S.vtᵀ * (diagonal (keep S r) * S.vt) := by
    have : S.pinv r * M = S.pinv r * (S.u * (diagonal S.s * S.vt)) := by rw [svd_eq]
    rw [this]
    unfold Svd.pinv
    simp only [Matrix.mul_assoc]
    rw [← Matrix.mul_assoc S.uᵀ S.u, S.orthU, Matrix.one_mul, ← Matrix.mul_assoc (diagonal _) (diagonal _), diagonal_mul_diagonal]
    congr 3
    funext i
    rw [keep_eq S r hr]
  refine ⟨?_, ?_, ?_, ?_⟩
  · have : M * S.pinv r * M = M * S.pinv r * (S.u * (diagonal S.s * S.vt)) := by rw [svd_eq]
    rw [this, e1]
    simp only [Matrix.mul_assoc]
    rw [← Matrix.mul_assoc S.uᵀ S.u, S.orthU, Matrix.one_mul, ← Matrix.mul_assoc (diagonal _) (diagonal _), diagonal_mul_diagonal]
    simp only [hk]
    exact svd_eq S
  · rw [e2]
    unfold Svd.pinv
    simp only [Matrix.mul_assoc]
    rw [← Matrix.mul_assoc S.vt S.vtᵀ, S.orthV, Matrix.one_mul, ← Matrix.mul_assoc (diagonal _) (diagonal _), diagonal_mul_diagonal]
    simp only [hk']
  · rw [e1, Matrix.transpose_mul, Matrix.transpose_mul, diagonal_transpose, Matrix.transpose_transpose, Matrix.mul_assoc]
  · rw [e2, Matrix.transpose_mul, Matrix.transpose_mul, diagonal_transpose, Matrix.transpose_transpose, Matrix.mul_assoc]

/-- **C125 (default).**  With the default `svdConditioning` of zero (confParse.py:1018) nothing but singular values of zero is dropped. -/
theorem C125_default (S : Svd M) : Penrose M (S.pinv 0) :=
  C125_penrose S 0 le_rfl fun i h => by
    rw [zero_mul]
    exact lt_of_le_of_ne (S.nonneg i) (Ne.symm h)

private noncomputable def scaledSvd (S : Svd M) (v : ℝ) : Svd (v • M) where
  u := (if 0 ≤ v then (1 : ℝ) else -1) • S.u
  s := fun i => |v| * S.s i
  vt := S.vt
  orthU := by
    rw [Matrix.transpose_smul, Matrix.smul_mul, Matrix.mul_smul, S.orthU, smul_smul]
    split_ifs <;> simp
  orthV := S.orthV
  nonneg := fun i => mul_nonneg (abs_nonneg v) (S.nonneg i)
  eq := by
    have e : diagonal (fun i => |v| * S.s i) = |v| • diagonal S.s := by
      rw [← diagonal_smul]
      rfl
    rw [e, Matrix.smul_mul, Matrix.mul_smul, smul_smul, Matrix.smul_mul, S.eq]
    congr 1
    split_ifs with h
    · rw [one_mul, abs_of_nonneg h]
    · rw [abs_of_neg (not_le.mp h)]
      ring

/-- **C125 (units).**  If all entries of the interaction matrix are multiplied by the same number, those of the control matrix are divided by it: the same modes are dropped. -/
theorem C125_scaled (v : ℝ) (hv : v ≠ 0) (S : Svd M) (T : Svd (v • M)) (r : ℝ) (hr : 0 ≤ r) : T.pinv r = v⁻¹ • S.pinv r := by
  rw [C125_unique T (scaledSvd S v) r hr]
  have ht : (scaledSvd S v).top = |v| * S.top := (Real.mul_iSup_of_nonneg (abs_nonneg v) S.s).symm
  have hp : 0 < |v| := abs_pos.mpr hv
  have hi : (scaledSvd S v).inv r = fun i => |v|⁻¹ * S.inv r i := by
    funext i
    have e : (scaledSvd S v).kept r i ↔ S.kept r i := by
      unfold Svd.kept
      rw [ht, show r * (|v| * S.top) = |v| * (r * S.top) by ring]
      exact mul_lt_mul_iff_right₀ hp
    unfold Svd.inv
    by_cases h : S.kept r i
    · rw [if_pos h, if_pos (e.mpr h)]
      change 1 / (|v| * S.s i) = _
      rw [one_div, mul_inv, one_div]
    · rw [if_neg h, if_neg (fun hc => h (e.mp hc)), mul_zero]
  unfold Svd.pinv
  rw [hi]
  change S.vtᵀ * (diagonal (fun i => |v|⁻¹ * S.inv r i) * ((if 0 ≤ v then (1 : ℝ) else -1) • S.u)ᵀ) = _
  have e : diagonal (fun i => |v|⁻¹ * S.inv r i) = |v|⁻¹ • diagonal (S.inv r) := by
    rw [← diagonal_smul]
    rfl
  rw [e, Matrix.transpose_smul, Matrix.smul_mul, Matrix.mul_smul, Matrix.mul_smul, Matrix.mul_smul, smul_smul]
  congr 1
  split_ifs with h
  · rw [abs_of_nonneg h, mul_one]
  · rw [abs_of_neg (not_le.mp h), inv_neg, neg_mul_neg, mul_one]

/-! ### The loop -/

open Soapy.Loop Soapy.Control Soapy.Vec

/-- How much of a mode (weights `w` of the first `n` commands) there is in commands. -/
noncomputable def along (w : ℕ → ℝ) (n : ℕ) (c : List ℚ) : ℝ := ∑ p ∈ Finset.range n, w p * ((c.getD p 0 : ℚ) : ℝ)

private theorem along_zeroLike (w : ℕ → ℝ) (n : ℕ) (c : List ℚ) : along w n (zeroLike c) = 0 := by
  refine Finset.sum_eq_zero fun p _ => ?_
  have : (zeroLike c).getD p 0 = 0 := by
    simp only [zeroLike, List.getD_eq_getElem?_getD, List.getElem?_map]
    cases c[p]? <;> simp
  rw [this]
  simp

private theorem along_zeros (w : ℕ → ℝ) (n k : ℕ) : along w n (zeros k) = 0 := by
  refine Finset.sum_eq_zero fun p _ => ?_
  have : (zeros k).getD p 0 = 0 := by
    simp only [zeros, List.getD_eq_getElem?_getD, List.getElem?_replicate]
    split_ifs <;> simp
  rw [this]
  simp

private theorem along_gain (w : ℕ → ℝ) (dms : List DmCtl) (b : Bool) (g : ℚ) (hd : ∀ d ∈ dms, d.closed = b ∧ d.gain = g) (act new act' : List ℚ) (ha : act.length = nCommands dms)
    (hn : new.length = nCommands dms) (h : applyGain dms 0 act new = .ok act') (h1 : along w (nCommands dms) act = 0) (h2 : along w (nCommands dms) new = 0) :
    act'.length = nCommands dms ∧ along w (nCommands dms) act' = 0 := by
  obtain ⟨x, hx, hl, hg⟩ := C11_gain_per_mirror dms act new ha hn
  rw [h, Except.ok.injEq] at hx
  subst hx
  refine ⟨hl, ?_⟩
  have e : ∀ p ∈ Finset.range (nCommands dms), w p * ((act'.getD p 0 : ℚ) : ℝ) = (if b then 1 else 1 - (g : ℝ)) * (w p * ((act.getD p 0 : ℚ) : ℝ)) + g * (w p * ((new.getD p 0 : ℚ) : ℝ)) := by
    intro p hp
    obtain ⟨⟨k, j⟩, ⟨c, hk, hj, hpe⟩, _⟩ := C11_blocks_partition dms p (by simpa [nCommands] using hp)
    dsimp only at hk hj hpe
    obtain ⟨y, z, hy, hz, ho⟩ := hg k c hk j hj
    obtain ⟨hc1, hc2⟩ := hd c (List.mem_of_getElem? hk)
    rw [← hpe] at hy hz ho
    simp only [List.getD_eq_getElem?_getD, hy, hz, ho, Option.getD_some, hc1, hc2]
    cases b <;> simp <;> ring
  unfold along at *
  rw [Finset.sum_congr rfl e, Finset.sum_add_distrib, ← Finset.mul_sum, ← Finset.mul_sum, h1, h2]
  simp

private theorem pop_mem {α : Type} : ∀ (k : ℕ) (buf : List α) (r : Option α) (buf' : List α) (r' : Option α), Delay.popLoop k buf r = .ok (buf', r') →
    (∀ x ∈ buf', x ∈ buf) ∧ (∀ x, r' = some x → x ∈ buf ∨ r = some x)
  | 0, buf, r, buf', r', h => by
    simp only [Delay.popLoop, Except.ok.injEq, Prod.mk.injEq] at h
    obtain ⟨rfl, rfl⟩ := h
    exact ⟨fun _ h => h, fun _ h => Or.inr h⟩
  | _ + 1, [], _, _, _, h => by simp [Delay.popLoop] at h
  | k + 1, y :: buf, _, buf', r', h => by
    obtain ⟨h1, h2⟩ := pop_mem k buf (some y) buf' r' h
    refine ⟨fun x hx => by simp [h1 x hx], fun x hx => ?_⟩
    rcases h2 x hx with h | h
    · simp [h]
    · simp at h; simp [h]

private theorem delay_mem (buf : List (List ℚ)) (v : List ℚ) (c : ℤ) (buf' : List (List ℚ)) (out : List ℚ) (h : Delay.delay zeroLike buf v c = .ok (buf', out)) :
    (∀ x ∈ buf', x ∈ buf ∨ x = v) ∧ (out ∈ buf ∨ out = v ∨ out = zeroLike v) := by
  unfold Delay.delay at h
  simp only at h
  split_ifs at h with hc
  · simp only [Except.ok.injEq, Prod.mk.injEq] at h
    obtain ⟨rfl, rfl⟩ := h
    exact ⟨fun x hx => by simpa using hx, Or.inr (Or.inr rfl)⟩
  · cases hp : Delay.popLoop (((buf ++ [v]).length : ℤ) - c).toNat (buf ++ [v]) none with
    | error e => rw [hp] at h; cases h
    | ok q =>
      obtain ⟨b, r⟩ := q
      rw [hp] at h
      cases r with
      | none => cases h
      | some r =>
        simp only [Except.ok.injEq, Prod.mk.injEq] at h
        obtain ⟨rfl, rfl⟩ := h
        obtain ⟨h1, h2⟩ := pop_mem _ _ _ _ _ hp
        refine ⟨fun x hx => by simpa using h1 x hx, ?_⟩
        rcases h2 r rfl with h | h
        · rcases List.mem_append.mp h with h | h
          · exact Or.inl h
          · exact Or.inr (Or.inl (by simpa using h))
        · cases h

/-- The state of a loop that has none of a mode in its commands. -/
structure NoneOf {σ Surf : Type} (w : ℕ → ℝ) (n : ℕ) (s : Loop.State σ Surf) : Prop where
  recon : ∀ v, s.recon.actuatorValues = some v → v.length = n ∧ along w n v = 0
  live : along w n s.dmCommands = 0
  buffer : ∀ c ∈ s.buffer, along w n c = 0

private theorem control_none {Surf : Type} (w : ℕ → ℝ) (sys : Sys Surf) (dms : List DmCtl) (hprod : ∀ x new, sys.product x = .ok new → new.length = nCommands dms ∧ along w (nCommands dms) new = 0)
    (b : Bool) (g : ℚ) (hd : ∀ d ∈ dms, d.closed = b ∧ d.gain = g) (recon recon' : Recon) (live x cmds : List ℚ) (buf buf' : List (List ℚ))
    (hr : ∀ v, recon.actuatorValues = some v → v.length = nCommands dms ∧ along w (nCommands dms) v = 0) (hl : along w (nCommands dms) live = 0) (hb : ∀ c ∈ buf, along w (nCommands dms) c = 0)
    (h : Loop.control sys dms recon live buf x = .ok (recon', buf', cmds)) :
    (∀ v, recon'.actuatorValues = some v → v.length = nCommands dms ∧ along w (nCommands dms) v = 0) ∧ (∀ c ∈ buf', along w (nCommands dms) c = 0) ∧ along w (nCommands dms) cmds = 0 := by
  have fin : ∀ v : List ℚ, along w (nCommands dms) v = 0 → ∀ buf' out, Delay.delay zeroLike buf v sys.loopDelay = .ok (buf', out) → (∀ c ∈ buf', along w (nCommands dms) c = 0) ∧ along w (nCommands dms) out = 0 := by
    intro v hv buf' out hd
    obtain ⟨h1, h2⟩ := delay_mem _ _ _ _ _ hd
    refine ⟨fun c hc => ?_, ?_⟩
    · rcases h1 c hc with h | rfl
      · exact hb c h
      · exact hv
    · rcases h2 with h | rfl | rfl
      · exact hb _ h
      · exact hv
      · exact along_zeroLike _ _ _
  unfold Loop.control at h
  by_cases h0 : dms.length = 0
  · simp only [h0, if_true] at h
    cases hdel : Delay.delay zeroLike buf live sys.loopDelay with
    | error e => rw [hdel] at h; cases h
    | ok q =>
      obtain ⟨bb, out⟩ := q
      rw [hdel] at h
      simp only [Except.ok.injEq, Prod.mk.injEq] at h
      obtain ⟨rfl, rfl, rfl⟩ := h
      obtain ⟨f1, f2⟩ := fin live hl _ _ hdel
      exact ⟨hr, f1, f2⟩
  · simp only [h0, if_false] at h
    cases hre : reconstruct dms (dms.map DmCtl.nValid).sum sys.product recon x with
    | error e => rw [hre] at h; cases h
    | ok q =>
      obtain ⟨rc, new⟩ := q
      rw [hre] at h
      simp only at h
      split_ifs at h with hlen
      simp only at h
      cases hdel : Delay.delay zeroLike buf new sys.loopDelay with
      | error e => rw [hdel] at h; cases h
      | ok q =>
        obtain ⟨bb, out⟩ := q
        rw [hdel] at h
        simp only [Except.ok.injEq, Prod.mk.injEq] at h
        obtain ⟨rfl, rfl, rfl⟩ := h
        unfold reconstruct at hre
        cases hp : sys.product x with
        | error e => rw [hp] at hre; cases hre
        | ok u =>
          rw [hp] at hre
          simp only at hre
          obtain ⟨hu1, hu2⟩ := hprod x u hp
          have hact : ∀ act, act.length = nCommands dms → along w (nCommands dms) act = 0 → ∀ act', applyGain dms 0 act u = .ok act' → act'.length = nCommands dms ∧ along w (nCommands dms) act' = 0 :=
            fun act e1 e2 act' e3 => along_gain w dms b g hd act u act' e1 hu1 e3 e2 hu2
          cases hrv : recon.actuatorValues with
          | none =>
            rw [hrv] at hre
            simp only at hre
            cases hag : applyGain dms 0 (zeros (dms.map DmCtl.nValid).sum) u with
            | error e => rw [hag] at hre; cases hre
            | ok act' =>
              rw [hag] at hre
              simp only [Except.ok.injEq, Prod.mk.injEq] at hre
              obtain ⟨rfl, rfl⟩ := hre
              obtain ⟨a1, a2⟩ := hact _ (by simp [zeros, nCommands]) (along_zeros _ _ _) _ hag
              obtain ⟨f1, f2⟩ := fin _ a2 _ _ hdel
              exact ⟨fun v hv => by cases hv; exact ⟨a1, a2⟩, f1, f2⟩
          | some v0 =>
            rw [hrv] at hre
            simp only at hre
            cases hag : applyGain dms 0 v0 u with
            | error e => rw [hag] at hre; cases hre
            | ok act' =>
              rw [hag] at hre
              simp only [Except.ok.injEq, Prod.mk.injEq] at hre
              obtain ⟨rfl, rfl⟩ := hre
              obtain ⟨v1, v2⟩ := hr v0 hrv
              obtain ⟨a1, a2⟩ := hact _ v1 v2 _ hag
              obtain ⟨f1, f2⟩ := fin _ a2 _ _ hdel
              exact ⟨fun v hv => by cases hv; exact ⟨a1, a2⟩, f1, f2⟩

private theorem frame_none' {σ Surf : Type} [Add Surf] (w : ℕ → ℝ) (sys : Sys Surf) (pl : Plant σ Surf) (dms : List DmCtl)
    (hprod : ∀ x new, sys.product x = .ok new → new.length = nCommands dms ∧ along w (nCommands dms) new = 0)
    (b : Bool) (g : ℚ) (hd : ∀ d ∈ dms, d.closed = b ∧ d.gain = g) (s s' : Loop.State σ Surf) (t : Trace Surf) (hs : NoneOf w (nCommands dms) s) (h : loopFrame sys pl dms s = .ok (s', t)) :
    NoneOf w (nCommands dms) s' ∧ along w (nCommands dms) t.cmds = 0 := by
  unfold loopFrame at h
  cases hc : Loop.control sys dms s.recon s.dmCommands s.buffer s.slopes with
  | error e => rw [hc] at h; cases h
  | ok q =>
    obtain ⟨rc, bf, cm⟩ := q
    obtain ⟨k1, k2, k3⟩ := control_none w sys dms hprod b g hd _ _ _ _ _ _ _ hs.recon hs.live hs.buffer hc
    rw [hc] at h
    simp only at h
    cases h1 : runDM sys.surface true cm 0 dms (firstActs dms 0) s.closedCorr with
    | error e => rw [h1] at h; cases h
    | ok cc =>
      rw [h1] at h
      simp only at h
      cases h2 : pl.sense s.plant s.iters cc with
      | error e => rw [h2] at h; cases h
      | ok q =>
        obtain ⟨p', sl⟩ := q
        rw [h2] at h
        simp only at h
        cases h3 : runDM sys.surface false cm 0 dms (firstActs dms 0) s.openCorr with
        | error e => rw [h3] at h; cases h
        | ok oc =>
          rw [h3] at h
          simp only at h
          split_ifs at h
          cases h4 : storeRow sys.saveSlopes s.allSlopes (s.iters % sys.nIters) sl with
          | error e => rw [h4] at h; cases h
          | ok as =>
            rw [h4] at h
            simp only at h
            cases h5 : storeRow sys.saveDmCommands s.allDmCommands (s.iters % sys.nIters) cm with
            | error e => rw [h5] at h; cases h
            | ok ad =>
              rw [h5] at h
              simp only [Except.ok.injEq, Prod.mk.injEq] at h
              obtain ⟨rfl, rfl⟩ := h
              exact ⟨⟨k1, k3, k2⟩, k3⟩

/-- **C125 (loop).**  If no measurement can excite a mode (`C125_modes` for a mode that was dropped), there is none of it in the commands of any frame, whatever atmosphere, sensors and noise do, as long as in each frame all mirrors have the same gain and mode.
(`NoneOf` holds after `aoinit`.) -/
theorem C125_loop_partial {σ Surf : Type} [Add Surf] (w : ℕ → ℝ) (n : ℕ) (sys : Sys Surf) (pl : Plant σ Surf) (hprod : ∀ x new, sys.product x = .ok new → new.length = n ∧ along w n new = 0) :
    ∀ (frames : List (List DmCtl)), (∀ dms ∈ frames, nCommands dms = n ∧ ∃ b g, ∀ d ∈ dms, d.closed = b ∧ d.gain = g) → ∀ (s s' : Loop.State σ Surf) (ts : List (Trace Surf)), NoneOf w n s →
      runLoop sys pl s frames = .ok (s', ts) → NoneOf w n s' ∧ ∀ t ∈ ts, along w n t.cmds = 0
  | [], _, s, s', ts, hs, h => by
    simp only [runLoop, Except.ok.injEq, Prod.mk.injEq] at h
    obtain ⟨rfl, rfl⟩ := h
    exact ⟨hs, by simp⟩
  | dms :: rest, hf, s, s', ts, hs, h => by
    obtain ⟨rfl, b, g, hd⟩ := hf dms (by simp)
    simp only [runLoop] at h
    cases h1 : loopFrame sys pl dms s with
    | error e => rw [h1] at h; cases h
    | ok q =>
      obtain ⟨s1, t1⟩ := q
      rw [h1] at h
      simp only at h
      obtain ⟨k1, k2⟩ := frame_none' w sys pl dms hprod b g hd s s1 t1 hs h1
      cases h2 : runLoop sys pl s1 rest with
      | error e => rw [h2] at h; cases h
      | ok q =>
        obtain ⟨s2, ts2⟩ := q
        rw [h2] at h
        simp only [Except.ok.injEq, Prod.mk.injEq] at h
        obtain ⟨rfl, rfl⟩ := h
        obtain ⟨m1, m2⟩ := C125_loop_partial w _ sys pl hprod rest (fun d hd => hf d (by simp [hd])) s1 s2 ts2 k1 h2
        exact ⟨m1, by intro t ht; rcases List.mem_cons.mp ht with rfl | ht; exacts [k2, m2 t ht]⟩

/-- The state after `aoinit` has none of any mode. -/
theorem C125_initial {σ Surf : Type} [Zero Surf] (w : ℕ → ℝ) (n : ℕ) (sys : Sys Surf) (dms : List DmCtl) (nMeas nActs : ℕ) (plant : σ) : NoneOf w n (initial sys dms nMeas nActs plant) :=
  ⟨fun v h => by simp [initial] at h, by simp only [initial]; exact along_zeros _ _ _, fun c h => by simp [initial] at h⟩

/-- **C125 (the product).**  A control matrix with the entries of `pinv` satisfies the hypothesis of `C125_loop_partial` for every mode that it drops. -/
theorem C125_unseen (S : Svd M) (r : ℝ) (hr : 0 ≤ r) (P : List (List ℚ)) (hrows : P.length = m) (hcols : ∀ row ∈ P, row.length = a) (hP : ∀ (k : Fin m) (p : Fin a), (((P.getD k []).getD p 0 : ℚ) : ℝ) = S.pinv r k p)
    (i : Fin (min a m)) (hi : S.s i ≤ r * S.top) (x new : List ℚ) (h : tdot a P x = .ok new) : new.length = a ∧ along (fun p => if hp : p < a then S.u ⟨p, hp⟩ i else 0) a new = 0 := by
  have hx : P.length = x.length := by
    by_contra hne
    rw [tdot, if_neg hne] at h
    cases h
  obtain ⟨c, hc, hl, hg⟩ := tdot_get a P x hx hcols
  rw [h, Except.ok.injEq] at hc
  subst hc
  refine ⟨hl, ?_⟩
  have h0 := ((C125_modes S r hr i).2 hi).2 fun k => ((x.getD k 0 : ℚ) : ℝ)
  refine Eq.trans ?_ h0
  unfold along
  rw [Finset.sum_range]
  refine Finset.sum_congr rfl fun p _ => ?_
  beta_reduce
  rw [dif_pos p.2, hg p p.2, hrows, Finset.sum_range]
  congr 1
  push_cast
  unfold commands
  simp only [mulVec, dotProduct, Matrix.transpose_apply]
  exact Finset.sum_congr rfl fun k _ => by rw [← hP]

/-- **C125 (different gains).**  With different gains a mode that no measurement excites appears in the commands all the same. -/
theorem C125_gains_violated : ∃ (sys : Sys ℚ) (pl : Plant Unit ℚ) (dms : List DmCtl) (w : ℕ → ℝ) (s' : Loop.State Unit ℚ) (t : Trace ℚ),
    (∀ x new, sys.product x = .ok new → new.length = nCommands dms ∧ along w (nCommands dms) new = 0) ∧ (∀ d ∈ dms, d.closed = true) ∧
    runLoop sys pl (initial sys dms 1 2 ()) [dms] = .ok (s', [t]) ∧ along w (nCommands dms) t.cmds ≠ 0 := by
  refine ⟨⟨fun _ c => .ok (c.getD 0 0), fun _ => .ok [1, 1], 0, 1, false, false⟩, ⟨fun _ _ _ => .ok ((), [0])⟩, [⟨1, true, 1 / 2⟩, ⟨1, true, 1 / 4⟩], fun p => if p = 0 then 1 else -1,
    ⟨⟨some [1 / 2, 1 / 4]⟩, [1 / 2, 1 / 4], [], [0], [1 / 2, 1 / 4], [0, 0], 1, [[0]], [[0, 0]], ()⟩, ⟨[1 / 2, 1 / 4], [1 / 2, 1 / 4], [0], [1 / 2, 1 / 4]⟩, ?_, ?_, ?_, ?_⟩
  · intro x new h
    simp only [Except.ok.injEq] at h
    subst h
    refine ⟨rfl, ?_⟩
    simp [along, nCommands, Finset.sum_range_succ]
  · simp
  · norm_num [runLoop, loopFrame, Loop.control, reconstruct, applyGain, assign, slice, newValues, initial, zeros, Delay.delay, Delay.popLoop, firstActs, runDM, storeRow, List.replicate]
  · norm_num [along, nCommands, Finset.sum_range_succ]

/-! ### An example: two actuators, the second hardly seen -/

def one22 : Matrix (Fin 2) (Fin 2) ℝ := 1

private theorem one22_left : one22ᵀ * one22 = 1 := by simp [one22]
private theorem one22_right : one22 * one22ᵀ = 1 := by simp [one22]
private theorem one22_diag (s : Fin 2 → ℝ) : one22 * diagonal s * one22 = diagonal s := by simp [one22]

/-- A decomposition of a diagonal matrix. -/
noncomputable def diagSvd (s : Fin 2 → ℝ) (h : ∀ i, 0 ≤ s i) : Svd (diagonal s) where
  u := one22
  s := s
  vt := one22
  orthU := one22_left
  orthV := one22_right
  nonneg := h
  eq := one22_diag s

theorem diagSvd_top (s : Fin 2 → ℝ) (h : ∀ i, 0 ≤ s i) : (diagSvd s h).top = max (s 0) (s 1) := by
  have e : (diagSvd s h).top = ⨆ i : Fin 2, s i := rfl
  rw [e]
  refine le_antisymm (ciSup_le fun i => ?_) (max_le (le_ciSup (Set.finite_range s).bddAbove 0) (le_ciSup (Set.finite_range s).bddAbove 1))
  fin_cases i
  · exact le_max_left _ _
  · exact le_max_right _ _

theorem diagSvd_pinv (s : Fin 2 → ℝ) (h : ∀ i, 0 ≤ s i) (r : ℝ) : (diagSvd s h).pinv r = diagonal fun i : Fin 2 => (diagSvd s h).inv r i := by
  change one22ᵀ * (diagonal (fun i : Fin 2 => (diagSvd s h).inv r i) * one22ᵀ) = _
  simp [one22]

theorem diagSvd_commands (s : Fin 2 → ℝ) (h : ∀ i, 0 ≤ s i) (r : ℝ) (x : Fin 2 → ℝ) (i : Fin 2) : commands ((diagSvd s h).pinv r) x i = (diagSvd s h).inv r i * x i := by
  rw [commands, diagSvd_pinv, diagonal_transpose, mulVec_diagonal]

theorem hardly (b : ℝ) (hb : 0 ≤ b) : ∀ i : Fin 2, 0 ≤ (![1, b] : Fin 2 → ℝ) i := by
  intro i
  fin_cases i
  · exact zero_le_one
  · exact hb

/-- With `svdConditioning` 0.05 an actuator seen a hundredth as well as another is not used. -/
example (x : Fin 2 → ℝ) : (diagSvd ![1, 1 / 100] (hardly _ (by norm_num))).uᵀ (1 : Fin 2) ⬝ᵥ commands ((diagSvd ![1, 1 / 100] (hardly _ (by norm_num))).pinv (1 / 20)) x = 0 := by
  refine ((C125_modes (diagSvd ![1, 1 / 100] (hardly _ (by norm_num))) (1 / 20) (by norm_num) (1 : Fin 2)).2 ?_).2 x
  rw [diagSvd_top]
  change (1 / 100 : ℝ) ≤ _
  norm_num

example : ¬ (diagSvd ![1, 1 / 100] (hardly _ (by norm_num))).pinv 0 = 0 := by
  intro h
  have := (C125_default (diagSvd ![1, 1 / 100] (hardly _ (by norm_num)))).one
  rw [h] at this
  have := congrFun (congrFun this 0) 0
  simp at this

end Soapy.Props
