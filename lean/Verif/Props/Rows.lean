/-
Property theorems C115: an infinite screen stays turbulence of the model it was made for.
-/
import Verif.Model.Rows
import Mathlib.LinearAlgebra.Finsupp.LinearCombination
import Mathlib.Tactic.FieldSimp
import Mathlib.Tactic.Linarith
import Mathlib.Tactic.NormNum

namespace Soapy.Props

open Soapy.Rows Finset

/-- **C115 (separations).** The separations are distances: not negative, zero between a position and itself, the same in both orders, and unchanged when all positions are shifted. -/
theorem C115_separations (p q d : ℝ × ℝ) : 0 ≤ separation p q ∧ separation p p = 0 ∧ separation p q = separation q p ∧ separation (p + d) (q + d) = separation p q ∧
    separation p q ^ 2 = (q.1 - p.1) ^ 2 + (q.2 - p.2) ^ 2 := by
  refine ⟨Real.sqrt_nonneg _, by simp [separation], ?_, ?_, ?_⟩
  · unfold separation; congr 1; ring
  · unfold separation; congr 1; simp only [Prod.fst_add, Prod.snd_add]; ring
  · unfold separation; exact Real.sq_sqrt (by positivity)

/-- The covariance the model of turbulence has between pixel `i` of a row and pixel `j` of the row `r` rows later. -/
noncomputable def modelCov (c : ℝ → ℝ) (s r : ℝ) (i j : ℕ) : ℝ := c (√((r * s) ^ 2 + (((j : ℝ) - i) * s) ^ 2))

private theorem modelCov_symm (c : ℝ → ℝ) (s r : ℝ) (i j : ℕ) : modelCov c s r i j = modelCov c s (-r) j i := by
  unfold modelCov; congr 2; ring

private theorem modelCov_neg (c : ℝ → ℝ) (s r : ℝ) (i j : ℕ) : modelCov c s r i j = modelCov c s (-r) i j := by
  unfold modelCov; congr 2; ring

variable {H : Type} [AddCommGroup H] [Module ℝ H] {m N : ℕ}

private theorem grow_init (A : Matrix (Fin N) (Fin m × Fin N) ℝ) (B : Matrix (Fin N) (Fin N) ℝ) (init noise : ℕ → Fin N → H) (n : ℕ) (h : n < m) : grow A B init noise n = init n := by
  rw [grow, if_pos h]

private theorem grow_new (A : Matrix (Fin N) (Fin m × Fin N) ℝ) (B : Matrix (Fin N) (Fin N) ℝ) (init noise : ℕ → Fin N → H) (n : ℕ) (h : m ≤ n) (i : Fin N) :
    grow A B init noise n i = ∑ a : Fin m × Fin N, A i a • grow A B init noise (n - 1 - a.1) a.2 + ∑ l, B i l • noise n l := by
  rw [grow, if_neg (by omega)]
  unfold newRow
  congr 1
  refine Finset.sum_congr rfl fun a _ => ?_
  have ha : n - 1 - (a.1 : ℕ) < n := by have := a.1.2; omega
  simp only [ha, dif_pos]

/-- The random numbers: uncorrelated, of variance one, and uncorrelated with the first rows. -/
def FreshNoise (E : H →ₗ[ℝ] H →ₗ[ℝ] ℝ) (m : ℕ) (init noise : ℕ → Fin N → H) : Prop :=
  (∀ n k l l', m ≤ n → m ≤ k → E (noise n l) (noise k l') = if n = k ∧ l = l' then 1 else 0) ∧ ∀ n k l j, m ≤ n → k < m → E (noise n l) (init k j) = 0

private theorem noise_orth (E : H →ₗ[ℝ] H →ₗ[ℝ] ℝ) (A : Matrix (Fin N) (Fin m × Fin N) ℝ) (B : Matrix (Fin N) (Fin N) ℝ) (init noise : ℕ → Fin N → H) (hf : FreshNoise E m init noise)
    (n : ℕ) (hn : m ≤ n) (l : Fin N) (k : ℕ) (hk : k < n) (j : Fin N) : E (noise n l) (grow A B init noise k j) = 0 := by
  induction k using Nat.strong_induction_on generalizing j with
  | _ k ih =>
    by_cases hkm : k < m
    · rw [grow_init _ _ _ _ _ hkm]; exact hf.2 n k l j hn hkm
    · rw [grow_new _ _ _ _ _ (by omega), map_add, map_sum, map_sum]
      rw [Finset.sum_eq_zero, Finset.sum_eq_zero, add_zero]
      · intro x _
        rw [map_smul, hf.1 n k l x hn (by omega), if_neg (by omega), smul_zero]
      · intro a _
        have := a.1.2
        rw [map_smul, ih _ (by omega) (by omega), smul_zero]

/-- The first rows have the covariances of the model. -/
def ModelStart (E : H →ₗ[ℝ] H →ₗ[ℝ] ℝ) (c : ℝ → ℝ) (s : ℝ) (m : ℕ) (init : ℕ → Fin N → H) : Prop :=
  ∀ n k i j, n < m → k < m → E (init n i) (init k j) = modelCov c s ((k : ℝ) - n) i j

private theorem block11 (c : ℝ → ℝ) (s : ℝ) (a b : Fin m × Fin N) : (covariances c s).toBlocks₁₁ a b = modelCov c s ((b.1 : ℝ) - a.1) a.2 b.2 := by
  simp only [Matrix.toBlocks₁₁, Matrix.of_apply, covariances, Matrix.map_apply, separations, separation, positions, modelCov]
  congr 2; ring

private theorem block21 (c : ℝ → ℝ) (s : ℝ) (i : Fin N) (b : Fin m × Fin N) : (covariances c s).toBlocks₂₁ i b = modelCov c s ((b.1 : ℝ) + 1) i b.2 := by
  simp only [Matrix.toBlocks₂₁, Matrix.of_apply, covariances, Matrix.map_apply, separations, separation, positions, modelCov]
  congr 2; ring

private theorem block12 (c : ℝ → ℝ) (s : ℝ) (i : Fin N) (b : Fin m × Fin N) : (covariances c s).toBlocks₁₂ b i = modelCov c s ((b.1 : ℝ) + 1) i b.2 := by
  simp only [Matrix.toBlocks₁₂, Matrix.of_apply, covariances, Matrix.map_apply, separations, separation, positions, modelCov]
  congr 2; ring

private theorem block22 (c : ℝ → ℝ) (s : ℝ) (i j : Fin N) : (covariances (m := m) c s).toBlocks₂₂ i j = modelCov c s 0 i j := by
  simp only [Matrix.toBlocks₂₂, Matrix.of_apply, covariances, Matrix.map_apply, separations, separation, positions, modelCov]
  congr 2; ring

/-- **C115 (rows).** An infinite screen that starts with the covariances of the model keeps them for ever: in every frame the covariance of two pixels, in rows not further apart than the stencil is deep, is the one the
model has for their separation. -/
theorem C115_rows (E : H →ₗ[ℝ] H →ₗ[ℝ] ℝ) (hE : ∀ x y, E x y = E y x) (c : ℝ → ℝ) (s : ℝ) (A : Matrix (Fin N) (Fin m × Fin N) ℝ) (B : Matrix (Fin N) (Fin N) ℝ)
    (hAB : IsRowFilter (covariances c s) A B) (init noise : ℕ → Fin N → H) (hf : FreshNoise E m init noise) (h0 : ModelStart E c s m init)
    (n k : ℕ) (hnk : n ≤ k + m) (hkn : k ≤ n + m) (i j : Fin N) :
    E (grow A B init noise n i) (grow A B init noise k j) = modelCov c s ((k : ℝ) - n) i j := by
  have key : ∀ t n k : ℕ, n ≤ t → k ≤ t → n ≤ k + m → k ≤ n + m → ∀ i j : Fin N, E (grow A B init noise n i) (grow A B init noise k j) = modelCov c s ((k : ℝ) - n) i j := by
    intro t
    induction t using Nat.strong_induction_on with
    | _ t ih =>
      -- the newest row with an older one
      have old : ∀ k, m ≤ t → k < t → t ≤ k + m → ∀ i j : Fin N, E (grow A B init noise t i) (grow A B init noise k j) = modelCov c s ((k : ℝ) - t) i j := by
        intro k hm hk hkt i j
        rw [grow_new _ _ _ _ _ hm, map_add, LinearMap.add_apply, map_sum, map_sum, LinearMap.sum_apply, LinearMap.sum_apply]
        have e2 : ∑ l, (E (B i l • noise t l)) (grow A B init noise k j) = 0 := by
          refine Finset.sum_eq_zero fun l _ => ?_
          rw [map_smul, LinearMap.smul_apply, noise_orth E A B init noise hf t hm l k hk, smul_zero]
        have hb : t - 1 - k < m := by omega
        have e1 : ∑ a : Fin m × Fin N, (E (A i a • grow A B init noise (t - 1 - a.1) a.2)) (grow A B init noise k j) =
            (A * (covariances (m := m) (N := N) c s).toBlocks₁₁ : Matrix (Fin N) (Fin m × Fin N) ℝ) i (⟨t - 1 - k, hb⟩, j) := by
          rw [Matrix.mul_apply]
          refine Finset.sum_congr rfl fun a _ => ?_
          have ha := a.1.2
          rw [map_smul, LinearMap.smul_apply, ih (t - 1) (by omega) _ _ (by omega) (by omega) (by omega) (by omega), block11, smul_eq_mul]
          rw [modelCov_neg]
          congr 2
          have h1 : ((t - 1 - (a.1 : ℕ) : ℕ) : ℝ) = t - 1 - (a.1 : ℕ) := by rw [Nat.sub_sub, Nat.cast_sub (by omega)]; push_cast; ring
          have h2 : ((t - 1 - k : ℕ) : ℝ) = t - 1 - k := by rw [Nat.sub_sub, Nat.cast_sub (by omega)]; push_cast; ring
          show -((k : ℝ) - ((t - 1 - (a.1 : ℕ) : ℕ) : ℝ)) = ((t - 1 - k : ℕ) : ℝ) - (a.1 : ℕ)
          rw [h1, h2]
          ring
        rw [e1, e2, add_zero, hAB.1, block21]
        have h2 : ((t - 1 - k : ℕ) : ℝ) = t - 1 - k := by rw [Nat.sub_sub, Nat.cast_sub (by omega)]; push_cast; ring
        simp only [h2, modelCov]
        congr 2
        ring
      -- the newest row with itself
      have same : m ≤ t → ∀ i j : Fin N, E (grow A B init noise t i) (grow A B init noise t j) = modelCov c s 0 i j := by
        intro hm i j
        have hexp : E (grow A B init noise t i) (grow A B init noise t j) =
            ∑ a : Fin m × Fin N, A i a * E (grow A B init noise (t - 1 - a.1) a.2) (grow A B init noise t j) + ∑ l, B i l * E (noise t l) (grow A B init noise t j) := by
          conv_lhs => rw [grow_new A B init noise t hm i]
          rw [map_add, LinearMap.add_apply, map_sum, map_sum, LinearMap.sum_apply, LinearMap.sum_apply]
          simp only [map_smul, LinearMap.smul_apply, smul_eq_mul]
        have hnoise : ∀ l, E (noise t l) (grow A B init noise t j) = B j l := by
          intro l
          rw [grow_new _ _ _ _ _ hm, map_add, map_sum, map_sum, Finset.sum_eq_zero, zero_add]
          · simp only [map_smul, smul_eq_mul, hf.1 t t l _ hm hm, true_and, mul_ite, mul_one, mul_zero, Finset.sum_ite_eq, Finset.mem_univ, if_true]
          · intro a _
            have := a.1.2
            rw [map_smul, noise_orth E A B init noise hf t hm l _ (by omega), smul_zero]
        have hold : ∀ a : Fin m × Fin N, E (grow A B init noise (t - 1 - a.1) a.2) (grow A B init noise t j) = (covariances c s).toBlocks₁₂ a j := by
          intro a
          have ha := a.1.2
          rw [hE, old _ hm (by omega) (by omega), block12]
          have h1 : ((t - 1 - (a.1 : ℕ) : ℕ) : ℝ) = t - 1 - (a.1 : ℕ) := by rw [Nat.sub_sub, Nat.cast_sub (by omega)]; push_cast; ring
          rw [h1, modelCov, modelCov]
          congr 2
          ring
        rw [hexp]
        simp only [hnoise, hold]
        have hBB := congrFun (congrFun hAB.2 i) j
        rw [Matrix.mul_apply, Matrix.sub_apply, Matrix.mul_apply, block22] at hBB
        simp only [Matrix.transpose_apply] at hBB
        linarith
      intro n k hn hk hnk hkn i j
      rcases Nat.lt_or_ge n t with hn' | hn'
      · rcases Nat.lt_or_ge k t with hk' | hk'
        · exact ih (max n k) (by omega) n k (by omega) (by omega) hnk hkn i j
        · obtain rfl : k = t := by omega
          by_cases hm : m ≤ k
          · rw [hE, old n hm hn' hkn, modelCov_symm]; congr 1; ring
          · rw [grow_init _ _ _ _ _ (by omega), grow_init _ _ _ _ _ (by omega), h0 _ _ _ _ (by omega) (by omega)]
      · obtain rfl : n = t := by omega
        rcases Nat.lt_or_ge k n with hk' | hk'
        · by_cases hm : m ≤ n
          · exact old k hm hk' hnk i j
          · rw [grow_init _ _ _ _ _ (by omega), grow_init _ _ _ _ _ (by omega), h0 _ _ _ _ (by omega) (by omega)]
        · obtain rfl : k = n := by omega
          by_cases hm : m ≤ k
          · rw [same hm, sub_self]
          · rw [grow_init _ _ _ _ _ (by omega), h0 _ _ _ _ (by omega) (by omega)]
  exact key (max n k) n k (le_max_left _ _) (le_max_right _ _) hnk hkn i j

/-- **C115 (strength).** In particular every pixel of every row has the variance of the model, and the mean square difference of two pixels in rows not further apart than the stencil is the structure function
`2 (c(0) - c(r))` of their separation `r`. -/
theorem C115_structure (E : H →ₗ[ℝ] H →ₗ[ℝ] ℝ) (hE : ∀ x y, E x y = E y x) (c : ℝ → ℝ) (s : ℝ) (A : Matrix (Fin N) (Fin m × Fin N) ℝ) (B : Matrix (Fin N) (Fin N) ℝ)
    (hAB : IsRowFilter (covariances c s) A B) (init noise : ℕ → Fin N → H) (hf : FreshNoise E m init noise) (h0 : ModelStart E c s m init)
    (n k : ℕ) (hnk : n ≤ k + m) (hkn : k ≤ n + m) (i j : Fin N) :
    E (grow A B init noise n i) (grow A B init noise n i) = c 0 ∧
      E (grow A B init noise n i - grow A B init noise k j) (grow A B init noise n i - grow A B init noise k j) =
        2 * (c 0 - c (√((((k : ℝ) - n) * s) ^ 2 + (((j : ℝ) - i) * s) ^ 2))) := by
  have h := C115_rows E hE c s A B hAB init noise hf h0
  have hz : ∀ n i, E (grow A B init noise n i) (grow A B init noise n i) = c 0 := by
    intro n i; rw [h n n (by omega) (by omega)]; simp [modelCov]
  refine ⟨hz n i, ?_⟩
  rw [map_sub, map_sub, LinearMap.sub_apply, LinearMap.sub_apply, hz, hz, hE (grow A B init noise k j), h n k hnk hkn]
  unfold modelCov
  ring

/-- **C115 (matrices).** With the inverse of the stencil's covariance matrix, `A = cov_xz cov_zz⁻¹` is what is required. -/
theorem C115_matrices (c : ℝ → ℝ) (s : ℝ) (B : Matrix (Fin N) (Fin N) ℝ) (hdet : IsUnit (covariances (m := m) (N := N) c s).toBlocks₁₁.det)
    (hB : B * B.transpose = (covariances (m := m) c s).toBlocks₂₂ -
      (covariances (m := m) c s).toBlocks₂₁ * (covariances (m := m) c s).toBlocks₁₁⁻¹ * (covariances (m := m) c s).toBlocks₁₂) :
    IsRowFilter (covariances (m := m) c s) ((covariances c s).toBlocks₂₁ * (covariances c s).toBlocks₁₁⁻¹) B :=
  ⟨by rw [Matrix.mul_assoc, Matrix.nonsing_inv_mul _ hdet, Matrix.mul_one], hB⟩

/-- **C115 (far rows).** The screen knows nothing of the covariance at separations that do not occur between the stencil and the new row: two models that agree there have the same requirements on `A` and `B`, so the
screens are the same and have the same covariance also where the models differ. -/
theorem C115_far (c c' : ℝ → ℝ) (s : ℝ) (A : Matrix (Fin N) (Fin m × Fin N) ℝ) (B : Matrix (Fin N) (Fin N) ℝ)
    (h : ∀ r i j : ℕ, r ≤ m → i < N → j < N → modelCov c s r i j = modelCov c' s r i j) : IsRowFilter (covariances c s) A B ↔ IsRowFilter (covariances c' s) A B := by
  have hc : (covariances c s : Matrix ((Fin m × Fin N) ⊕ Fin N) _ ℝ) = covariances c' s := by
    ext a b
    have hs : ∀ (r q : ℝ) (i j : ℕ), (r = q ∨ r = -q) → modelCov c s q i j = modelCov c' s q i j → modelCov c s r i j = modelCov c' s r i j := by
      intro r q i j hrq hq
      have e : (r * s) ^ 2 = (q * s) ^ 2 := by rcases hrq with rfl | rfl <;> ring
      unfold modelCov at hq ⊢
      rw [e]
      exact hq
    rcases a with ⟨k, i⟩ | i <;> rcases b with ⟨l, j⟩ | j
    · have : modelCov c s ((l : ℝ) - k) i j = modelCov c' s ((l : ℝ) - k) i j := by
        rcases Nat.le_total k l with hkl | hkl
        · refine hs _ ((l - k : ℕ) : ℝ) _ _ (.inl ?_) (h _ _ _ (by have := l.2; omega) i.2 j.2)
          rw [Nat.cast_sub hkl]
        · refine hs _ ((k - l : ℕ) : ℝ) _ _ (.inr ?_) (h _ _ _ (by have := k.2; omega) i.2 j.2)
          rw [Nat.cast_sub hkl]; ring
      have h1 := block11 (m := m) (N := N) c s (k, i) (l, j)
      have h2 := block11 (m := m) (N := N) c' s (k, i) (l, j)
      exact h1.trans (this.trans h2.symm)
    · have := h (k + 1) j i (by have := k.2; omega) j.2 i.2
      push_cast at this
      exact (block12 (m := m) (N := N) c s j (k, i)).trans (this.trans (block12 (m := m) (N := N) c' s j (k, i)).symm)
    · have := h (l + 1) i j (by have := l.2; omega) i.2 j.2
      push_cast at this
      exact (block21 (m := m) (N := N) c s i (l, j)).trans (this.trans (block21 (m := m) (N := N) c' s i (l, j)).symm)
    · have := h 0 i j (by omega) i.2 j.2
      rw [Nat.cast_zero] at this
      exact (block22 (m := m) (N := N) c s i j).trans (this.trans (block22 (m := m) (N := N) c' s i j).symm)
  rw [hc]

/-- **C115 (start).** What the first screen contributes to every later row adds to what the random numbers contribute: two screens grown with the same random numbers differ by the screen grown from the difference of
their first rows without random numbers. -/
theorem C115_start (A : Matrix (Fin N) (Fin m × Fin N) ℝ) (B : Matrix (Fin N) (Fin N) ℝ) (init init' noise : ℕ → Fin N → H) (n : ℕ) (i : Fin N) :
    grow A B init noise n i - grow A B init' noise n i = grow A B (fun n i => init n i - init' n i) (fun _ _ => 0) n i := by
  induction n using Nat.strong_induction_on generalizing i with
  | _ n ih =>
    by_cases h : n < m
    · rw [grow_init _ _ _ _ _ h, grow_init _ _ _ _ _ h, grow_init _ _ _ _ _ h]
    · rw [grow_new _ _ _ _ _ (by omega), grow_new _ _ _ _ _ (by omega), grow_new _ _ _ _ _ (by omega)]
      simp only [smul_zero, Finset.sum_const_zero, add_zero]
      rw [add_sub_add_right_eq_sub, ← Finset.sum_sub_distrib]
      refine Finset.sum_congr rfl fun a _ => ?_
      have := a.1.2
      rw [← smul_sub, ih _ (by omega)]

/-- **C115 (mean).** If the first rows and the random numbers have mean zero, so has every pixel of every row; `μ` is the mean. -/
theorem C115_mean (μ : H →ₗ[ℝ] ℝ) (A : Matrix (Fin N) (Fin m × Fin N) ℝ) (B : Matrix (Fin N) (Fin N) ℝ) (init noise : ℕ → Fin N → H) (hi : ∀ n i, n < m → μ (init n i) = 0)
    (hn : ∀ n l, m ≤ n → μ (noise n l) = 0) (n : ℕ) (i : Fin N) : μ (grow A B init noise n i) = 0 := by
  induction n using Nat.strong_induction_on generalizing i with
  | _ n ih =>
    by_cases h : n < m
    · rw [grow_init _ _ _ _ _ h, hi n i h]
    · rw [grow_new _ _ _ _ _ (by omega), map_add, map_sum, map_sum, Finset.sum_eq_zero, Finset.sum_eq_zero, add_zero]
      · intro l _; rw [map_smul, hn n l (by omega), smul_zero]
      · intro a _; have := a.1.2; rw [map_smul, ih _ (by omega), smul_zero]

/-- Sums of independent random numbers, for the examples: their mean product is the sum of the products of their coefficients. -/
private noncomputable def dot : (ℕ →₀ ℝ) →ₗ[ℝ] (ℕ →₀ ℝ) →ₗ[ℝ] ℝ := Finsupp.linearCombination ℝ fun n => (Finsupp.lapply n : (ℕ →₀ ℝ) →ₗ[ℝ] ℝ)

private theorem dot_single (n k : ℕ) : dot (Finsupp.single n 1) (Finsupp.single k 1) = if n = k then 1 else 0 := by
  simp only [dot, Finsupp.linearCombination_single, one_smul, Finsupp.lapply_apply, Finsupp.single_apply, eq_comm]

private theorem dot_symm (x y : ℕ →₀ ℝ) : dot x y = dot y x := by
  have h : dot = dot.flip := by
    refine Finsupp.lhom_ext' fun n => LinearMap.ext_ring ?_
    refine Finsupp.lhom_ext' fun k => LinearMap.ext_ring ?_
    simp only [LinearMap.comp_apply, Finsupp.lsingle_apply, LinearMap.flip_apply, dot_single]
    split_ifs <;> simp_all
  conv_lhs => rw [h]
  rfl

/-- Independent random numbers, one for each row of a screen one pixel wide. -/
private noncomputable def coin (n : ℕ) (_ : Fin 1) : ℕ →₀ ℝ := Finsupp.single n 1

private theorem coin_fresh (m : ℕ) : FreshNoise dot m coin coin := by
  refine ⟨fun n k l l' _ _ => ?_, fun n k l j hn hk => ?_⟩
  · obtain rfl : l = l' := Subsingleton.elim _ _
    simp [coin, dot_single]
  · simp only [coin, dot_single]; rw [if_neg (by omega)]

/-- **C115 (limit).** For rows further apart than the stencil nothing of the kind holds: for every depth of the stencil there are a model of turbulence, matrices `A` and `B` and a screen meeting all the conditions, and two
pixels one row further apart than the stencil is deep with another covariance than the model's. -/
theorem C115_limit (m : ℕ) : ∃ (c : ℝ → ℝ) (A : Matrix (Fin 1) (Fin m × Fin 1) ℝ) (B : Matrix (Fin 1) (Fin 1) ℝ) (E : (ℕ →₀ ℝ) →ₗ[ℝ] (ℕ →₀ ℝ) →ₗ[ℝ] ℝ) (init noise : ℕ → Fin 1 → ℕ →₀ ℝ),
    (∀ x y, E x y = E y x) ∧ IsRowFilter (covariances c 1) A B ∧ FreshNoise E m init noise ∧ ModelStart E c 1 m init ∧
      E (grow A B init noise 0 0) (grow A B init noise (m + 1) 0) ≠ modelCov c 1 ((m : ℝ) + 1) 0 0 := by
  let c : ℝ → ℝ := fun r => if r = 0 then 1 else if r = m + 1 then 1 / 2 else 0
  have cov : ∀ r : ℕ, modelCov c 1 r 0 0 = if r = 0 then 1 else if r = m + 1 then 1 / 2 else 0 := by
    intro r
    have e : √(((r : ℝ) * 1) ^ 2 + ((((0 : ℕ) : ℝ) - ((0 : ℕ) : ℝ)) * 1) ^ 2) = r := by
      rw [show ((r : ℝ) * 1) ^ 2 + ((((0 : ℕ) : ℝ) - ((0 : ℕ) : ℝ)) * 1) ^ 2 = (r : ℝ) ^ 2 by push_cast; ring]
      exact Real.sqrt_sq (Nat.cast_nonneg r)
    unfold modelCov
    rw [e]
    simp only [c, Nat.cast_eq_zero]
    congr 1
    norm_cast
  have fin0 : ∀ i : Fin 1, (i : ℕ) = 0 := fun i => by omega
  have b21 : (covariances (m := m) (N := 1) c 1).toBlocks₂₁ = 0 := by
    ext i b
    rw [block21, fin0, fin0, show ((b.1 : ℕ) : ℝ) + 1 = ((b.1 + 1 : ℕ) : ℝ) by push_cast; ring, cov, if_neg (by omega), if_neg (by have := b.1.2; omega)]
    rfl
  have b22 : (covariances (m := m) (N := 1) c 1).toBlocks₂₂ = 1 := by
    ext i j
    obtain rfl : i = j := Subsingleton.elim _ _
    rw [block22, fin0, show (0 : ℝ) = ((0 : ℕ) : ℝ) by simp, cov, if_pos rfl, Matrix.one_apply_eq]
  have step : ∀ n, grow (0 : Matrix (Fin 1) (Fin m × Fin 1) ℝ) 1 coin coin n 0 = coin n 0 := by
    intro n
    by_cases h : n < m
    · rw [grow_init _ _ _ _ _ h]
    · rw [grow_new _ _ _ _ _ (by omega)]
      simp
  refine ⟨c, 0, 1, dot, coin, coin, dot_symm, ⟨?_, ?_⟩, coin_fresh m, ?_, ?_⟩
  · rw [b21, Matrix.zero_mul]
  · rw [b22, Matrix.zero_mul, sub_zero, Matrix.transpose_one, Matrix.one_mul]
  · intro n k i j hn hk
    rw [fin0, fin0]
    simp only [coin, dot_single]
    rcases Nat.le_total n k with h | h
    · rw [← Nat.cast_sub h, cov]
      by_cases e : n = k
      · rw [if_pos e, if_pos (by omega)]
      · rw [if_neg e, if_neg (by omega), if_neg (by omega)]
    · rw [modelCov_neg, neg_sub, ← Nat.cast_sub h, cov]
      by_cases e : n = k
      · rw [if_pos e, if_pos (by omega)]
      · rw [if_neg e, if_neg (by omega), if_neg (by omega)]
  · rw [step, step]
    have := cov (m + 1)
    rw [Nat.cast_add_one, if_neg (by omega), if_pos rfl] at this
    rw [this, coin, coin, dot_single, if_neg (by omega)]
    norm_num

/-- The conditions can be met with rows that depend on the rows before: a stencil of one row, a covariance of one half between neighbouring rows. -/
example (c : ℝ → ℝ) (h0 : c 0 = 1) (h1 : c 1 = 1 / 2) (n : ℕ) :
    dot (grow (Matrix.of fun _ _ => 1 / 2 : Matrix (Fin 1) (Fin 1 × Fin 1) ℝ) (Matrix.of fun _ _ => √(3 / 4)) coin coin n 0) (grow (Matrix.of fun _ _ => 1 / 2 : Matrix (Fin 1) (Fin 1 × Fin 1) ℝ) (Matrix.of fun _ _ => √(3 / 4)) coin coin (n + 1) 0) = 1 / 2 := by
  have fin0 : ∀ i : Fin 1, (i : ℕ) = 0 := fun i => by omega
  have m0 : modelCov c 1 0 0 0 = 1 := by simp [modelCov, h0]
  have m1 : modelCov c 1 1 0 0 = 1 / 2 := by simp [modelCov, h1]
  have hAB : IsRowFilter (covariances (m := 1) (N := 1) c 1) (Matrix.of fun _ _ => 1 / 2) (Matrix.of fun _ _ => √(3 / 4)) := by
    constructor
    · ext i b
      rw [Matrix.mul_apply, Fintype.sum_prod_type, Fintype.sum_unique, Fintype.sum_unique, block11, block21]
      simp only [fin0, Nat.cast_zero, sub_zero, zero_add, m0, m1, mul_one, Matrix.of_apply]
    · ext i j
      rw [Matrix.mul_apply, Fintype.sum_unique, Matrix.sub_apply, Matrix.mul_apply, Fintype.sum_prod_type, Fintype.sum_unique, Fintype.sum_unique, block22, block12]
      simp only [fin0, Nat.cast_zero, zero_add, m0, m1, Matrix.transpose_apply, Matrix.of_apply]
      rw [Real.mul_self_sqrt (by norm_num)]
      norm_num
  have hs : ModelStart dot c 1 1 coin := by
    intro n k i j hn hk
    obtain rfl : n = 0 := by omega
    obtain rfl : k = 0 := by omega
    rw [fin0, fin0, sub_self, m0, coin, coin, dot_single, if_pos rfl]
  rw [C115_rows dot dot_symm c 1 _ _ hAB coin coin (coin_fresh 1) hs n (n + 1) (by omega) (by omega)]
  push_cast
  simp only [fin0, add_sub_cancel_left, m1]

end Soapy.Props
