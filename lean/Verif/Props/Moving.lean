/-
Property theorems C112: does turbulence keep its strength while it moves?
-/
import Verif.Props.Wind
import Mathlib.Algebra.BigOperators.Fin
import Mathlib.Algebra.BigOperators.Ring.Finset
import Mathlib.Algebra.Order.BigOperators.Ring.Finset

namespace Soapy.Props

open Soapy.Mirror Soapy.Interp Soapy.Atmos

section

variable {Ω : Type} [Fintype Ω]

/-- Mean over all outcomes of a random draw, `p` being their probabilities. -/
def meanOf (p : Ω → ℚ) (X : Ω → ℚ) : ℚ := ∑ w, p w * X w

/-- Random screens whose structure function depends only on the separation: `D n m` is the mean square of the difference of two pixels `n` rows and `m` columns apart. -/
def Stationary (p : Ω → ℚ) (rows cols : ℕ) (S : Ω → Arr2) (D : ℤ → ℤ → ℚ) : Prop :=
  (∀ w, (S w).rows = rows ∧ (S w).cols = cols) ∧
  ∀ i j k l : ℕ, i < rows → j < cols → k < rows → l < cols → meanOf p (fun w => ((S w).px i j - (S w).px k l) ^ 2) = D (i - k) (j - l)

private theorem meanOf_lin (p : Ω → ℚ) (a b : ℚ) (X Y : Ω → ℚ) : meanOf p (fun w => a * X w + b * Y w) = a * meanOf p X + b * meanOf p Y := by
  unfold meanOf
  rw [Finset.mul_sum, Finset.mul_sum, ← Finset.sum_add_distrib]
  exact Finset.sum_congr rfl fun w _ => by ring

private theorem meanOf_nonneg (p : Ω → ℚ) (hp : ∀ w, 0 ≤ p w) (X : Ω → ℚ) (hX : ∀ w, 0 ≤ X w) : 0 ≤ meanOf p X := Finset.sum_nonneg fun w _ => mul_nonneg (hp w) (hX w)

private theorem meanOf_mono (p : Ω → ℚ) (hp : ∀ w, 0 ≤ p w) (X Y : Ω → ℚ) (h : ∀ w, X w ≤ Y w) : meanOf p X ≤ meanOf p Y := Finset.sum_le_sum fun w _ => mul_le_mul_of_nonneg_left (h w) (hp w)

/-- What an infinite screen hands out between two rows. -/
theorem outInf_value (a : Arr2) (f : ℚ) (hf : 0 ≤ f ∧ f < 1) (i j : ℕ) (hi : i + 2 < a.rows) (hj : j + 2 < a.cols) :
    outInf a f i j = .ok (f * a.px i (j + 1) + (1 - f) * a.px (i + 1) (j + 1)) := by
  have hir : (i : ℚ) + 3 ≤ a.rows := by exact_mod_cast hi
  have hjc : (j : ℚ) + 3 ≤ a.cols := by exact_mod_cast hj
  unfold outInf interpVal clampHi
  rw [if_pos rfl, if_neg (by linarith [hf.1]), if_neg (by linarith)]
  rcases eq_or_lt_of_le hf.1 with h0 | h0
  · rw [bilinAt_ok a _ _ (i + 1) (j + 1) (by push_cast; constructor <;> linarith) (by push_cast; constructor <;> linarith) (by omega) (by omega)]
    rw [← h0]
    push_cast
    congr 1
    ring
  · rw [bilinAt_ok a _ _ i (j + 1) (by constructor <;> linarith [hf.2]) (by push_cast; constructor <;> linarith) (by omega) (by omega)]
    push_cast
    congr 1
    ring

/-- **C112 (exact).** Screens with structure function `D`, handed out at sub-pixel offset `f`: the structure function of what is handed out is `D` minus `f (1 - f)` times a second difference of `D`. -/
theorem C112_exact (p : Ω → ℚ) (rows cols : ℕ) (S : Ω → Arr2) (D : ℤ → ℤ → ℚ) (hS : Stationary p rows cols S D) (f : ℚ) (hf : 0 ≤ f ∧ f < 1)
    (i j k l : ℕ) (hi : i + 2 < rows) (hj : j + 2 < cols) (hk : k + 2 < rows) (hl : l + 2 < cols) (X Y : Ω → ℚ)
    (hX : ∀ w, outInf (S w) f i j = .ok (X w)) (hY : ∀ w, outInf (S w) f k l = .ok (Y w)) :
    meanOf p (fun w => (X w - Y w) ^ 2) = D (i - k) (j - l) - f * (1 - f) * (D 1 0 + D 1 0 + 2 * D (i - k) (j - l) - D (i - k + 1) (j - l) - D (i - k - 1) (j - l)) := by
  obtain ⟨hsz, hD⟩ := hS
  have eX : ∀ w, X w = f * (S w).px i (j + 1) + (1 - f) * (S w).px (i + 1) (j + 1) := by
    intro w
    have := hX w
    rw [outInf_value (S w) f hf i j (by rw [(hsz w).1]; exact hi) (by rw [(hsz w).2]; exact hj)] at this
    exact (Except.ok.inj this).symm
  have eY : ∀ w, Y w = f * (S w).px k (l + 1) + (1 - f) * (S w).px (k + 1) (l + 1) := by
    intro w
    have := hY w
    rw [outInf_value (S w) f hf k l (by rw [(hsz w).1]; exact hk) (by rw [(hsz w).2]; exact hl)] at this
    exact (Except.ok.inj this).symm
  have hsplit : ∀ w, (X w - Y w) ^ 2 =
      f * ((S w).px i (j + 1) - (S w).px k (l + 1)) ^ 2 + (1 - f) * ((S w).px (i + 1) (j + 1) - (S w).px (k + 1) (l + 1)) ^ 2
      + (-(f * (1 - f))) * (((S w).px (i + 1) (j + 1) - (S w).px i (j + 1)) ^ 2 + ((S w).px (k + 1) (l + 1) - (S w).px k (l + 1)) ^ 2
        + ((S w).px (i + 1) (j + 1) - (S w).px (k + 1) (l + 1)) ^ 2 + ((S w).px i (j + 1) - (S w).px k (l + 1)) ^ 2
        - ((S w).px (i + 1) (j + 1) - (S w).px k (l + 1)) ^ 2 - ((S w).px i (j + 1) - (S w).px (k + 1) (l + 1)) ^ 2) := by
    intro w
    rw [eX w, eY w]
    ring
  have d1 := hD i (j + 1) k (l + 1) (by omega) (by omega) (by omega) (by omega)
  have d2 := hD (i + 1) (j + 1) (k + 1) (l + 1) (by omega) (by omega) (by omega) (by omega)
  have d3 := hD (i + 1) (j + 1) i (j + 1) (by omega) (by omega) (by omega) (by omega)
  have d4 := hD (k + 1) (l + 1) k (l + 1) (by omega) (by omega) (by omega) (by omega)
  have d5 := hD (i + 1) (j + 1) k (l + 1) (by omega) (by omega) (by omega) (by omega)
  have d6 := hD i (j + 1) (k + 1) (l + 1) (by omega) (by omega) (by omega) (by omega)
  push_cast at d1 d2 d3 d4 d5 d6
  rw [show (j : ℤ) + 1 - (l + 1) = j - l by ring] at d1 d2 d5 d6
  rw [show (i : ℤ) + 1 - (k + 1) = i - k by ring] at d2
  rw [show (i : ℤ) + 1 - i = 1 by ring, show (j : ℤ) + 1 - (j + 1) = 0 by ring] at d3
  rw [show (k : ℤ) + 1 - k = 1 by ring, show (l : ℤ) + 1 - (l + 1) = 0 by ring] at d4
  rw [show (i : ℤ) + 1 - k = i - k + 1 by ring] at d5
  rw [show (i : ℤ) - (k + 1) = i - k - 1 by ring] at d6
  rw [← d3, ← d5, ← d6]
  have e : meanOf p (fun w => ((S w).px (i + 1) (j + 1) - (S w).px i (j + 1)) ^ 2) = meanOf p (fun w => ((S w).px (k + 1) (l + 1) - (S w).px k (l + 1)) ^ 2) := by rw [d3, d4]
  have e2 : meanOf p (fun w => ((S w).px (i + 1) (j + 1) - (S w).px (k + 1) (l + 1)) ^ 2) = meanOf p (fun w => ((S w).px i (j + 1) - (S w).px k (l + 1)) ^ 2) := by rw [d1, d2]
  rw [← d1]
  rw [show (fun w => (X w - Y w) ^ 2) = fun w => f * ((S w).px i (j + 1) - (S w).px k (l + 1)) ^ 2 + (1 - f) * ((S w).px (i + 1) (j + 1) - (S w).px (k + 1) (l + 1)) ^ 2
      + (-(f * (1 - f))) * (((S w).px (i + 1) (j + 1) - (S w).px i (j + 1)) ^ 2 + ((S w).px (k + 1) (l + 1) - (S w).px k (l + 1)) ^ 2
        + ((S w).px (i + 1) (j + 1) - (S w).px (k + 1) (l + 1)) ^ 2 + ((S w).px i (j + 1) - (S w).px k (l + 1)) ^ 2
        - ((S w).px (i + 1) (j + 1) - (S w).px k (l + 1)) ^ 2 - ((S w).px i (j + 1) - (S w).px (k + 1) (l + 1)) ^ 2) from funext hsplit]
  have hlin : ∀ A B C F G H K L : Ω → ℚ, meanOf p (fun w => f * A w + (1 - f) * B w + (-(f * (1 - f))) * (C w + F w + G w + H w - K w - L w)) =
      f * meanOf p A + (1 - f) * meanOf p B + (-(f * (1 - f))) * (meanOf p C + meanOf p F + meanOf p G + meanOf p H - meanOf p K - meanOf p L) := by
    intro A B C F G H K L
    unfold meanOf
    rw [← Finset.sum_add_distrib, ← Finset.sum_add_distrib, ← Finset.sum_add_distrib, ← Finset.sum_sub_distrib, ← Finset.sum_sub_distrib, Finset.mul_sum, Finset.mul_sum, Finset.mul_sum,
      ← Finset.sum_add_distrib, ← Finset.sum_add_distrib]
    exact Finset.sum_congr rfl fun w _ => by ring
  rw [hlin (fun w => ((S w).px i (j + 1) - (S w).px k (l + 1)) ^ 2) (fun w => ((S w).px (i + 1) (j + 1) - (S w).px (k + 1) (l + 1)) ^ 2)
    (fun w => ((S w).px (i + 1) (j + 1) - (S w).px i (j + 1)) ^ 2) (fun w => ((S w).px (k + 1) (l + 1) - (S w).px k (l + 1)) ^ 2)
    (fun w => ((S w).px (i + 1) (j + 1) - (S w).px (k + 1) (l + 1)) ^ 2) (fun w => ((S w).px i (j + 1) - (S w).px k (l + 1)) ^ 2)
    (fun w => ((S w).px (i + 1) (j + 1) - (S w).px k (l + 1)) ^ 2) (fun w => ((S w).px i (j + 1) - (S w).px (k + 1) (l + 1)) ^ 2), e2, ← e]
  ring

/-- The amount lost is `f (1 - f)` times the mean square of how much neighbouring rows step differently at the two places. -/
private theorem second_difference (p : Ω → ℚ) (rows cols : ℕ) (S : Ω → Arr2) (D : ℤ → ℤ → ℚ) (hS : Stationary p rows cols S D)
    (i j k l : ℕ) (hi : i + 2 < rows) (hj : j + 2 < cols) (hk : k + 2 < rows) (hl : l + 2 < cols) :
    D 1 0 + D 1 0 + 2 * D (i - k) (j - l) - D (i - k + 1) (j - l) - D (i - k - 1) (j - l) =
      meanOf p (fun w => (((S w).px (i + 1) (j + 1) - (S w).px i (j + 1)) - ((S w).px (k + 1) (l + 1) - (S w).px k (l + 1))) ^ 2) ∧
    meanOf p (fun w => ((S w).px (i + 1) (j + 1) - (S w).px i (j + 1)) ^ 2) = D 1 0 ∧
    meanOf p (fun w => ((S w).px (k + 1) (l + 1) - (S w).px k (l + 1)) ^ 2) = D 1 0 := by
  obtain ⟨_, hD⟩ := hS
  have d1 := hD i (j + 1) k (l + 1) (by omega) (by omega) (by omega) (by omega)
  have d2 := hD (i + 1) (j + 1) (k + 1) (l + 1) (by omega) (by omega) (by omega) (by omega)
  have d3 := hD (i + 1) (j + 1) i (j + 1) (by omega) (by omega) (by omega) (by omega)
  have d4 := hD (k + 1) (l + 1) k (l + 1) (by omega) (by omega) (by omega) (by omega)
  have d5 := hD (i + 1) (j + 1) k (l + 1) (by omega) (by omega) (by omega) (by omega)
  have d6 := hD i (j + 1) (k + 1) (l + 1) (by omega) (by omega) (by omega) (by omega)
  push_cast at d1 d2 d3 d4 d5 d6
  rw [show (j : ℤ) + 1 - (l + 1) = j - l by ring] at d1 d2 d5 d6
  rw [show (i : ℤ) + 1 - (k + 1) = i - k by ring] at d2
  rw [show (i : ℤ) + 1 - i = 1 by ring, show (j : ℤ) + 1 - (j + 1) = 0 by ring] at d3
  rw [show (k : ℤ) + 1 - k = 1 by ring, show (l : ℤ) + 1 - (l + 1) = 0 by ring] at d4
  rw [show (i : ℤ) + 1 - k = i - k + 1 by ring] at d5
  rw [show (i : ℤ) - (k + 1) = i - k - 1 by ring] at d6
  refine ⟨?_, d3, d4⟩
  rw [two_mul, ← d5, ← d6]
  nth_rewrite 1 [← d3]
  nth_rewrite 1 [← d4]
  nth_rewrite 1 [← d1]
  rw [← d2]
  unfold meanOf
  rw [← Finset.sum_add_distrib, ← Finset.sum_add_distrib, ← Finset.sum_add_distrib, ← Finset.sum_sub_distrib, ← Finset.sum_sub_distrib]
  exact Finset.sum_congr rfl fun w _ => by ring

/-- **C112 (bounds).** Interpolation between rows never strengthens the turbulence, and the structure function falls by no more than `4 f (1 - f)` times its value at one pixel. -/
theorem C112_bounds (p : Ω → ℚ) (hp : ∀ w, 0 ≤ p w) (rows cols : ℕ) (S : Ω → Arr2) (D : ℤ → ℤ → ℚ) (hS : Stationary p rows cols S D) (f : ℚ) (hf : 0 ≤ f ∧ f < 1)
    (i j k l : ℕ) (hi : i + 2 < rows) (hj : j + 2 < cols) (hk : k + 2 < rows) (hl : l + 2 < cols) (X Y : Ω → ℚ)
    (hX : ∀ w, outInf (S w) f i j = .ok (X w)) (hY : ∀ w, outInf (S w) f k l = .ok (Y w)) :
    D (i - k) (j - l) - 4 * f * (1 - f) * D 1 0 ≤ meanOf p (fun w => (X w - Y w) ^ 2) ∧ meanOf p (fun w => (X w - Y w) ^ 2) ≤ D (i - k) (j - l) := by
  rw [C112_exact p rows cols S D hS f hf i j k l hi hj hk hl X Y hX hY]
  obtain ⟨h1, h2, h3⟩ := second_difference p rows cols S D hS i j k l hi hj hk hl
  rw [h1]
  have hg : 0 ≤ f * (1 - f) := mul_nonneg hf.1 (by linarith [hf.2])
  have hlo : 0 ≤ meanOf p (fun w => (((S w).px (i + 1) (j + 1) - (S w).px i (j + 1)) - ((S w).px (k + 1) (l + 1) - (S w).px k (l + 1))) ^ 2) :=
    meanOf_nonneg p hp _ fun w => sq_nonneg _
  have hhi : meanOf p (fun w => (((S w).px (i + 1) (j + 1) - (S w).px i (j + 1)) - ((S w).px (k + 1) (l + 1) - (S w).px k (l + 1))) ^ 2) ≤ 4 * D 1 0 := by
    have e := meanOf_lin p 2 2 (fun w => ((S w).px (i + 1) (j + 1) - (S w).px i (j + 1)) ^ 2) (fun w => ((S w).px (k + 1) (l + 1) - (S w).px k (l + 1)) ^ 2)
    rw [h2, h3] at e
    rw [show 4 * D 1 0 = 2 * D 1 0 + 2 * D 1 0 by ring, ← e]
    refine meanOf_mono p hp _ _ fun w => ?_
    nlinarith [sq_nonneg (((S w).px (i + 1) (j + 1) - (S w).px i (j + 1)) + ((S w).px (k + 1) (l + 1) - (S w).px k (l + 1)))]
  constructor
  · nlinarith [mul_le_mul_of_nonneg_left hhi hg]
  · nlinarith [mul_nonneg hg hlo]

/-- **C112 (loses).** Whenever the phase of neighbouring rows is not a straight line (`D 2 0 < 4 D 1 0`), turbulence handed out between two rows is weaker from one row to the next than the turbulence stored. -/
theorem C112_loses (p : Ω → ℚ) (rows cols : ℕ) (S : Ω → Arr2) (D : ℤ → ℤ → ℚ) (hS : Stationary p rows cols S D) (hD : D 2 0 < 4 * D 1 0) (f : ℚ) (hf : 0 < f ∧ f < 1)
    (i j : ℕ) (hi : i + 3 < rows) (hj : j + 2 < cols) (X Y : Ω → ℚ)
    (hX : ∀ w, outInf (S w) f (i + 1) j = .ok (X w)) (hY : ∀ w, outInf (S w) f i j = .ok (Y w)) :
    meanOf p (fun w => (X w - Y w) ^ 2) < D 1 0 := by
  rw [C112_exact p rows cols S D hS f ⟨hf.1.le, hf.2⟩ (i + 1) j i j (by omega) hj (by omega) hj X Y hX hY]
  have z := hS.2 0 0 0 0 (by omega) (by omega) (by omega) (by omega)
  have z0 : D 0 0 = 0 := by
    simp only [Nat.cast_zero, sub_self] at z
    rw [← z]
    simp [meanOf]
  push_cast
  rw [show (i : ℤ) + 1 - i = 1 by ring, show (j : ℤ) - j = 0 by ring]
  norm_num only
  rw [z0]
  nlinarith [mul_pos hf.1 (sub_pos.mpr hf.2)]

/-- **C112 (line of sight).** The same for any bilinear reading of a screen, as the lines of sight do it: two points a whole number of pixels apart never differ more, in the mean square, than two pixels that far apart. -/
theorem C112_sight (p : Ω → ℚ) (hp : ∀ w, 0 ≤ p w) (rows cols : ℕ) (S : Ω → Arr2) (D : ℤ → ℤ → ℚ) (hS : Stationary p rows cols S D) (f g : ℚ) (hf : 0 ≤ f ∧ f < 1) (hg : 0 ≤ g ∧ g < 1)
    (i j k l : ℕ) (hi : i + 1 < rows) (hj : j + 1 < cols) (hk : k + 1 < rows) (hl : l + 1 < cols) (X Y : Ω → ℚ)
    (hX : ∀ w, bilinAt (S w) (i + f) (j + g) = .ok (X w)) (hY : ∀ w, bilinAt (S w) (k + f) (l + g) = .ok (Y w)) :
    meanOf p (fun w => (X w - Y w) ^ 2) ≤ D (i - k) (j - l) := by
  obtain ⟨hsz, hD⟩ := hS
  have eX : ∀ w, X w = (1 - f) * ((1 - g) * (S w).px i j + g * (S w).px i (j + 1)) + f * ((1 - g) * (S w).px (i + 1) j + g * (S w).px (i + 1) (j + 1)) := by
    intro w
    have := hX w
    rw [bilinAt_ok (S w) _ _ i j (by constructor <;> linarith [hf.1, hf.2]) (by constructor <;> linarith [hg.1, hg.2]) (by rw [(hsz w).1]; exact hi) (by rw [(hsz w).2]; exact hj)] at this
    rw [← Except.ok.inj this]
    ring
  have eY : ∀ w, Y w = (1 - f) * ((1 - g) * (S w).px k l + g * (S w).px k (l + 1)) + f * ((1 - g) * (S w).px (k + 1) l + g * (S w).px (k + 1) (l + 1)) := by
    intro w
    have := hY w
    rw [bilinAt_ok (S w) _ _ k l (by constructor <;> linarith [hf.1, hf.2]) (by constructor <;> linarith [hg.1, hg.2]) (by rw [(hsz w).1]; exact hk) (by rw [(hsz w).2]; exact hl)] at this
    rw [← Except.ok.inj this]
    ring
  have d1 := hD i j k l (by omega) (by omega) (by omega) (by omega)
  have d2 := hD i (j + 1) k (l + 1) (by omega) (by omega) (by omega) (by omega)
  have d3 := hD (i + 1) j (k + 1) l (by omega) (by omega) (by omega) (by omega)
  have d4 := hD (i + 1) (j + 1) (k + 1) (l + 1) (by omega) (by omega) (by omega) (by omega)
  push_cast at d1 d2 d3 d4
  rw [show (j : ℤ) + 1 - (l + 1) = j - l by ring] at d2 d4
  rw [show (i : ℤ) + 1 - (k + 1) = i - k by ring] at d3 d4
  have hconv : ∀ t a b : ℚ, 0 ≤ t → t ≤ 1 → ((1 - t) * a + t * b) ^ 2 ≤ (1 - t) * a ^ 2 + t * b ^ 2 := by
    intro t a b h0 h1
    nlinarith [mul_nonneg (mul_nonneg h0 (sub_nonneg.mpr h1)) (sq_nonneg (a - b))]
  have hw : ∀ w, (X w - Y w) ^ 2 ≤ (1 - f) * ((1 - g) * ((S w).px i j - (S w).px k l) ^ 2 + g * ((S w).px i (j + 1) - (S w).px k (l + 1)) ^ 2)
      + f * ((1 - g) * ((S w).px (i + 1) j - (S w).px (k + 1) l) ^ 2 + g * ((S w).px (i + 1) (j + 1) - (S w).px (k + 1) (l + 1)) ^ 2) := by
    intro w
    have c1 := hconv g ((S w).px i j - (S w).px k l) ((S w).px i (j + 1) - (S w).px k (l + 1)) hg.1 hg.2.le
    have c2 := hconv g ((S w).px (i + 1) j - (S w).px (k + 1) l) ((S w).px (i + 1) (j + 1) - (S w).px (k + 1) (l + 1)) hg.1 hg.2.le
    have c3 := hconv f ((1 - g) * ((S w).px i j - (S w).px k l) + g * ((S w).px i (j + 1) - (S w).px k (l + 1)))
      ((1 - g) * ((S w).px (i + 1) j - (S w).px (k + 1) l) + g * ((S w).px (i + 1) (j + 1) - (S w).px (k + 1) (l + 1))) hf.1 hf.2.le
    have e : X w - Y w = (1 - f) * ((1 - g) * ((S w).px i j - (S w).px k l) + g * ((S w).px i (j + 1) - (S w).px k (l + 1)))
      + f * ((1 - g) * ((S w).px (i + 1) j - (S w).px (k + 1) l) + g * ((S w).px (i + 1) (j + 1) - (S w).px (k + 1) (l + 1))) := by
      rw [eX w, eY w]
      ring
    rw [e]
    exact le_trans c3 (add_le_add (mul_le_mul_of_nonneg_left c1 (by linarith [hf.2])) (mul_le_mul_of_nonneg_left c2 hf.1))
  refine le_trans (meanOf_mono p hp _ _ hw) (le_of_eq ?_)
  rw [meanOf_lin p (1 - f) f (fun w => (1 - g) * ((S w).px i j - (S w).px k l) ^ 2 + g * ((S w).px i (j + 1) - (S w).px k (l + 1)) ^ 2)
    (fun w => (1 - g) * ((S w).px (i + 1) j - (S w).px (k + 1) l) ^ 2 + g * ((S w).px (i + 1) (j + 1) - (S w).px (k + 1) (l + 1)) ^ 2),
    meanOf_lin p (1 - g) g (fun w => ((S w).px i j - (S w).px k l) ^ 2) (fun w => ((S w).px i (j + 1) - (S w).px k (l + 1)) ^ 2),
    meanOf_lin p (1 - g) g (fun w => ((S w).px (i + 1) j - (S w).px (k + 1) l) ^ 2) (fun w => ((S w).px (i + 1) (j + 1) - (S w).px (k + 1) (l + 1)) ^ 2), d1, d2, d3, d4]
  ring

/-- Random screens blown along, as stored after `n` frames: each outcome has its own first screen and its own new rows. -/
def blown (len nx : ℕ) (v : ℚ) (gen : Ω → ℕ → List (List ℚ) → List ℚ) (init : Ω → List (List ℚ)) (n : ℕ) (w : Ω) : Arr2 :=
  infArr len nx (runInf (gen w) len v (init w) n)

/-- The same as handed to the rest of the simulation. -/
def handed (len nx : ℕ) (v : ℚ) (gen : Ω → ℕ → List (List ℚ) → List ℚ) (init : Ω → List (List ℚ)) (n : ℕ) (w : Ω) : Arr2 :=
  outArr len nx (runInf (gen w) len v (init w) n)

/-- Turbulence of structure function `D` in the stored screen of every frame is handed out with structure function `D` in every frame. -/
def KeepsStrength (p : Ω → ℚ) (len nx : ℕ) (v : ℚ) (gen : Ω → ℕ → List (List ℚ) → List ℚ) (init : Ω → List (List ℚ)) : Prop :=
  ∀ D : ℤ → ℤ → ℚ, (∀ n, Stationary p len nx (blown len nx v gen init n) D) →
    ∀ n i j k l : ℕ, i + 2 < len → j + 2 < nx → k + 2 < len → l + 2 < nx →
      meanOf p (fun w => ((handed len nx v gen init n w).px i j - (handed len nx v gen init n w).px k l) ^ 2) = D (i - k) (j - l)

omit [Fintype Ω] in
private theorem handed_ok (len nx : ℕ) (v : ℚ) (hv : 0 ≤ v) (gen : Ω → ℕ → List (List ℚ) → List ℚ) (init : Ω → List (List ℚ)) (n : ℕ) (w : Ω) (i j : ℕ) (hi : i + 2 < len) (hj : j + 2 < nx) :
    outInf (blown len nx v gen init n w) (n * v - ⌊n * v⌋) i j = .ok ((handed len nx v gen init n w).px i j) := by
  have hfp := (C26_rows_and_offset (gen w) len v hv (init w) n).2
  have f1 := Int.floor_le ((n : ℚ) * v)
  have f2 := Int.lt_floor_add_one ((n : ℚ) * v)
  have e := outInf_value (blown len nx v gen init n w) (n * v - ⌊n * v⌋) ⟨by linarith, by linarith⟩ i j hi hj
  unfold blown at e
  simp only [handed, outArr, blown, hfp]
  rw [e]

/-- **C112 (frames).** In frame `n` the structure function handed out is the stored one less `f (1 - f)` times its second difference, `f` being the fractional part of the `n v` pixels blown so far. -/
theorem C112_frames_partial (p : Ω → ℚ) (len nx : ℕ) (v : ℚ) (hv : 0 ≤ v) (gen : Ω → ℕ → List (List ℚ) → List ℚ) (init : Ω → List (List ℚ)) (D : ℤ → ℤ → ℚ) (n : ℕ)
    (hS : Stationary p len nx (blown len nx v gen init n) D) (i j k l : ℕ) (hi : i + 2 < len) (hj : j + 2 < nx) (hk : k + 2 < len) (hl : l + 2 < nx) :
    meanOf p (fun w => ((handed len nx v gen init n w).px i j - (handed len nx v gen init n w).px k l) ^ 2) =
      D (i - k) (j - l) - Int.fract (n * v) * (1 - Int.fract (n * v)) * (D 1 0 + D 1 0 + 2 * D (i - k) (j - l) - D (i - k + 1) (j - l) - D (i - k - 1) (j - l)) := by
  exact C112_exact p len nx _ D hS (Int.fract (n * v)) ⟨Int.fract_nonneg _, Int.fract_lt_one _⟩ i j k l hi hj hk hl _ _
    (fun w => handed_ok len nx v hv gen init n w i j hi hj) (fun w => handed_ok len nx v hv gen init n w k l hk hl)

/-- **C112 (whole pixels).** Wind of a whole number of pixels per frame keeps the strength in every frame. -/
theorem C112_integer (p : Ω → ℚ) (len nx v : ℕ) (gen : Ω → ℕ → List (List ℚ) → List ℚ) (init : Ω → List (List ℚ)) : KeepsStrength p len nx v gen init := by
  intro D hS n i j k l hi hj hk hl
  rw [C112_frames_partial p len nx v (by positivity) gen init D n (hS n) i j k l hi hj hk hl]
  have : Int.fract ((n : ℚ) * (v : ℚ)) = 0 := by
    rw [← Nat.cast_mul]
    exact Int.fract_natCast _
  rw [this]
  ring

/-- Any other wind: in some frame the strength is lost, whatever the turbulence, unless rows follow each other in a straight line. -/
theorem C112_only_integer (p : Ω → ℚ) (len nx : ℕ) (hlen : 3 < len) (hnx : 2 < nx) (v : ℚ) (hv : 0 ≤ v) (hint : ∀ m : ℕ, v ≠ m) (gen : Ω → ℕ → List (List ℚ) → List ℚ) (init : Ω → List (List ℚ))
    (D : ℤ → ℤ → ℚ) (hS : ∀ n, Stationary p len nx (blown len nx v gen init n) D) (hD : D 2 0 < 4 * D 1 0) : ¬ KeepsStrength p len nx v gen init := by
  intro hkeep
  have h := hkeep D hS 1 1 0 0 0 (by omega) (by omega) (by omega) (by omega)
  have hf0 : Int.fract v ≠ 0 := by
    intro h0
    have e : v = (⌊v⌋ : ℚ) := by have := Int.floor_add_fract v; rw [h0, add_zero] at this; exact this.symm
    refine hint ⌊v⌋.toNat ?_
    rw [← Int.cast_natCast, Int.toNat_of_nonneg (Int.floor_nonneg.mpr hv)]
    exact e
  have hl := C112_loses p len nx (blown len nx v gen init 1) D (hS 1) hD (Int.fract v) ⟨lt_of_le_of_ne (Int.fract_nonneg v) (Ne.symm hf0), Int.fract_lt_one v⟩ 0 0 (by omega) (by omega)
    (fun w => (handed len nx v gen init 1 w).px 1 0) (fun w => (handed len nx v gen init 1 w).px 0 0)
    (fun w => by have := handed_ok len nx v hv gen init 1 w 1 0 (by omega) (by omega); rw [Nat.cast_one, one_mul] at this; exact this)
    (fun w => by have := handed_ok len nx v hv gen init 1 w 0 0 (by omega) (by omega); rw [Nat.cast_one, one_mul] at this; exact this)
  rw [h] at hl
  simp at hl

end

/-- Five rows of three pixels, alternately `b` and `1 - b`. -/
def stripes (b : ℚ) : List (List ℚ) := [[b, b, b], [1 - b, 1 - b, 1 - b], [b, b, b], [1 - b, 1 - b, 1 - b], [b, b, b]]

/-- The next row of the stripes. -/
def nextStripe (scr : List (List ℚ)) : List ℚ := (scr.headD []).map (1 - ·)

/-- Mean square difference of two pixels of the stripes. -/
def stripesD (n _m : ℤ) : ℚ := if n % 2 = 0 then 0 else 1

/-- The first screen in each of the two outcomes. -/
def stripesInit (w : Fin 2) : List (List ℚ) := stripes w.val

private theorem stripes_run (v : ℚ) (hv : v = 1 / 2) (w : Fin 2) (n : ℕ) :
    (runInf (fun _ => nextStripe) 5 v (stripesInit w) n).scr = stripes 0 ∨ (runInf (fun _ => nextStripe) 5 v (stripesInit w) n).scr = stripes 1 := by
  induction n with
  | zero =>
    rcases (by omega : w.val = 0 ∨ w.val = 1) with h | h <;> simp [runInf, stripesInit, h]
  | succ n ih =>
    have hk : pyInt v = 0 := by rw [hv]; decide +kernel
    simp only [runInf, moveInf, hk]
    generalize runInf (fun _ => nextStripe) 5 v (stripesInit w) n = s at ih
    obtain ⟨scr, fp, d⟩ := s
    dsimp only at ih ⊢
    by_cases h : 1 ≤ fp + (v - ((0 : ℤ) : ℚ))
    · simp only [h, if_true]
      rcases ih with ih | ih
      · subst ih
        right
        simp [addRows, nextStripe, stripes]
      · subst ih
        left
        simp [addRows, nextStripe, stripes]
    · simp only [h, if_false]
      rcases ih with ih | ih
      · subst ih
        left
        simp [addRows, stripes]
      · subst ih
        right
        simp [addRows, stripes]

/-- The stripes are turbulence of the same structure function in every frame. -/
theorem stripes_stationary (n : ℕ) : Stationary (fun _ : Fin 2 => 1 / 2) 5 3 (blown 5 3 (1 / 2) (fun _ _ => nextStripe) stripesInit n) stripesD := by
  refine ⟨fun w => ⟨rfl, rfl⟩, ?_⟩
  intro i j k l hi hj hk hl
  have hpx : ∀ w : Fin 2, ((blown 5 3 (1 / 2) (fun _ _ => nextStripe) stripesInit n w).px i j - (blown 5 3 (1 / 2) (fun _ _ => nextStripe) stripesInit n w).px k l) ^ 2 = stripesD (i - k) (j - l) := by
    intro w
    simp only [blown, infArr]
    rcases stripes_run (1 / 2) rfl w n with h | h
    · rw [h]
      exact (by decide +kernel : ∀ i < 5, ∀ j < 3, ∀ k < 5, ∀ l < 3, (((stripes 0).getD i []).getD j 0 - ((stripes 0).getD k []).getD l 0) ^ 2 = stripesD ((i : ℕ) - (k : ℕ)) ((j : ℕ) - (l : ℕ))) i hi j hj k hk l hl
    · rw [h]
      exact (by decide +kernel : ∀ i < 5, ∀ j < 3, ∀ k < 5, ∀ l < 3, (((stripes 1).getD i []).getD j 0 - ((stripes 1).getD k []).getD l 0) ^ 2 = stripesD ((i : ℕ) - (k : ℕ)) ((j : ℕ) - (l : ℕ))) i hi j hj k hk l hl
  unfold meanOf
  rw [Fin.sum_univ_two]
  dsimp only
  rw [hpx, hpx]
  ring

/-- **C112 (violated).** Stripes blown by half a pixel per frame: every second frame the turbulence handed out is flat. -/
theorem C112_violated : ¬ ∀ (Ω : Type) [Fintype Ω] (p : Ω → ℚ) (len nx : ℕ) (v : ℚ) (gen : Ω → ℕ → List (List ℚ) → List ℚ) (init : Ω → List (List ℚ)), 0 ≤ v → KeepsStrength p len nx v gen init := by
  intro h
  refine C112_only_integer (fun _ : Fin 2 => 1 / 2) 5 3 (by norm_num) (by norm_num) (1 / 2) (by norm_num) ?_ (fun _ _ => nextStripe) stripesInit stripesD stripes_stationary (by decide +kernel) (h _ _ _ _ _ _ _ (by norm_num))
  intro m hm
  have h2 : (1 : ℚ) = ((2 * m : ℕ) : ℚ) := by push_cast; linarith
  have : 1 = 2 * m := by exact_mod_cast h2
  omega

/-- The stripes meet what the theorems above ask; stored, neighbouring rows differ by one in every frame; handed out, they do so in frames 0, 2, … only. -/
example : Stationary (fun _ : Fin 2 => 1 / 2) 5 3 (blown 5 3 (1 / 2) (fun _ _ => nextStripe) stripesInit 1) stripesD ∧ stripesD 2 0 < 4 * stripesD 1 0 ∧
    ((List.range 4).map fun n => ((handed 5 3 (1 / 2) (fun _ _ => nextStripe) stripesInit n 0).px 1 0 - (handed 5 3 (1 / 2) (fun _ _ => nextStripe) stripesInit n 0).px 0 0) ^ 2) = [1, 0, 1, 0] :=
  ⟨stripes_stationary 1, by decide +kernel, by decide +kernel⟩

/-- Whole pixels per frame: nothing is lost. -/
example : ((List.range 3).map fun n => ((handed 5 3 1 (fun _ _ => nextStripe) stripesInit n (0 : Fin 2)).px 1 0 - (handed 5 3 1 (fun _ _ => nextStripe) stripesInit n (0 : Fin 2)).px 0 0) ^ 2) = [1, 1, 1] := by decide +kernel

end Soapy.Props
