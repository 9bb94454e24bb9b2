import Verif.Model.Interp
import Verif.Lemmas.Py
import Mathlib.Tactic.Linarith
import Mathlib.Tactic.Ring
import Mathlib.Tactic.NormNum
import Mathlib.Tactic.Positivity
import Mathlib.Tactic.FieldSimp

namespace Soapy.Interp

open Soapy.Mirror

theorem axisIdx_nat (n i : ℕ) (h : i < n) : axisIdx n (i : ℤ) = .ok i := by
  unfold axisIdx
  rw [if_pos ⟨by omega, by omega⟩]
  simp

theorem readPx_nat (a : Arr2) (i j : ℕ) (hi : i < a.rows) (hj : j < a.cols) :
    readPx a (i : ℤ) (j : ℤ) = .ok (a.px i j) := by
  unfold readPx
  rw [axisIdx_nat _ _ hi, axisIdx_nat _ _ hj]

theorem pyInt_nonneg (x : ℚ) (h : 0 ≤ x) : pyInt x = (⌊x⌋₊ : ℤ) := by
  unfold pyInt
  rw [if_pos h, Int.natCast_floor_eq_floor h]

/-- The four neighbours exist and the value is their weighted mean. -/
theorem bilinAt_ok (a : Arr2) (x y : ℚ) (i j : ℕ) (hi : (i : ℚ) ≤ x ∧ x < i + 1) (hj : (j : ℚ) ≤ y ∧ y < j + 1)
    (hr : i + 1 < a.rows) (hc : j + 1 < a.cols) :
    bilinAt a x y = .ok ((1 - (x - i)) * (1 - (y - j)) * a.px i j + (x - i) * (1 - (y - j)) * a.px (i + 1) j
      + (1 - (x - i)) * (y - j) * a.px i (j + 1) + (x - i) * (y - j) * a.px (i + 1) (j + 1)) := by
  have i0 : (0 : ℚ) ≤ i := by positivity
  have j0 : (0 : ℚ) ≤ j := by positivity
  have hxi : pyInt x = (i : ℤ) := by
    rw [pyInt_nonneg x (by linarith)]
    norm_cast
    exact (Nat.floor_eq_iff (by linarith)).mpr ⟨hi.1, hi.2⟩
  have hyj : pyInt y = (j : ℤ) := by
    rw [pyInt_nonneg y (by linarith)]
    norm_cast
    exact (Nat.floor_eq_iff (by linarith)).mpr ⟨hj.1, hj.2⟩
  unfold bilinAt
  rw [hxi, hyj]
  have e1 : ((i : ℤ) + 1) = ((i + 1 : ℕ) : ℤ) := by push_cast; rfl
  have e2 : ((j : ℤ) + 1) = ((j + 1 : ℕ) : ℤ) := by push_cast; rfl
  simp only [e1, e2]
  rw [readPx_nat a (i + 1) j hr (by omega), readPx_nat a i j (by omega) (by omega),
    readPx_nat a (i + 1) (j + 1) hr hc, readPx_nat a i (j + 1) (by omega) hc]
  simp only [Except.ok.injEq, Int.cast_natCast]
  ring

theorem cell_exists (n : ℕ) (x : ℚ) (h0 : 0 ≤ x) (h1 : x < n - 1) :
    ∃ i : ℕ, i + 1 < n ∧ (i : ℚ) ≤ x ∧ x < i + 1 := by
  refine ⟨⌊x⌋₊, ?_, Nat.floor_le h0, Nat.lt_floor_add_one x⟩
  have : (⌊x⌋₊ : ℚ) < n - 1 := lt_of_le_of_lt (Nat.floor_le h0) h1
  have : ((⌊x⌋₊ + 1 : ℕ) : ℚ) < n := by push_cast; linarith
  exact_mod_cast this

theorem mapM_ok {α β : Type} (f : α → Except PyErr β) (g : α → β) (xs : List α) (h : ∀ x ∈ xs, f x = .ok (g x)) :
    xs.mapM f = .ok (xs.map g) := by
  induction xs with
  | nil => rfl
  | cons x xs ih =>
    rw [List.mapM_cons, h x (by simp), ih (fun y hy => h y (by simp [hy]))]
    rfl

end Soapy.Interp
