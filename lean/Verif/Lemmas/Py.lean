/-
Lemmas on the Python primitives.
-/
import Verif.Model.Py
import Mathlib.Tactic.Linarith
import Mathlib.Tactic.FieldSimp
import Mathlib.Tactic.Ring
import Mathlib.Tactic.NormNum

namespace Soapy

theorem pyRound_int (z : ℤ) : pyRound (z : ℚ) = z := by
  simp [pyRound]

theorem pyRound_half (z : ℤ) : pyRound ((z : ℚ) + 1 / 2) = if z % 2 = 0 then z else z + 1 := by
  have hf : ⌊(z : ℚ) + 1 / 2⌋ = z := by
    rw [Int.floor_eq_iff]; constructor <;> linarith
  unfold pyRound
  simp only [hf]
  have : (z : ℚ) + 1 / 2 - z = 1 / 2 := by ring
  rw [this]; simp

/-- `round` is within one half. -/
theorem pyRound_close (x : ℚ) : |x - pyRound x| ≤ 1 / 2 := by
  have h1 := Int.floor_le x
  have h2 := Int.lt_floor_add_one x
  unfold pyRound
  simp only
  split_ifs with h3 h4 h5
  · rw [abs_le]; constructor <;> linarith
  · rw [abs_le]; push_cast; constructor <;> linarith
  · rw [abs_le]; constructor <;> linarith
  · rw [abs_le]; push_cast; constructor <;> linarith

theorem pyRound_mono {x y : ℚ} (h : x ≤ y) : pyRound x ≤ pyRound y := by
  by_contra hc
  have hc' : pyRound y + 1 ≤ pyRound x := by omega
  have h1 := pyRound_close x
  have h2 := pyRound_close y
  rw [abs_le] at h1 h2
  have hq : ((pyRound y : ℤ) : ℚ) + 1 ≤ (pyRound x : ℤ) := by exact_mod_cast hc'
  -- everything is tight: x = y = round y + 1/2
  have hx : x = pyRound y + 1 / 2 := by linarith
  have hy : y = pyRound y + 1 / 2 := by linarith
  have : x = y := by linarith
  rw [this] at hc'
  omega

theorem pyInt_nonneg {x : ℚ} (h : 0 ≤ x) : pyInt x = ⌊x⌋ := by simp [pyInt, h]

end Soapy
