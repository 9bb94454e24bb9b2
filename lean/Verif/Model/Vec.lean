/-
Flat numpy vectors and assignment to slices of them.
-/
import Verif.Model.Py

namespace Soapy.Vec

variable {α : Type*}

/-- `v[a:b]` for `0 ≤ a`, `0 ≤ b` (numpy clamps at the end). -/
def slice (v : List α) (a b : ℕ) : List α := (v.take b).drop a

/-- `v[a:b] = w` for `0 ≤ a ≤ b`: numpy requires the slice to have the length of `w`
(`ValueError` otherwise).  Broadcasting of a length-1 right-hand side is not modelled. -/
def assign (v : List α) (a b : ℕ) (w : List α) : Except PyErr (List α) :=
  if (slice v a b).length = w.length then .ok (v.take a ++ w ++ v.drop (a + w.length))
  else .error .valueError

/-- `numpy.zeros(n)`. -/
def zeros (n : ℕ) : List ℚ := List.replicate n 0

theorem slice_append (pre blk suf : List α) :
    slice (pre ++ blk ++ suf) pre.length (pre.length + blk.length) = blk := by
  unfold slice
  rw [List.append_assoc, List.take_append, List.take_of_length_le (by omega)]
  rw [show pre.length + blk.length - pre.length = blk.length by omega]
  rw [List.take_append, List.take_of_length_le (by omega)]
  simp

theorem assign_append (pre blk suf w : List α) (h : blk.length = w.length) :
    assign (pre ++ blk ++ suf) pre.length (pre.length + blk.length) w = .ok (pre ++ w ++ suf) := by
  unfold assign
  rw [slice_append, if_pos h]
  congr 1
  rw [List.append_assoc pre blk suf, List.take_left', ← h]
  · rw [← List.append_assoc pre blk suf, List.drop_left' (by simp)]
  · rfl

end Soapy.Vec
