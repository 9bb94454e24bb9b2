import Verif.Model.Atmos
import Verif.Lemmas.Interp
import Mathlib.Algebra.Order.Floor.Ring
import Mathlib.Tactic.LinearCombination

namespace Soapy.Atmos

open Soapy.Mirror Soapy.Interp

/-- Position after the edge handling, one axis. -/
def wrapPos (W s : ℕ) (p : ℚ) : ℚ := if (W : ℚ) ≤ p + s then 0 else if p < 0 then (W : ℚ) - s else p

/-- By how much the content of the screen is shifted, one axis. -/
def wrapShift (W s : ℕ) (p : ℚ) : ℤ :=
  if (W : ℚ) ≤ p + s then -pyInt (-p) else if p < 0 then -pyInt ((W : ℚ) - p - s) else 0

/-- The arrays of a layer are consistent and the screen is the original one shifted by whole pixels. -/
structure Inv (W s : ℕ) (orig : Arr2) (rx ry : ℤ) (l : Layer) : Prop where
  rows : l.scr.rows = W
  cols : l.scr.cols = W
  px : ∀ i j : ℕ, i < W → j < W → l.scr.px i j = orig.px (((i : ℤ) + rx) % W).toNat (((j : ℤ) + ry) % W).toNat
  spl : l.spl = l.scr
  xs : l.xs = coordsFrom s l.posX
  ys : l.ys = coordsFrom s l.posY

theorem mod_toNat_lt (W : ℕ) (hW : 0 < W) (a : ℤ) : (a % W).toNat < W := by
  have h1 := Int.emod_nonneg a (show (W : ℤ) ≠ 0 by omega)
  have h2 := Int.emod_lt_of_pos a (show (0 : ℤ) < W by omega)
  omega

theorem roll0_px (W : ℕ) (hW : 0 < W) (orig a : Arr2) (rx ry σ : ℤ) (hr : a.rows = W)
    (h : ∀ i j : ℕ, i < W → j < W → a.px i j = orig.px (((i : ℤ) + rx) % W).toNat (((j : ℤ) + ry) % W).toNat)
    (i j : ℕ) (hj : j < W) :
    (roll0 a σ).px i j = orig.px (((i : ℤ) + (rx + -σ)) % W).toNat (((j : ℤ) + ry) % W).toNat := by
  unfold roll0
  simp only [hr]
  rw [h _ _ (mod_toNat_lt W hW _) hj]
  congr 2
  have h1 := Int.emod_nonneg ((i : ℤ) - σ) (show (W : ℤ) ≠ 0 by omega)
  rw [Int.toNat_of_nonneg h1, Int.emod_add_emod]
  congr 1
  ring

theorem roll1_px (W : ℕ) (hW : 0 < W) (orig a : Arr2) (rx ry σ : ℤ) (hr : a.cols = W)
    (h : ∀ i j : ℕ, i < W → j < W → a.px i j = orig.px (((i : ℤ) + rx) % W).toNat (((j : ℤ) + ry) % W).toNat)
    (i j : ℕ) (hi : i < W) :
    (roll1 a σ).px i j = orig.px (((i : ℤ) + rx) % W).toNat (((j : ℤ) + (ry + -σ)) % W).toNat := by
  unfold roll1
  simp only [hr]
  rw [h _ _ hi (mod_toNat_lt W hW _)]
  congr 2
  have h1 := Int.emod_nonneg ((j : ℤ) - σ) (show (W : ℤ) ≠ 0 by omega)
  rw [Int.toNat_of_nonneg h1, Int.emod_add_emod]
  congr 1
  ring

theorem wrapX_inv (W s : ℕ) (hW : 0 < W) (orig : Arr2) (rx ry : ℤ) (l : Layer) (h : Inv W s orig rx ry l) :
    Inv W s orig (rx + wrapShift W s l.posX) ry (wrapX W s l) ∧ (wrapX W s l).posX = wrapPos W s l.posX ∧
      (wrapX W s l).posY = l.posY := by
  unfold wrapX wrapPos wrapShift
  by_cases h1 : (W : ℚ) ≤ l.posX + s
  · simp only [h1, if_true, lt_irrefl, if_false]
    refine ⟨⟨h.rows, h.cols, ?_, rfl, rfl, h.ys⟩, trivial, trivial⟩
    intro i j _ hj
    exact roll0_px W hW orig l.scr rx ry _ h.rows h.px i j hj
  · simp only [h1, if_false]
    by_cases h2 : l.posX < 0
    · simp only [h2, if_true]
      refine ⟨⟨h.rows, h.cols, ?_, rfl, rfl, h.ys⟩, trivial, trivial⟩
      intro i j _ hj
      exact roll0_px W hW orig l.scr rx ry _ h.rows h.px i j hj
    · simp only [h2, if_false, add_zero]
      exact ⟨h, trivial, trivial⟩

theorem wrapY_inv (W s : ℕ) (hW : 0 < W) (orig : Arr2) (rx ry : ℤ) (l : Layer) (h : Inv W s orig rx ry l) :
    Inv W s orig rx (ry + wrapShift W s l.posY) (wrapY W s l) ∧ (wrapY W s l).posY = wrapPos W s l.posY ∧
      (wrapY W s l).posX = l.posX := by
  unfold wrapY wrapPos wrapShift
  by_cases h1 : (W : ℚ) ≤ l.posY + s
  · simp only [h1, if_true, lt_irrefl, if_false]
    refine ⟨⟨h.rows, h.cols, ?_, rfl, h.xs, rfl⟩, trivial, trivial⟩
    intro i j hi _
    exact roll1_px W hW orig l.scr rx ry _ h.cols h.px i j hi
  · simp only [h1, if_false]
    by_cases h2 : l.posY < 0
    · simp only [h2, if_true]
      refine ⟨⟨h.rows, h.cols, ?_, rfl, h.xs, rfl⟩, trivial, trivial⟩
      intro i j hi _
      exact roll1_px W hW orig l.scr rx ry _ h.cols h.px i j hi
    · simp only [h2, if_false, add_zero]
      exact ⟨h, trivial, trivial⟩

theorem coordsFrom_shift (s : ℕ) (p v : ℚ) : (coordsFrom s p).map (· + v) = coordsFrom s (p + v) := by
  unfold coordsFrom
  rw [List.map_map]
  apply List.map_congr_left
  intro k _
  simp only [Function.comp]
  ring

/-- One axis: shift of the content and position of the window before frame `n`. -/
def track (W s : ℕ) (v start : ℚ) : ℕ → ℤ × ℚ
  | 0 => (0, start)
  | n + 1 => ((track W s v start n).1 + wrapShift W s (track W s v start n).2, wrapPos W s (track W s v start n).2 + v)

/-- The start position chosen by `__init__`. -/
def startPos (W s : ℕ) (v : ℚ) : ℚ := if v < 0 then (W : ℚ) - s else 0

theorem init_inv (W s : ℕ) (scr : Arr2) (v : ℚ × ℚ) (l : Layer) (h : initLayer W s scr v = .ok l) :
    Inv W s scr 0 0 l ∧ l.posX = startPos W s v.1 ∧ l.posY = startPos W s v.2 ∧ s ≤ W := by
  unfold initLayer at h
  by_cases h1 : scr.rows < s ∨ scr.cols < s
  · rw [if_pos h1] at h; cases h
  rw [if_neg h1] at h
  by_cases h2 : scr.rows ≠ W ∨ scr.cols ≠ W
  · rw [if_pos h2] at h; cases h
  rw [if_neg h2] at h
  push Not at h1 h2
  simp only [Except.ok.injEq] at h
  subst h
  refine ⟨⟨h2.1, h2.2, ?_, rfl, rfl, rfl⟩, by simp only [startPos, h2.1], by simp only [startPos, h2.2], by omega⟩
  intro i j hi hj
  congr 2
  · rw [add_zero, Int.emod_eq_of_lt (by omega) (by omega)]; simp
  · rw [add_zero, Int.emod_eq_of_lt (by omega) (by omega)]; simp

theorem run_inv (W s : ℕ) (hW : 0 < W) (scr : Arr2) (v : ℚ × ℚ) (l : Layer) (h : initLayer W s scr v = .ok l) (n : ℕ) :
    Inv W s scr (track W s v.1 (startPos W s v.1) n).1 (track W s v.2 (startPos W s v.2) n).1 (runLayer W s v l n) ∧
      (runLayer W s v l n).posX = (track W s v.1 (startPos W s v.1) n).2 ∧
      (runLayer W s v l n).posY = (track W s v.2 (startPos W s v.2) n).2 := by
  induction n with
  | zero =>
    obtain ⟨a, b, c, _⟩ := init_inv W s scr v l h
    exact ⟨a, b, c⟩
  | succ n ih =>
    obtain ⟨a, b, c⟩ := ih
    obtain ⟨x1, x2, x3⟩ := wrapX_inv W s hW scr _ _ _ a
    obtain ⟨y1, y2, y3⟩ := wrapY_inv W s hW scr _ _ _ x1
    rw [b] at x1 x2
    rw [x3, c] at y2
    rw [x3, c, b] at y1
    rw [x2] at y3
    refine ⟨⟨y1.rows, y1.cols, y1.px, y1.spl, ?_, ?_⟩, ?_, ?_⟩
    · simp only [runLayer, advance]; rw [y1.xs, coordsFrom_shift]
    · simp only [runLayer, advance]; rw [y1.ys, coordsFrom_shift]
    · simp only [runLayer, advance, track]; rw [y3]
    · simp only [runLayer, advance, track]; rw [y2]

/-- The state used for sampling in frame `n`. -/
theorem sample_inv (W s : ℕ) (hW : 0 < W) (scr : Arr2) (v : ℚ × ℚ) (l : Layer) (h : initLayer W s scr v = .ok l) (n : ℕ) :
    ∃ m : Layer, (∀ spline scale, outLayer spline scale W s v l n = m.xs.map fun x => m.ys.map fun y => spline m.spl x y * scale) ∧
      Inv W s scr ((track W s v.1 (startPos W s v.1) n).1 + wrapShift W s (track W s v.1 (startPos W s v.1) n).2)
        ((track W s v.2 (startPos W s v.2) n).1 + wrapShift W s (track W s v.2 (startPos W s v.2) n).2) m ∧
      m.posX = wrapPos W s (track W s v.1 (startPos W s v.1) n).2 ∧ m.posY = wrapPos W s (track W s v.2 (startPos W s v.2) n).2 := by
  obtain ⟨a, b, c⟩ := run_inv W s hW scr v l h n
  obtain ⟨x1, x2, x3⟩ := wrapX_inv W s hW scr _ _ _ a
  obtain ⟨y1, y2, y3⟩ := wrapY_inv W s hW scr _ _ _ x1
  rw [b] at x1 x2
  rw [x3, c] at y2
  rw [x3, c, b] at y1
  rw [x2] at y3
  exact ⟨_, fun _ _ => rfl, y1, y3, y2⟩

theorem wrapPos_range (W s : ℕ) (h : s ≤ W) (p : ℚ) : 0 ≤ wrapPos W s p ∧ wrapPos W s p ≤ W - s := by
  have hc : (s : ℚ) ≤ W := by exact_mod_cast h
  unfold wrapPos
  split_ifs with h1 h2
  · exact ⟨le_refl _, by linarith⟩
  · exact ⟨by linarith, le_refl _⟩
  · push Not at h1 h2
    exact ⟨h2, by linarith⟩

theorem pyInt_int (z : ℤ) : pyInt (z : ℚ) = z := by
  unfold pyInt; split_ifs <;> simp

/-- With whole-pixel displacements nothing is lost. -/
theorem wrap_int (W s : ℕ) (p : ℤ) : ∃ q : ℤ, wrapPos W s p = q ∧ wrapShift W s p + q = p := by
  unfold wrapPos wrapShift
  split_ifs with h1 h2
  · refine ⟨0, by simp, ?_⟩
    rw [show (-(p : ℚ)) = ((-p : ℤ) : ℚ) by push_cast; ring, pyInt_int]; ring
  · refine ⟨(W : ℤ) - s, by push_cast; ring, ?_⟩
    rw [show ((W : ℚ) - p - s) = (((W : ℤ) - p - s : ℤ) : ℚ) by push_cast; ring, pyInt_int]; ring
  · exact ⟨p, rfl, by ring⟩

theorem track_int (W s : ℕ) (v start : ℤ) (n : ℕ) :
    ∃ p : ℤ, (track W s v start n).2 = p ∧ (track W s v start n).1 + p = start + n * v := by
  induction n with
  | zero => exact ⟨start, rfl, by simp [track]⟩
  | succ n ih =>
    obtain ⟨p, h1, h2⟩ := ih
    obtain ⟨q, h3, h4⟩ := wrap_int W s p
    refine ⟨q + v, ?_, ?_⟩
    · simp only [track]; rw [h1, h3]; push_cast; ring
    · simp only [track]; rw [h1]; push_cast; linarith

/-- Loss of one wrap at the far edge. -/
theorem wrap_far (W s : ℕ) (p : ℚ) (hp : 0 ≤ p) (h : (W : ℚ) ≤ p + s) :
    wrapPos W s p = 0 ∧ ((wrapShift W s p : ℤ) : ℚ) = ⌊p⌋ := by
  unfold wrapPos wrapShift
  rw [if_pos h, if_pos h]
  refine ⟨rfl, ?_⟩
  unfold pyInt
  split_ifs with h0
  · have : p = 0 := by linarith
    simp [this]
  · rw [Int.ceil_neg]; simp

/-- Gain of one wrap at the near edge. -/
theorem wrap_near (W s : ℕ) (hs : s ≤ W) (p : ℚ) (hp : p < 0) :
    wrapPos W s p = W - s ∧ ((wrapShift W s p : ℤ) : ℚ) + (W - s) = ⌈p⌉ := by
  have hc : (s : ℚ) ≤ W := by exact_mod_cast hs
  unfold wrapPos wrapShift
  rw [if_neg (by linarith), if_pos hp, if_neg (by linarith), if_pos hp]
  refine ⟨rfl, ?_⟩
  unfold pyInt
  rw [if_pos (by linarith)]
  have : ⌊(W : ℚ) - p - s⌋ = (W : ℤ) - s + -⌈p⌉ := by
    rw [← Int.floor_neg, ← Int.floor_intCast_add]
    congr 1
    push_cast; ring
  rw [this]; push_cast; ring

/-- Forward motion: the window never runs ahead, and it loses at most one pixel for every `W - s` pixels. -/
theorem track_forward (W s : ℕ) (v : ℚ) (hv : 0 ≤ v) (n : ℕ) :
    0 ≤ (track W s v 0 n).2 ∧ 0 ≤ n * v - ((track W s v 0 n).1 + (track W s v 0 n).2) ∧
      ((W : ℚ) - s) * (n * v - ((track W s v 0 n).1 + (track W s v 0 n).2)) + (track W s v 0 n).2 ≤ n * v := by
  induction n with
  | zero => simp [track]
  | succ n ih =>
    obtain ⟨h0, h1, h2⟩ := ih
    simp only [track]
    generalize (track W s v 0 n).1 = r at *
    generalize (track W s v 0 n).2 = p at *
    by_cases hw : (W : ℚ) ≤ p + s
    · obtain ⟨e1, e2⟩ := wrap_far W s p h0 hw
      rw [e1]
      push_cast
      rw [e2]
      have f1 := Int.floor_le p
      have f2 := Int.lt_floor_add_one p
      refine ⟨by linarith, by linarith, ?_⟩
      have hle : ((W : ℚ) - s) * (p - ⌊p⌋) ≤ p := by
        by_cases hm : 0 ≤ (W : ℚ) - s
        · nlinarith
        · nlinarith
      nlinarith
    · have e1 : wrapPos W s p = p := by unfold wrapPos; rw [if_neg hw, if_neg (by linarith)]
      have e2 : wrapShift W s p = 0 := by unfold wrapShift; rw [if_neg hw, if_neg (by linarith)]
      rw [e1, e2]
      push_cast
      refine ⟨by linarith, by linarith, ?_⟩
      have : ((n : ℚ) + 1) * v - (r + 0 + (p + v)) = n * v - (r + p) := by ring
      rw [this]; linarith

/-- Backward motion: the window never runs ahead, and it loses at most one pixel for every `W - s` pixels, plus one. -/
theorem track_backward (W s : ℕ) (hs : s ≤ W) (v : ℚ) (hv : v < 0) (n : ℕ) :
    (1 ≤ n → (track W s v ((W : ℚ) - s) n).2 < W - s) ∧
      0 ≤ ((track W s v ((W : ℚ) - s) n).1 + (track W s v ((W : ℚ) - s) n).2) - ((W - s) + n * v) ∧
      ((W : ℚ) - s) * (((track W s v ((W : ℚ) - s) n).1 + (track W s v ((W : ℚ) - s) n).2) - ((W - s) + n * v)) +
        ((W - s) - (track W s v ((W : ℚ) - s) n).2) ≤ n * (-v) + (W - s) := by
  have hc : (s : ℚ) ≤ W := by exact_mod_cast hs
  induction n with
  | zero => simp [track]; linarith
  | succ n ih =>
    obtain ⟨h0, h1, h2⟩ := ih
    simp only [track]
    by_cases hn : n = 0
    · subst hn
      simp only [track] at *
      have e1 : wrapPos W s ((W : ℚ) - s) = 0 := by unfold wrapPos; rw [if_pos (by linarith)]
      have e2 : ((wrapShift W s ((W : ℚ) - s) : ℤ) : ℚ) = (W : ℚ) - s := by
        rw [(wrap_far W s _ (by linarith) (by linarith)).2]
        rw [show ((W : ℚ) - s) = (((W : ℤ) - s : ℤ) : ℚ) by push_cast; ring, Int.floor_intCast]
      rw [e1]
      push_cast
      rw [e2]
      refine ⟨fun _ => by linarith, by linarith, ?_⟩
      have : (0 + ((W : ℚ) - s) + (0 + v)) - ((W - s) + 1 * v) = 0 := by ring
      rw [this]; linarith
    · have h0' := h0 (by omega)
      generalize (track W s v ((W : ℚ) - s) n).1 = r at *
      generalize (track W s v ((W : ℚ) - s) n).2 = p at *
      by_cases hp : p < 0
      · obtain ⟨e1, e2⟩ := wrap_near W s hs p hp
        rw [e1]
        push_cast
        have e3 : ((wrapShift W s p : ℤ) : ℚ) = ⌈p⌉ - (W - s) := by linarith
        rw [e3]
        have f1 := Int.le_ceil p
        have f2 := Int.ceil_lt_add_one p
        refine ⟨fun _ => by linarith, by linarith, ?_⟩
        have : ((W : ℚ) - s) * (⌈p⌉ - p) ≤ (W - s) := by nlinarith
        nlinarith
      · have e1 : wrapPos W s p = p := by unfold wrapPos; rw [if_neg (by linarith), if_neg hp]
        have e2 : wrapShift W s p = 0 := by unfold wrapShift; rw [if_neg (by linarith), if_neg hp]
        rw [e1, e2]
        push_cast
        refine ⟨fun _ => by linarith, by linarith, ?_⟩
        have : ((r : ℚ) + 0 + (p + v)) - ((W - s) + ((n : ℚ) + 1) * v) = (r + p) - ((W - s) + n * v) := by ring
        rw [this]; linarith

end Soapy.Atmos
