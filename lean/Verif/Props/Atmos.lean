/-
Property theorems C24–C26: moving phase screens.
-/
import Verif.Lemmas.Atmos
import Verif.Props.Interp

namespace Soapy.Props

open Soapy.Mirror Soapy.Interp Soapy.Atmos

/-- **C24.** In every frame, for every wind velocity, all coordinates at which the stored screen is evaluated lie between its first and last sample; each frame is a full window. -/
theorem C24_window_inside (W s : ℕ) (scr : Arr2) (v : ℚ × ℚ) (l : Layer) (hs : 1 ≤ s) (h : initLayer W s scr v = .ok l) (n : ℕ) :
    ∃ (a : Arr2) (xs ys : List ℚ), a.rows = W ∧ a.cols = W ∧ xs.length = s ∧ ys.length = s ∧
      (∀ x ∈ xs ++ ys, 0 ≤ x ∧ x ≤ W - 1) ∧
      ∀ spline scale, outLayer spline scale W s v l n = xs.map fun x => ys.map fun y => spline a x y * scale := by
  have hsW := (init_inv W s scr v l h).2.2.2
  obtain ⟨m, ho, hi, hx, hy⟩ := sample_inv W s (by omega) scr v l h n
  refine ⟨m.spl, m.xs, m.ys, by rw [hi.spl, hi.rows], by rw [hi.spl, hi.cols], by rw [hi.xs]; simp [coordsFrom],
    by rw [hi.ys]; simp [coordsFrom], ?_, ho⟩
  have key : ∀ p : ℚ, 0 ≤ p → p ≤ W - s → ∀ x ∈ coordsFrom s p, 0 ≤ x ∧ x ≤ W - 1 := by
    intro p h0 h1 x hx
    obtain ⟨k, hk, rfl⟩ := List.mem_map.mp hx
    have hk' : (k : ℚ) + 1 ≤ s := by exact_mod_cast (List.mem_range.mp hk)
    have : (0 : ℚ) ≤ k := by positivity
    exact ⟨by linarith, by linarith⟩
  intro x hxm
  rcases List.mem_append.mp hxm with h' | h'
  · rw [hi.xs, hx] at h'
    obtain ⟨r1, r2⟩ := wrapPos_range W s hsW (track W s v.1 (startPos W s v.1) n).2
    exact key _ r1 r2 x h'
  · rw [hi.ys, hy] at h'
    obtain ⟨r1, r2⟩ := wrapPos_range W s hsW (track W s v.2 (startPos W s v.2) n).2
    exact key _ r1 r2 x h'

/-- **C24 (refusal).** Any other screen is refused with a `ValueError`. -/
theorem C24_refused (W s : ℕ) (scr : Arr2) (v : ℚ × ℚ) (h : ¬(s ≤ W ∧ scr.rows = W ∧ scr.cols = W)) : initLayer W s scr v = .error .valueError := by
  unfold initLayer
  split_ifs
  · rfl
  · rfl
  · omega

/-- A screen of three by four pixels. -/
example : initLayer 4 2 ⟨3, 4, fun _ _ => 1⟩ (1, 0) = .error .valueError := C24_refused _ _ _ _ (by simp)

/-- **C24 (no other screens).** Initialisation succeeds exactly for square screens of the announced size that hold a window. -/
theorem C24_init_iff (W s : ℕ) (scr : Arr2) (v : ℚ × ℚ) :
    (∃ l, initLayer W s scr v = .ok l) ↔ s ≤ W ∧ scr.rows = W ∧ scr.cols = W := by
  unfold initLayer
  constructor
  · rintro ⟨l, h⟩
    by_cases h1 : scr.rows < s ∨ scr.cols < s
    · rw [if_pos h1] at h; cases h
    rw [if_neg h1] at h
    by_cases h2 : scr.rows ≠ W ∨ scr.cols ≠ W
    · rw [if_pos h2] at h; cases h
    omega
  · rintro ⟨h1, h2, h3⟩
    rw [if_neg (by omega), if_neg (by omega)]
    exact ⟨_, rfl⟩

/-- A 5 × 5 screen, 2 × 2 window. -/
def toyScreen : Arr2 := ⟨5, 5, fun i j => 10 * i + j⟩

/-- Nearest sample below, good enough for an example. -/
def floorSpline (a : Arr2) (x y : ℚ) : ℚ := a.px ⌊x⌋.toNat ⌊y⌋.toNat

example : (initLayer 5 2 toyScreen (2, -1)).map (fun l => (List.range 4).map (outLayer floorSpline 1 5 2 (2, -1) l)) =
    .ok [[[3, 4], [13, 14]], [[22, 23], [32, 33]], [[41, 42], [1, 2]], [[10, 11], [20, 21]]] := by decide +kernel

theorem window_get (g : ℚ → ℚ → ℚ) (s : ℕ) (p q : ℚ) (i j : ℕ) (hi : i < s) (hj : j < s) :
    ∃ row, ((coordsFrom s p).map fun x => (coordsFrom s q).map fun y => g x y)[i]? = some row ∧ row[j]? = some (g ((i : ℚ) + p) ((j : ℚ) + q)) := by
  refine ⟨(coordsFrom s q).map fun y => g ((i : ℚ) + p) y, ?_, ?_⟩
  · simp [coordsFrom, List.getElem?_range hi]
  · simp [coordsFrom, List.getElem?_range hj]

/-- **C25 (partial: whole-pixel displacements).** If the wind moves the screens by a whole number of pixels per frame in each direction, then for all times pixel `(i, j)` of frame `n` is exactly the sample of the periodically
continued original screen that the wind has brought there (`start` is 0, or the far end for negative velocities).  Missing: fractional displacements, see `C25_drift_partial` and `C25_violated`. -/
theorem C25_frozen_flow_partial (W s : ℕ) (scr : Arr2) (a b : ℤ) (l : Layer) (h : initLayer W s scr (a, b) = .ok l)
    (spline : Arr2 → ℚ → ℚ → ℚ) (hspl : ∀ (q : Arr2) (i j : ℕ), i < q.rows → j < q.cols → spline q i j = q.px i j)
    (scale : ℚ) (n i j : ℕ) (hi : i < s) (hj : j < s) :
    ∃ row, (outLayer spline scale W s (a, b) l n)[i]? = some row ∧
      row[j]? = some (scr.px (((if a < 0 then (W : ℤ) - s else 0) + i + n * a) % W).toNat
        (((if b < 0 then (W : ℤ) - s else 0) + j + n * b) % W).toNat * scale) := by
  have hsW := (init_inv W s scr _ l h).2.2.2
  obtain ⟨m, ho, hinv, hx, hy⟩ := sample_inv W s (by omega) scr _ l h n
  have hst : ∀ c : ℤ, startPos W s (c : ℚ) = ((if c < 0 then (W : ℤ) - s else 0 : ℤ) : ℚ) := by
    intro c
    unfold startPos
    by_cases hc : c < 0
    · rw [if_pos hc, if_pos (by exact_mod_cast hc)]; push_cast; ring
    · rw [if_neg hc, if_neg (by exact_mod_cast hc)]; simp
  have key : ∀ c : ℤ, ∃ q : ℕ, wrapPos W s (track W s c (startPos W s c) n).2 = q ∧ q + s ≤ W ∧
      (track W s c (startPos W s c) n).1 + wrapShift W s (track W s c (startPos W s c) n).2 + q =
        (if c < 0 then (W : ℤ) - s else 0) + n * c := by
    intro c
    rw [hst c]
    obtain ⟨p, h1, h2⟩ := track_int W s c (if c < 0 then (W : ℤ) - s else 0) n
    obtain ⟨q, h3, h4⟩ := wrap_int W s p
    obtain ⟨r1, r2⟩ := wrapPos_range W s hsW (p : ℚ)
    rw [h3] at r1 r2
    have q0 : 0 ≤ q := by exact_mod_cast r1
    obtain ⟨q', rfl⟩ := Int.eq_ofNat_of_zero_le q0
    refine ⟨q', ?_, ?_, ?_⟩
    · rw [h1, h3]; simp
    · have : ((q' : ℤ) : ℚ) + s ≤ W := by linarith
      exact_mod_cast this
    · rw [h1]; rw [← h2]; omega
  obtain ⟨qx, ex, lx, sx⟩ := key a
  obtain ⟨qy, ey, ly, sy⟩ := key b
  rw [ex] at hx
  rw [ey] at hy
  rw [ho, hinv.xs, hinv.ys, hx, hy]
  obtain ⟨row, g1, g2⟩ := window_get (fun x y => spline m.spl x y * scale) s qx qy i j hi hj
  refine ⟨row, g1, ?_⟩
  rw [g2]
  congr 1
  have e1 : ((i : ℚ) + qx) = ((i + qx : ℕ) : ℚ) := by push_cast; rfl
  have e2 : ((j : ℚ) + qy) = ((j + qy : ℕ) : ℚ) := by push_cast; rfl
  rw [e1, e2, hinv.spl, hspl _ _ _ (by rw [hinv.rows]; omega) (by rw [hinv.cols]; omega), hinv.px _ _ (by omega) (by omega)]
  congr 4
  · push_cast; omega
  · push_cast; omega

example : ∃ l, initLayer 5 2 toyScreen (((2 : ℤ) : ℚ), ((-1 : ℤ) : ℚ)) = .ok l ∧
    ∀ (q : Arr2) (i j : ℕ), i < q.rows → j < q.cols → floorSpline q i j = q.px i j := by
  refine ⟨_, rfl, ?_⟩
  intro q i j _ _
  simp [floorSpline]

/-- **C25 (partial: bound on the drift).** For every velocity, in frame `n` the window shows the original screen, shifted by whole pixels `r`, at offset `p`; the distance travelled, `r + p - start`, never exceeds `n v`, and falls short
of it by at most one pixel for every `W - s` pixels of travel (plus one pixel for negative velocities).  Both axes.  Missing: equality. -/
theorem C25_drift_partial (W s : ℕ) (scr : Arr2) (v : ℚ × ℚ) (l : Layer) (hs : 1 ≤ s) (h : initLayer W s scr v = .ok l) (n : ℕ) :
    ∃ (a : Arr2) (rx ry : ℤ) (px py : ℚ), a.rows = W ∧ a.cols = W ∧
      (∀ i j : ℕ, i < W → j < W → a.px i j = scr.px (((i : ℤ) + rx) % W).toNat (((j : ℤ) + ry) % W).toNat) ∧
      (∀ spline scale, outLayer spline scale W s v l n =
        (List.range s).map fun (i : ℕ) => (List.range s).map fun (j : ℕ) => spline a ((i : ℚ) + px) ((j : ℚ) + py) * scale) ∧
      (∀ (u p : ℚ) (r : ℤ), (u = v.1 ∧ r = rx ∧ p = px) ∨ (u = v.2 ∧ r = ry ∧ p = py) →
        (0 ≤ u → r + p ≤ n * u ∧ ((W : ℚ) - s) * (n * u - (r + p)) ≤ n * u) ∧
        (u < 0 → (W - s) + n * u ≤ r + p ∧ ((W : ℚ) - s) * ((r + p) - ((W - s) + n * u)) ≤ n * (-u) + (W - s))) := by
  have hsW := (init_inv W s scr v l h).2.2.2
  have hc : (s : ℚ) ≤ W := by exact_mod_cast hsW
  obtain ⟨m, ho, hi, hx, hy⟩ := sample_inv W s (by omega) scr v l h n
  refine ⟨m.spl, _, _, m.posX, m.posY, by rw [hi.spl, hi.rows], by rw [hi.spl, hi.cols], by rw [hi.spl]; exact hi.px, ?_, ?_⟩
  · intro spline scale
    rw [ho, hi.xs, hi.ys]
    simp only [coordsFrom, List.map_map, Function.comp_def]
  · have key : ∀ u : ℚ,
        (0 ≤ u → (((track W s u (startPos W s u) n).1 + wrapShift W s (track W s u (startPos W s u) n).2 : ℤ) : ℚ) +
            wrapPos W s (track W s u (startPos W s u) n).2 ≤ n * u ∧
          ((W : ℚ) - s) * (n * u - ((((track W s u (startPos W s u) n).1 + wrapShift W s (track W s u (startPos W s u) n).2 : ℤ) : ℚ) +
            wrapPos W s (track W s u (startPos W s u) n).2)) ≤ n * u) ∧
        (u < 0 → (W - s) + n * u ≤ (((track W s u (startPos W s u) n).1 + wrapShift W s (track W s u (startPos W s u) n).2 : ℤ) : ℚ) +
            wrapPos W s (track W s u (startPos W s u) n).2 ∧
          ((W : ℚ) - s) * (((((track W s u (startPos W s u) n).1 + wrapShift W s (track W s u (startPos W s u) n).2 : ℤ) : ℚ) +
            wrapPos W s (track W s u (startPos W s u) n).2) - ((W - s) + n * u)) ≤ n * (-u) + (W - s)) := by
      intro u
      constructor
      · intro hu
        have hst : startPos W s u = 0 := by unfold startPos; rw [if_neg (by linarith)]
        rw [hst]
        -- the sampled position is the next position minus the displacement
        obtain ⟨t0, t1, t2⟩ := track_forward W s u hu (n + 1)
        simp only [track] at t0 t1 t2
        push_cast at t0 t1 t2 ⊢
        obtain ⟨w0, w1⟩ := wrapPos_range W s hsW (track W s u 0 n).2
        constructor
        · linarith
        · have e : ((n : ℚ) + 1) * u - (((track W s u 0 n).1 : ℚ) + (wrapShift W s (track W s u 0 n).2 : ℚ) + (wrapPos W s (track W s u 0 n).2 + u)) =
            n * u - (((track W s u 0 n).1 : ℚ) + (wrapShift W s (track W s u 0 n).2 : ℚ) + wrapPos W s (track W s u 0 n).2) := by ring
          rw [e] at t2
          linarith
      · intro hu
        have hst : startPos W s u = (W : ℚ) - s := by unfold startPos; rw [if_pos hu]
        rw [hst]
        obtain ⟨t0, t1, t2⟩ := track_backward W s hsW u hu (n + 1)
        simp only [track] at t0 t1 t2
        push_cast at t0 t1 t2 ⊢
        obtain ⟨w0, w1⟩ := wrapPos_range W s hsW (track W s u ((W : ℚ) - s) n).2
        constructor
        · linarith
        · have e : (((track W s u ((W : ℚ) - s) n).1 : ℚ) + (wrapShift W s (track W s u ((W : ℚ) - s) n).2 : ℚ) + (wrapPos W s (track W s u ((W : ℚ) - s) n).2 + u)) -
              ((W - s) + ((n : ℚ) + 1) * u) =
            (((track W s u ((W : ℚ) - s) n).1 : ℚ) + (wrapShift W s (track W s u ((W : ℚ) - s) n).2 : ℚ) + wrapPos W s (track W s u ((W : ℚ) - s) n).2) -
              ((W - s) + n * u) := by ring
          rw [e] at t2
          linarith
    intro u p r hcase
    rcases hcase with ⟨rfl, rfl, rfl⟩ | ⟨rfl, rfl, rfl⟩
    · rw [hx]; exact key v.1
    · rw [hy]; exact key v.2

/-- **C25 (violated).** Reaching the edge of the screen discards the fractional part of the position: for any screen of three pixels, window of two and any interpolation, wind speeds of 3/4 and of 1/2 pixel per frame give the
same third frame (the wind has moved 3/2 and 1 pixels). -/
theorem C25_violated (spline : Arr2 → ℚ → ℚ → ℚ) (scale : ℚ) (f : ℕ → ℕ → ℚ) :
    ∃ l l', initLayer 3 2 ⟨3, 3, f⟩ (3 / 4, 0) = .ok l ∧ initLayer 3 2 ⟨3, 3, f⟩ (1 / 2, 0) = .ok l' ∧
      outLayer spline scale 3 2 (3 / 4, 0) l 2 = outLayer spline scale 3 2 (1 / 2, 0) l' 2 := by
  refine ⟨_, _, rfl, rfl, ?_⟩
  have e1 : pyInt (-(3 / 2) : ℚ) = -1 := by decide +kernel
  have e2 : pyInt (-1 : ℚ) = -1 := by decide +kernel
  have k1 : ∀ c : ℚ, (3 : ℚ) ≤ c + 2 ↔ 1 ≤ c := fun c => ⟨fun h => by linarith, fun h => by linarith⟩
  simp [outLayer, moveLayer, runLayer, advance, wrapX, wrapY, k1, coordsFrom]
  norm_num [e1, e2]

/-- If the stored screen is just as large as the window, a slow screen does not move at all. -/
theorem C25_stuck (f : ℕ → ℕ → ℚ) (spline : Arr2 → ℚ → ℚ → ℚ) (scale v : ℚ) (hv : 0 ≤ v ∧ v < 1) (s n : ℕ) (hs : 1 ≤ s) :
    ∃ l, initLayer s s ⟨s, s, f⟩ (v, 0) = .ok l ∧ ∀ i j : ℕ, i < s → j < s →
      ∃ (a : Arr2) (row : List ℚ), (∀ i j : ℕ, i < s → j < s → a.px i j = f i j) ∧
        (outLayer spline scale s s (v, 0) l n)[i]? = some row ∧ row[j]? = some (spline a i j * scale) := by
  obtain ⟨l, hl⟩ := (C24_init_iff s s ⟨s, s, f⟩ (v, 0)).mpr ⟨le_refl _, rfl, rfl⟩
  refine ⟨l, hl, ?_⟩
  intro i j hi hj
  obtain ⟨m, ho, hinv, hx, hy⟩ := sample_inv s s (by omega) _ _ l hl n
  have key : ∀ u : ℚ, 0 ≤ u → u < 1 → ∀ n : ℕ, (track s s u 0 n).1 = 0 ∧ ((track s s u 0 n).2 = 0 ∨ (track s s u 0 n).2 = u) := by
    intro u h0 h1 n
    induction n with
    | zero => simp [track]
    | succ n ih =>
      obtain ⟨a1, a2⟩ := ih
      have hp : 0 ≤ (track s s u 0 n).2 ∧ (track s s u 0 n).2 < 1 := by
        rcases a2 with a2 | a2 <;> rw [a2]
        · norm_num
        · exact ⟨h0, h1⟩
      obtain ⟨w1, w2⟩ := wrap_far s s (track s s u 0 n).2 hp.1 (by linarith)
      have hfl : ⌊(track s s u 0 n).2⌋ = 0 := Int.floor_eq_zero_iff.mpr ⟨hp.1, hp.2⟩
      rw [hfl] at w2
      have w2' : wrapShift s s (track s s u 0 n).2 = 0 := by exact_mod_cast w2
      simp only [track]
      rw [w1, w2', a1]
      exact ⟨by norm_num, Or.inr (by norm_num)⟩
  have fin : ∀ u : ℚ, 0 ≤ u → u < 1 → startPos s s u = 0 ∧ wrapPos s s (track s s u 0 n).2 = 0 ∧
      (track s s u 0 n).1 + wrapShift s s (track s s u 0 n).2 = 0 := by
    intro u h0 h1
    obtain ⟨a1, a2⟩ := key u h0 h1 n
    have hp : 0 ≤ (track s s u 0 n).2 ∧ (track s s u 0 n).2 < 1 := by
      rcases a2 with a2 | a2 <;> rw [a2]
      · norm_num
      · exact ⟨h0, h1⟩
    obtain ⟨w1, w2⟩ := wrap_far s s (track s s u 0 n).2 hp.1 (by linarith)
    have hfl : ⌊(track s s u 0 n).2⌋ = 0 := Int.floor_eq_zero_iff.mpr ⟨hp.1, hp.2⟩
    rw [hfl] at w2
    have w2' : wrapShift s s (track s s u 0 n).2 = 0 := by exact_mod_cast w2
    refine ⟨by unfold startPos; rw [if_neg (by linarith)], w1, by rw [a1, w2']; rfl⟩
  obtain ⟨x1, x2, x3⟩ := fin v hv.1 hv.2
  obtain ⟨y1, y2, y3⟩ := fin 0 (le_refl _) (by norm_num)
  simp only [x1, y1] at hinv hx hy
  rw [x2] at hx
  rw [y2] at hy
  rw [x3, y3] at hinv
  obtain ⟨row, g1, g2⟩ := window_get (fun x y => spline m.spl x y * scale) s 0 0 i j hi hj
  refine ⟨m.spl, row, ?_, ?_, ?_⟩
  · intro i j hi hj
    rw [hinv.spl, hinv.px i j hi hj, add_zero, add_zero, Int.emod_eq_of_lt (by omega) (by omega), Int.emod_eq_of_lt (by omega) (by omega)]
    simp
  · rw [ho, hinv.xs, hinv.ys, hx, hy]
    exact g1
  · rw [g2, add_zero, add_zero]

/-! ### C26 -/

theorem addRows_spec (gen : ℕ → List (List ℚ) → List ℚ) (k : ℕ) (s : Inf) :
    (addRows gen k s).drawn = s.drawn + k ∧ (addRows gen k s).fp = s.fp ∧
      ∃ new : List (List ℚ), new.length = k ∧ (addRows gen k s).scr = new ++ s.scr := by
  induction k generalizing s with
  | zero => exact ⟨rfl, rfl, [], rfl, rfl⟩
  | succ k ih =>
    rw [addRows]
    obtain ⟨a, b, new, c, d⟩ := ih { s with scr := gen s.drawn s.scr :: s.scr, drawn := s.drawn + 1 }
    refine ⟨by rw [a]; dsimp only; omega, b, new ++ [gen s.drawn s.scr], by simp [c], ?_⟩
    rw [d]; simp

/-- **C26 (rows and offset).** After `n` frames at `v ≥ 0` pixels per frame exactly `⌊n v⌋` rows were added and the sub-pixel offset is the fractional part of `n v`. -/
theorem C26_rows_and_offset (gen : ℕ → List (List ℚ) → List ℚ) (len : ℕ) (v : ℚ) (hv : 0 ≤ v) (init : List (List ℚ)) (n : ℕ) :
    ((runInf gen len v init n).drawn : ℤ) = ⌊n * v⌋ ∧ (runInf gen len v init n).fp = n * v - ⌊n * v⌋ := by
  have inv : (((runInf gen len v init n).drawn : ℚ) + (runInf gen len v init n).fp = n * v) ∧
      0 ≤ (runInf gen len v init n).fp ∧ (runInf gen len v init n).fp < 1 := by
    induction n with
    | zero => simp [runInf]
    | succ n ih =>
      obtain ⟨h1, h2, h3⟩ := ih
      have hk : pyInt v = ⌊v⌋ := by unfold pyInt; rw [if_pos hv]
      have hk0 : 0 ≤ ⌊v⌋ := Int.floor_nonneg.mpr hv
      have f1 := Int.floor_le v
      have f2 := Int.lt_floor_add_one v
      simp only [runInf, moveInf, hk]
      by_cases hc : 1 ≤ (runInf gen len v init n).fp + (v - (⌊v⌋ : ℚ))
      · simp only [hc, if_true]
        obtain ⟨a, b, _⟩ := addRows_spec gen (⌊v⌋ + 1).toNat
          { (runInf gen len v init n) with fp := (runInf gen len v init n).fp + (v - (⌊v⌋ : ℚ)) - 1 }
        rw [a, b]
        dsimp only
        have : (((⌊v⌋ + 1).toNat : ℕ) : ℚ) = ⌊v⌋ + 1 := by
          rw [← Int.cast_natCast, Int.toNat_of_nonneg (by omega)]; push_cast; ring
        push_cast
        rw [this]
        exact ⟨by linarith, by linarith, by linarith⟩
      · simp only [hc, if_false]
        obtain ⟨a, b, _⟩ := addRows_spec gen ⌊v⌋.toNat
          { (runInf gen len v init n) with fp := (runInf gen len v init n).fp + (v - (⌊v⌋ : ℚ)) }
        rw [a, b]
        dsimp only
        have : ((⌊v⌋.toNat : ℕ) : ℚ) = ⌊v⌋ := by
          rw [← Int.cast_natCast, Int.toNat_of_nonneg hk0]
        push_cast
        rw [this]
        exact ⟨by linarith, by linarith, by linarith⟩
  obtain ⟨h1, h2, h3⟩ := inv
  have hf : ((runInf gen len v init n).drawn : ℤ) = ⌊n * v⌋ := by
    symm
    rw [Int.floor_eq_iff]
    push_cast
    exact ⟨by linarith, by linarith⟩
  refine ⟨hf, ?_⟩
  rw [← hf]
  push_cast
  linarith

/-- **C26 (shift).** From one frame to the next the stored screen is pushed on by exactly `⌊(n+1) v⌋ - ⌊n v⌋` rows; old rows are kept unchanged and in order. -/
theorem C26_shift (gen : ℕ → List (List ℚ) → List ℚ) (len : ℕ) (v : ℚ) (hv : 0 ≤ v) (init : List (List ℚ)) (n : ℕ) :
    ∃ new : List (List ℚ), (new.length : ℤ) = ⌊((n + 1 : ℕ) : ℚ) * v⌋ - ⌊n * v⌋ ∧
      (runInf gen len v init (n + 1)).scr = (new ++ (runInf gen len v init n).scr).take len := by
  have h1 := (C26_rows_and_offset gen len v hv init n).1
  have h2 := (C26_rows_and_offset gen len v hv init (n + 1)).1
  rw [← h1, ← h2]
  simp only [runInf, moveInf]
  by_cases hc : 1 ≤ (runInf gen len v init n).fp + (v - (pyInt v : ℚ))
  · simp only [hc, if_true]
    obtain ⟨a, _, new, c, d⟩ := addRows_spec gen (pyInt v + 1).toNat
      { (runInf gen len v init n) with fp := (runInf gen len v init n).fp + (v - (pyInt v : ℚ)) - 1 }
    exact ⟨new, by rw [a, c]; push_cast; ring, by rw [d]⟩
  · simp only [hc, if_false]
    obtain ⟨a, _, new, c, d⟩ := addRows_spec gen (pyInt v).toNat
      { (runInf gen len v init n) with fp := (runInf gen len v init n).fp + (v - (pyInt v : ℚ)) }
    exact ⟨new, by rw [a, c]; push_cast; ring, by rw [d]⟩

example : (List.range 6).map (fun n => ((runInf (fun k _ => [(k : ℚ)]) 4 (3 / 4) [[-1], [-2], [-3], [-4]] n).drawn,
    (runInf (fun k _ => [(k : ℚ)]) 4 (3 / 4) [[-1], [-2], [-3], [-4]] n).fp)) =
    [(0, 0), (0, 3 / 4), (1, 1 / 2), (2, 1 / 4), (3, 0), (3, 3 / 4)] ∧
  (runInf (fun k _ => [(k : ℚ)]) 4 (3 / 4) [[-1], [-2], [-3], [-4]] 4).scr = [[2], [1], [0], [-1]] := by decide +kernel

/-- The hypothesis `v ≥ 0` is needed: with a negative wind speed no row is ever added; the offset runs away instead (and the coordinates beyond the edge are clamped). -/
theorem C26_negative_wind (gen : ℕ → List (List ℚ) → List ℚ) (len : ℕ) (v : ℚ) (hv : v < 0) (init : List (List ℚ)) (n : ℕ) :
    (runInf gen len v init n).drawn = 0 := by
  have inv : (runInf gen len v init n).drawn = 0 ∧ (runInf gen len v init n).fp ≤ 0 := by
    induction n with
    | zero => simp [runInf]
    | succ n ih =>
      obtain ⟨h1, h2⟩ := ih
      have hk : pyInt v = ⌈v⌉ := by unfold pyInt; rw [if_neg (by linarith)]
      have c1 := Int.le_ceil v
      have hk0 : ⌈v⌉ ≤ 0 := by
        apply Int.ceil_le.mpr; simpa using hv.le
      have hc : ¬ 1 ≤ (runInf gen len v init n).fp + (v - (⌈v⌉ : ℚ)) := by push Not; linarith
      simp only [runInf, moveInf, hk, hc, if_false]
      obtain ⟨a, b, _⟩ := addRows_spec gen ⌈v⌉.toNat
        { (runInf gen len v init n) with fp := (runInf gen len v init n).fp + (v - (⌈v⌉ : ℚ)) }
      rw [a, b]
      dsimp only
      exact ⟨by omega, by linarith⟩
  exact inv.1

/-- The output coordinates run from 1 to `nx` on an axis of `nx` samples: the last two columns handed out are always identical, whatever the screen. -/
theorem C26_last_columns_equal (a : Arr2) (fp : ℚ) (i : ℕ) (hc : 2 ≤ a.cols) : outInf a fp i (a.cols - 2) = outInf a fp i (a.cols - 1) := by
  have h1 : ((a.cols - 2 : ℕ) : ℚ) + 1 = a.cols - 1 := by rw [Nat.cast_sub hc]; push_cast; ring
  have h2 : ((a.cols - 1 : ℕ) : ℚ) + 1 = a.cols := by rw [Nat.cast_sub (by omega)]; push_cast; ring
  unfold outInf interpVal clampHi
  rw [h1, h2]
  simp

/-- **C29 (rotation).** Rotating a square screen at least twice as large as the output, by any angle, never reads outside it or near its edge: each output pixel is the interpolated value at the point at the same distance from the centre. -/
theorem C29_rotate (n m : ℕ) (f : ℕ → ℕ → ℚ) (c s : ℚ) (hcs : c ^ 2 + s ^ 2 = 1) (hm : 2 * m ≤ n) (i j : ℕ) (hi : i < m) (hj : j < m) :
    ∃ x y : ℚ, (0 ≤ x ∧ x < n - 1) ∧ (0 ≤ y ∧ y < n - 1) ∧
      (x - (n - 1) / 2) ^ 2 + (y - (n - 1) / 2) ^ 2 = ((i : ℚ) - (m - 1) / 2) ^ 2 + ((j : ℚ) - (m - 1) / 2) ^ 2 ∧
      rotateVal ⟨n, n, f⟩ m m c s i j = interpVal false ⟨n, n, f⟩ x y := by
  have hi' : (i : ℚ) + 1 ≤ m := by exact_mod_cast hi
  have hj' : (j : ℚ) + 1 ≤ m := by exact_mod_cast hj
  have i0 : (0 : ℚ) ≤ i := by positivity
  have j0 : (0 : ℚ) ≤ j := by positivity
  have hn : 2 * (m : ℚ) ≤ n := by exact_mod_cast hm
  have hsq : ∀ a b : ℚ, |a| ≤ (m - 1) / 2 → |b| ≤ (m - 1) / 2 → |a * c - b * s| < (n - 1) / 2 ∧ |a * s + b * c| < (n - 1) / 2 := by
    intro a b ha hb
    have m1 : (1 : ℚ) ≤ m := by linarith
    have a2 : a ^ 2 ≤ ((m - 1) / 2) ^ 2 := by rw [← sq_abs]; exact pow_le_pow_left₀ (abs_nonneg _) ha 2
    have b2 : b ^ 2 ≤ ((m - 1) / 2) ^ 2 := by rw [← sq_abs]; exact pow_le_pow_left₀ (abs_nonneg _) hb 2
    have tot : (a * c - b * s) ^ 2 + (a * s + b * c) ^ 2 = a ^ 2 + b ^ 2 := by
      linear_combination (a ^ 2 + b ^ 2) * hcs
    have big : 2 * (((m : ℚ) - 1) / 2) ^ 2 < ((n - 1) / 2) ^ 2 := by nlinarith
    constructor
    · apply abs_lt_of_sq_lt_sq _ (by linarith)
      nlinarith [sq_nonneg (a * s + b * c)]
    · apply abs_lt_of_sq_lt_sq _ (by linarith)
      nlinarith [sq_nonneg (a * c - b * s)]
  have ha : |(i : ℚ) - ((m : ℚ) / 2 - 1 / 2)| ≤ (m - 1) / 2 := by rw [abs_le]; constructor <;> linarith
  have hb : |(j : ℚ) - ((m : ℚ) / 2 - 1 / 2)| ≤ (m - 1) / 2 := by rw [abs_le]; constructor <;> linarith
  obtain ⟨k1, k2⟩ := hsq _ _ ha hb
  rw [abs_lt] at k1 k2
  refine ⟨((i : ℚ) - ((m : ℚ) / 2 - 1 / 2)) * c - ((j : ℚ) - ((m : ℚ) / 2 - 1 / 2)) * s + ((n : ℚ) / 2 - 1 / 2),
    ((i : ℚ) - ((m : ℚ) / 2 - 1 / 2)) * s + ((j : ℚ) - ((m : ℚ) / 2 - 1 / 2)) * c + ((n : ℚ) / 2 - 1 / 2),
    ⟨by linarith, by linarith⟩, ⟨by linarith, by linarith⟩, ?_, ?_⟩
  · linear_combination (((i : ℚ) - ((m : ℚ) / 2 - 1 / 2)) ^ 2 + ((j : ℚ) - ((m : ℚ) / 2 - 1 / 2)) ^ 2) * hcs
  · unfold rotateVal interpVal
    simp only [Bool.false_eq_true, if_false]
    rw [if_neg (by linarith), if_neg (by linarith)]

example : rotateVal ⟨6, 6, fun i j => 10 * i + j⟩ 3 3 (3 / 5) (4 / 5) 0 0 = interpVal false ⟨6, 6, fun i j => 10 * i + j⟩ (27 / 10) (11 / 10) := by
  decide +kernel

/-- **C26 (diagonal wind).** The size chosen for screens that have to be rotated is large enough for `C29_rotate`. -/
theorem C26_rotation_size (nx : ℕ) (d : ℚ) (hd : ¬ (d = 0 ∨ d = 90 ∨ d = 180 ∨ d = 270)) :
    2 * (infSizes nx d).2 ≤ (infSizes nx d).1 ∧ 8 * nx ^ 2 ≤ (infSizes nx d).1 ^ 2 := by
  unfold infSizes
  rw [if_neg hd]
  dsimp only
  have h8 : 8 * nx ^ 2 ≤ (if Nat.sqrt (8 * nx ^ 2) ^ 2 = 8 * nx ^ 2 then Nat.sqrt (8 * nx ^ 2) else Nat.sqrt (8 * nx ^ 2) + 1) ^ 2 := by
    split_ifs with h
    · omega
    · exact (Nat.lt_succ_sqrt' _).le
  refine ⟨?_, h8⟩
  by_contra hc
  push Not at hc
  have := Nat.pow_lt_pow_left hc (show 2 ≠ 0 by omega)
  nlinarith

end Soapy.Props
