/-
Property theorems C161–C163: the old line of sight (`lineofsight_legacy.py`).
-/
import Verif.Model.Legacy
import Verif.Props.Los

namespace Soapy.Props

open Soapy.Mirror Soapy.Interp Soapy.Los Soapy.Legacy

/-! ### C161: what is read of a screen -/

/-- Sample `j` of `n` on a screen of `S` pixels: the centre of the screen, moved by `g` pixels, and equal steps over `w` pixels from edge to edge. -/
def sampleAt (S n : ℕ) (g w : ℚ) (j : ℕ) : ℚ := ((S : ℚ) - 1) / 2 + g + (j - ((n : ℚ) - 1) / 2) * ((w - 1) / ((n : ℚ) - 1))

/-- The part of the cone of light that is left at altitude `h`. -/
def coneLeft (H h : ℚ) : ℚ := if H = 0 then 1 else 1 - h / H

theorem legacy_cell (n : ℕ) (x : ℚ) (i : ℕ) (hi : i + 1 < n) (h1 : (i : ℚ) ≤ x) (h2 : x < i + 1) : Legacy.cell n x = (i, x - i) := by
  have hn : ((i + 1 : ℕ) : ℚ) + 1 ≤ n := by exact_mod_cast hi
  push_cast at hn
  have i0 : (0 : ℚ) ≤ i := by positivity
  have e : clip 0 ((n : ℚ) - 1) x = x := by
    unfold clip
    rw [max_eq_left (by linarith), min_eq_left (by linarith)]
  unfold Legacy.cell
  rw [e]
  have hf : ⌊x⌋.toNat = i := by
    have : ⌊x⌋ = (i : ℤ) := Int.floor_eq_iff.mpr ⟨by exact_mod_cast h1, by exact_mod_cast h2⟩
    rw [this]; rfl
  dsimp only
  rw [hf, min_eq_left (by omega)]

theorem spline_bilin (a : Arr2) (x y : ℚ) (hx : 0 ≤ x ∧ x < a.cols - 1) (hy : 0 ≤ y ∧ y < a.rows - 1) :
    interpVal false a y x = .ok (spline a x y) := by
  obtain ⟨i, hi, hi1, hi2⟩ := cell_exists a.rows y hy.1 hy.2
  obtain ⟨j, hj, hj1, hj2⟩ := cell_exists a.cols x hx.1 hx.2
  have e : interpVal false a y x = bilinAt a y x := rfl
  rw [e, bilinAt_ok a y x i j ⟨hi1, hi2⟩ ⟨hj1, hj2⟩ hi hj]
  unfold spline
  rw [legacy_cell a.cols x j hj hj1 hj2, legacy_cell a.rows y i hi hi1 hi2]
  simp only [Except.ok.injEq]
  ring

theorem axis_samples (c : Legacy.Cfg) (S : ℕ) (g w : ℚ) (hn : 2 ≤ c.nOut) (hw : 1 ≤ w) (j : ℕ) (hj : j < c.nOut) :
    (axisCoords c ((S : ℚ) / 2 + g - w / 2) ((S : ℚ) / 2 + g + w / 2)).getD j 0 = sampleAt S c.nOut g w j := by
  unfold axisCoords
  rw [if_neg (by linarith)]
  unfold linspace
  have hn' : (2 : ℚ) ≤ c.nOut := by exact_mod_cast hn
  rw [List.getD_eq_getElem?_getD, List.getElem?_map, List.getElem?_range hj]
  simp only [Option.map_some, Option.getD_some]
  rw [if_neg (by omega)]
  unfold sampleAt
  have : (c.nOut : ℚ) - 1 ≠ 0 := by linarith
  field_simp
  ring

/-- **C161 (what is read).** If the footprint is at least a pixel wide and a phase is returned, it has the requested number of pixels, and every pixel is the linear spline of the screen at equally spaced points around the point the
star is seen through: `slope * h` metres from the centre, along the second axis for the first coordinate of the star and along the first axis for the second; all points are on the screen, so that nothing is made up beyond its border. -/
theorem C161_read (c : Legacy.Cfg) (scrn : Arr2) (h : ℚ) (radius : Option ℚ) (p : Arr2) (hn : 2 ≤ c.nOut) (hr : radius ≠ some 0)
    (w : ℚ) (hw : w = 2 * phaseCoord c * (radius.elim 1 fun r => 2 * r / c.pupil)) (h1 : 1 ≤ w)
    (hok : metaPhase c scrn h radius none none = .ok p) :
    p.rows = c.nOut ∧ p.cols = c.nOut ∧ scrn.rows = scrn.cols ∧
    (∀ j < c.nOut, 0 ≤ sampleAt scrn.cols c.nOut (c.slope.1 * h / c.scale) w j ∧ sampleAt scrn.cols c.nOut (c.slope.1 * h / c.scale) w j ≤ scrn.cols - 1) ∧
    (∀ i < c.nOut, 0 ≤ sampleAt scrn.rows c.nOut (c.slope.2 * h / c.scale) w i ∧ sampleAt scrn.rows c.nOut (c.slope.2 * h / c.scale) w i ≤ scrn.rows - 1) ∧
    ∀ i < c.nOut, ∀ j < c.nOut, p.px i j =
      spline scrn (sampleAt scrn.cols c.nOut (c.slope.1 * h / c.scale) w j) (sampleAt scrn.rows c.nOut (c.slope.2 * h / c.scale) w i) := by
  have hn' : (2 : ℚ) ≤ c.nOut := by exact_mod_cast hn
  unfold metaPhase at hok
  rw [if_neg hr] at hok
  simp only [metaPos] at hok
  have hP : (radius.elim 1 fun r => 2 * r / c.pupil) * (phaseCoord c : ℚ) = w / 2 := by rw [hw]; ring
  rw [hP] at hok
  by_cases hb : (scrn.rows : ℚ) / 2 + c.slope.1 * h / c.scale - w / 2 < 0 ∨ (scrn.rows : ℚ) < (scrn.rows : ℚ) / 2 + c.slope.1 * h / c.scale + w / 2 ∨
      (scrn.cols : ℚ) / 2 + c.slope.2 * h / c.scale - w / 2 < 0 ∨ (scrn.cols : ℚ) < (scrn.cols : ℚ) / 2 + c.slope.2 * h / c.scale + w / 2
  · rw [if_pos hb] at hok; cases hok
  · rw [if_neg hb] at hok
    by_cases hs : scrn.rows ≠ scrn.cols
    · rw [if_pos hs] at hok; cases hok
    · rw [if_neg hs] at hok
      have hs : scrn.rows = scrn.cols := not_not.mp hs
      push Not at hb
      obtain ⟨b1, b2, b3, b4⟩ := hb
      simp only [Except.ok.injEq] at hok
      subst hok
      have key : ∀ (S : ℕ) (g : ℚ), 0 ≤ (S : ℚ) / 2 + g - w / 2 → (S : ℚ) / 2 + g + w / 2 ≤ S → ∀ j < c.nOut,
          0 ≤ sampleAt S c.nOut g w j ∧ sampleAt S c.nOut g w j ≤ S - 1 := by
        intro S g l u j hj
        have hj' : (j : ℚ) + 1 ≤ c.nOut := by exact_mod_cast hj
        have j0 : (0 : ℚ) ≤ j := by positivity
        have d : (0 : ℚ) < (c.nOut : ℚ) - 1 := by linarith
        have e : sampleAt S c.nOut g w j = ((S : ℚ) / 2 + g - w / 2) + j / ((c.nOut : ℚ) - 1) * (w - 1) := by
          unfold sampleAt; field_simp; ring
        have t0 : 0 ≤ (j : ℚ) / ((c.nOut : ℚ) - 1) := by positivity
        have t1 : (j : ℚ) / ((c.nOut : ℚ) - 1) ≤ 1 := by rw [div_le_one d]; linarith
        rw [e]
        constructor
        · nlinarith
        · nlinarith
      refine ⟨rfl, rfl, hs, ?_, ?_, ?_⟩
      · rw [hs] at b1 b2
        exact key _ _ b1 b2
      · rw [← hs] at b3 b4
        exact key _ _ b3 b4
      · intro i hi j hj
        dsimp only
        rw [axis_samples c _ _ w hn h1 j hj, axis_samples c _ _ w hn h1 i hi, hs]

/-- **C161 (the current line of sight).** Where nothing is clipped, the old line of sight reads from a layer exactly what the current one reads (downwards) for the star with the two coordinates of its position exchanged: any star, height, layer below the
star, scale and number of pixels that covers an even number of pixels of the screen. -/
theorem C161_current (c : Legacy.Cfg) (scrn : Arr2) (h : ℚ) (p : Arr2) (hn : 2 ≤ c.nOut) (hsc : 0 < c.scale) (hpup : c.diam / c.scale = c.pupil) (hpup0 : c.pupil ≠ 0)
    (P : ℕ) (hP : c.outScale * c.nOut / 2 / c.scale = P) (hb : c.height = 0 ∨ h < c.height)
    (hwide : 1 ≤ 2 * P * coneLeft c.height h)
    (hx : (scrn.cols : ℚ) / 2 + c.slope.1 * h / c.scale + P * coneLeft c.height h ≤ scrn.cols - 1 / 1000000000)
    (hy : (scrn.rows : ℚ) / 2 + c.slope.2 * h / c.scale + P * coneLeft c.height h ≤ scrn.rows - 1 / 1000000000)
    (hok : metaPhase c scrn h (if c.height = 0 then none else some (metaSize c h c.height / c.scale)) none none = .ok p) :
    ∃ q, sampled scrn (metapupilCoords ⟨false, (c.slope.2, c.slope.1), (0, 0), c.height, c.outScale * c.nOut, c.scale, scrn.rows, c.nOut⟩ h) = .ok q ∧
      q.rows = p.rows ∧ q.cols = p.cols ∧ ∀ i < c.nOut, ∀ j < c.nOut, p.px i j = q.px i j := by
  have hn' : (2 : ℚ) ≤ c.nOut := by exact_mod_cast hn
  have hpup' : (c.pupil : ℚ) ≠ 0 := by exact_mod_cast hpup0
  have hcoord : phaseCoord c = (P : ℤ) := by
    unfold phaseCoord
    rw [hP]
    unfold pyRound
    simp
  have hdiam : c.diam = c.pupil * c.scale := by rw [← hpup]; field_simp
  set w := 2 * (P : ℚ) * coneLeft c.height h with hwdef
  have hfact : w = 2 * phaseCoord c * ((if c.height = 0 then none else some (metaSize c h c.height / c.scale)).elim 1 fun r => 2 * r / c.pupil) := by
    rw [hcoord, hwdef]
    by_cases h0 : c.height = 0
    · simp [h0, coneLeft]
    · have hlt : ¬ c.height ≤ h := by
        rcases hb with hb | hb
        · exact absurd hb h0
        · exact not_le.mpr hb
      rw [if_neg h0]
      simp only [metaSize, coneLeft, if_neg h0, if_neg hlt, Int.cast_natCast]
      rw [hdiam]
      simp only [Option.elim_some]
      field_simp
  have hr0 : (if c.height = 0 then none else some (metaSize c h c.height / c.scale)) ≠ some 0 := by
    intro hc
    have : w = 0 := by rw [hfact, hc]; simp
    linarith
  obtain ⟨r1, r2, hsq, hX, hY, hpx⟩ := C161_read c scrn h _ p hn hr0 w hfact hwide hok
  have edge : ∀ (sl : ℚ), edges ⟨false, (c.slope.2, c.slope.1), (0, 0), c.height, c.outScale * c.nOut, c.scale, scrn.rows, c.nOut⟩ sl 0 h =
      ((scrn.rows : ℚ) / 2 + sl * h / c.scale - w / 2, (scrn.rows : ℚ) / 2 + sl * h / c.scale + w / 2) := by
    intro sl
    have hs : c.outScale * c.nOut = 2 * P * c.scale := by rw [← hP]; field_simp
    unfold edges footprint
    dsimp only
    rw [hs, hwdef]
    unfold coneLeft
    by_cases h0 : c.height = 0
    · simp only [h0]
      ext
      · simp; field_simp; ring
      · simp; field_simp; ring
    · simp only [if_neg h0, if_pos h0]
      ext
      · simp; field_simp; ring
      · simp; field_simp; ring
  have lin : ∀ (g : ℚ) (l : List ℚ) (_ : l = (linspace ((scrn.rows : ℚ) / 2 + g - w / 2) ((scrn.rows : ℚ) / 2 + g + w / 2 - 1) c.nOut).map (clip 0 ((scrn.rows : ℚ) - 1000000001 / 1000000000)))
      (_ : (scrn.rows : ℚ) / 2 + g + w / 2 ≤ scrn.rows - 1 / 1000000000)
      (_ : ∀ j < c.nOut, 0 ≤ sampleAt scrn.rows c.nOut g w j),
      (∀ j < c.nOut, l[j]? = some (sampleAt scrn.rows c.nOut g w j)) ∧ l.length = c.nOut ∧ ∀ j < c.nOut, sampleAt scrn.rows c.nOut g w j < scrn.rows - 1 := by
    intro g l hl hu h0
    have up : ∀ j < c.nOut, sampleAt scrn.rows c.nOut g w j ≤ scrn.rows - 1000000001 / 1000000000 := by
      intro j hj
      have hj' : (j : ℚ) + 1 ≤ c.nOut := by exact_mod_cast hj
      have j0 : (0 : ℚ) ≤ j := by positivity
      have d : (0 : ℚ) < (c.nOut : ℚ) - 1 := by linarith
      have e : sampleAt scrn.rows c.nOut g w j = ((scrn.rows : ℚ) / 2 + g - w / 2) + j / ((c.nOut : ℚ) - 1) * (w - 1) := by
        unfold sampleAt; field_simp; ring
      have t1 : (j : ℚ) / ((c.nOut : ℚ) - 1) ≤ 1 := by rw [div_le_one d]; linarith
      rw [e]
      nlinarith
    refine ⟨?_, by rw [hl]; simp [linspace], fun j hj => by have := up j hj; linarith⟩
    intro j hj
    rw [hl, List.getElem?_map]
    unfold linspace
    rw [List.getElem?_map, List.getElem?_range hj]
    simp only [Option.map_some, Option.some.injEq]
    rw [if_neg (by omega)]
    have e : (scrn.rows : ℚ) / 2 + g - w / 2 + j * (((scrn.rows : ℚ) / 2 + g + w / 2 - 1 - ((scrn.rows : ℚ) / 2 + g - w / 2)) / ((c.nOut : ℚ) - 1)) = sampleAt scrn.rows c.nOut g w j := by
      have : (c.nOut : ℚ) - 1 ≠ 0 := by linarith
      unfold sampleAt; field_simp; ring
    rw [e]
    unfold clip
    rw [max_eq_left (h0 j hj), min_eq_left (up j hj)]
  have hm : metapupilCoords ⟨false, (c.slope.2, c.slope.1), (0, 0), c.height, c.outScale * c.nOut, c.scale, scrn.rows, c.nOut⟩ h =
      ((linspace ((scrn.rows : ℚ) / 2 + c.slope.2 * h / c.scale - w / 2) ((scrn.rows : ℚ) / 2 + c.slope.2 * h / c.scale + w / 2 - 1) c.nOut).map (clip 0 ((scrn.rows : ℚ) - 1000000001 / 1000000000)),
       (linspace ((scrn.rows : ℚ) / 2 + c.slope.1 * h / c.scale - w / 2) ((scrn.rows : ℚ) / 2 + c.slope.1 * h / c.scale + w / 2 - 1) c.nOut).map (clip 0 ((scrn.rows : ℚ) - 1000000001 / 1000000000))) := by
    unfold metapupilCoords altitudeCoords
    dsimp only
    rw [edge, edge]
  rw [← hsq] at hX hx hpx
  obtain ⟨y1, y2, y3⟩ := lin (c.slope.2 * h / c.scale) _ rfl (by rw [hwdef]; linarith) (fun j hj => (hY j hj).1)
  obtain ⟨x1, x2, x3⟩ := lin (c.slope.1 * h / c.scale) _ rfl (by rw [hwdef]; linarith) (fun j hj => (hX j hj).1)
  rw [hm]
  have mem : ∀ (l : List ℚ) (f : ℕ → ℚ), (∀ j < c.nOut, l[j]? = some (f j)) → l.length = c.nOut → ∀ x ∈ l, ∃ j < c.nOut, x = f j := by
    intro l f h1 h2 x hx
    obtain ⟨j, hj, e⟩ := List.mem_iff_getElem.mp hx
    refine ⟨j, by omega, ?_⟩
    have := h1 j (by omega)
    rw [List.getElem?_eq_getElem hj] at this
    rw [← e]
    exact Option.some.inj this
  obtain ⟨q, hq⟩ := sampled_ok scrn (_, _)
    (by
      intro x hx
      obtain ⟨j, hj, rfl⟩ := mem _ _ y1 y2 x hx
      exact ⟨(hY j hj).1, y3 j hj⟩)
    (by
      intro x hx
      obtain ⟨j, hj, rfl⟩ := mem _ _ x1 x2 x hx
      rw [← hsq]
      exact ⟨(hX j hj).1, x3 j hj⟩)
  obtain ⟨q1, q2, q3⟩ := sampled_px scrn _ q hq
  refine ⟨q, hq, by rw [q1, r1]; exact y2, by rw [q2, r2]; exact x2, ?_⟩
  intro i hi j hj
  have := q3 i j _ _ (y1 i hi) (x1 j hj)
  rw [spline_bilin scrn _ _ (by rw [← hsq]; exact ⟨(hX j hj).1, x3 j hj⟩) ⟨(hY i hi).1, y3 i hi⟩] at this
  rw [hpx i hi j hj]
  exact Except.ok.inj this

theorem spline_px (a : Arr2) (i j : ℕ) (hr : 2 ≤ a.rows) (hc : 2 ≤ a.cols) (hi : i < a.rows) (hj : j < a.cols) : spline a j i = a.px i j := by
  have key : ∀ n k : ℕ, 2 ≤ n → k < n → ∃ m : ℕ, Legacy.cell n (k : ℚ) = (m, (k : ℚ) - m) ∧ ((m = k) ∨ (m + 1 = k)) := by
    intro n k hn hk
    have hn' : ((k + 1 : ℕ) : ℚ) ≤ n := by exact_mod_cast hk
    push_cast at hn'
    have e : clip 0 ((n : ℚ) - 1) (k : ℚ) = k := by
      unfold clip
      rw [max_eq_left (by positivity), min_eq_left (by linarith)]
    refine ⟨min k (n - 2), ?_, by omega⟩
    unfold Legacy.cell
    rw [e]
    simp
  obtain ⟨m, e1, hm⟩ := key a.rows i hr hi
  obtain ⟨l, e2, hl⟩ := key a.cols j hc hj
  unfold spline
  rw [e1, e2]
  dsimp only
  rcases hm with rfl | rfl <;> rcases hl with rfl | rfl <;> push_cast <;> ring

/-- **C161 (a star on axis at infinity).** With the scale of the screens and an even number of pixels, the phase of a layer is the middle of its screen, pixel by pixel. -/
theorem C161_crop (c : Legacy.Cfg) (scrn : Arr2) (h : ℚ) (P m : ℕ) (hP : 1 ≤ P) (hn : c.nOut = 2 * P) (hsc : 0 < c.scale) (hout : c.outScale = c.scale) (hax : c.slope = (0, 0))
    (hr : scrn.rows = 2 * P + 2 * m) (hc : scrn.cols = 2 * P + 2 * m) :
    ∃ p, metaPhase c scrn h none none none = .ok p ∧ p.rows = c.nOut ∧ p.cols = c.nOut ∧ ∀ i < c.nOut, ∀ j < c.nOut, p.px i j = scrn.px (m + i) (m + j) := by
  have hP' : (1 : ℚ) ≤ P := by exact_mod_cast hP
  have m0 : (0 : ℚ) ≤ m := by positivity
  have hcoord : phaseCoord c = (P : ℤ) := by
    unfold phaseCoord
    have : c.outScale * c.nOut / 2 / c.scale = P := by rw [hout, hn]; push_cast; field_simp
    rw [this]
    unfold pyRound
    simp
  have hex : ∃ p, metaPhase c scrn h none none none = .ok p := by
    unfold metaPhase
    simp only [metaPos, hax, hcoord, hr, hc]
    rw [if_neg (by simp)]
    rw [if_neg]
    · rw [if_neg (by simp)]
      exact ⟨_, rfl⟩
    · push Not
      push_cast
      refine ⟨?_, ?_, ?_, ?_⟩ <;> simp <;> linarith
  obtain ⟨p, hp⟩ := hex
  obtain ⟨r1, r2, _, _, _, hpx⟩ := C161_read c scrn h none p (by omega) (by simp) (2 * P) (by rw [hcoord]; simp) (by linarith) hp
  refine ⟨p, hp, r1, r2, ?_⟩
  intro i hi j hj
  rw [hpx i hi j hj]
  have e : ∀ (S k : ℕ), S = 2 * P + 2 * m → sampleAt S c.nOut (0 * h / c.scale) (2 * P) k = ((m + k : ℕ) : ℚ) := by
    intro S k hS
    unfold sampleAt
    rw [hS, hn]
    have : (2 * (P : ℚ)) - 1 ≠ 0 := by linarith
    push_cast
    field_simp
    ring
  rw [hax]
  dsimp only
  rw [e _ _ hc, e _ _ hr, spline_px scrn (m + i) (m + j) (by omega) (by omega) (by omega) (by omega)]

/-- A direction given by hand (`apos`) is an error, or, if it is the axis, replaced by the position of the star. -/
theorem C161_apos (c : Legacy.Cfg) (scrn : Arr2) (h : ℚ) (radius : Option ℚ) (hr : radius ≠ some 0) (pos : Option (ℚ × ℚ)) (a b : ℚ) :
    metaPhase c scrn h radius (some (a, b)) pos = if a ≠ 0 ∨ b ≠ 0 then .error .unboundLocalError else metaPhase c scrn h radius none none := by
  by_cases hab : a ≠ 0 ∨ b ≠ 0
  · rw [if_pos hab]
    unfold metaPhase
    rw [if_neg hr]
    simp only [metaPos, if_pos hab]
  · rw [if_neg hab]
    unfold metaPhase
    rw [if_neg hr, if_neg hr]
    simp only [metaPos, if_neg hab]

/-- A line of sight for the examples: an 8-pixel pupil of 4 m. -/
def oldLos : Legacy.Cfg := ⟨false, (1 / 10, 0), 0, 4, 1 / 2, 1 / 2, 8, 8, 8, [0, 10], 3, none⟩

/-- A screen that is a ramp along the second axis. -/
def rampScreen (S : ℕ) : Arr2 := ⟨S, S, fun _ j => j⟩

/-- **C161 (violated).** An odd number of pixels is not cut out of the screen but stretched or squeezed over an even one (five pixels see three steps of a ramp instead of four); through a footprint of a fifth of a pixel, four fifths of a step are seen; and a
direction given by hand is an error. -/
theorem C161_violated :
    (metaPhase { oldLos with nOut := 5, slope := (0, 0) } (rampScreen 5) 0 none none none).map (fun p => p.px 0 4 - p.px 0 0) = .ok 3 ∧
    (metaPhase { oldLos with slope := (0, 0), height := 20 } (rampScreen 8) (39 / 2) (some (1 / 10)) none none).map (fun p => p.px 0 7 - p.px 0 0) = .ok (4 / 5) ∧
    metaPhase oldLos (rampScreen 8) 0 none (some (1, 0)) none = .error .unboundLocalError := by
  refine ⟨?_, ?_, ?_⟩
  · decide +kernel
  · decide +kernel
  · rfl

/-- The hypotheses of `C161_current` are met by a star 1/10 off axis at height 40, with a layer at 10 on a screen of 16 pixels. -/
example : (metaPhase { oldLos with height := 40 } (rampScreen 16) 10 (some (metaSize { oldLos with height := 40 } 10 40 / (1 / 2))) none none).map (fun p => p.px 0 7 - p.px 0 0) = .ok 5 ∧
    (1 : ℚ) ≤ 2 * 4 * coneLeft 40 10 ∧ ((16 : ℕ) : ℚ) / 2 + 1 / 10 * 10 / (1 / 2) + 4 * coneLeft 40 10 ≤ 16 - 1 / 1000000000 := by
  refine ⟨by decide +kernel, ?_, ?_⟩
  · norm_num [coneLeft]
  · norm_num [coneLeft]

/-! ### C162: turbulence and correction -/

theorem operand_same (n : ℕ) (p : Arr2) (h1 : p.rows = n) (h2 : p.cols = n) : operand n p = .ok p.px := by
  unfold operand
  rw [if_pos ⟨h1, h2⟩]

theorem addLayers_sum (c : Legacy.Cfg) (L : ℕ → Arr2) (scrns : List Arr2) : ∀ (i : ℕ) (acc : ℕ → ℕ → ℚ),
    (∀ l s, scrns[l]? = some s → layerPhase c (i + l) s = .ok (L (i + l)) ∧ (L (i + l)).rows = c.nOut ∧ (L (i + l)).cols = c.nOut) →
    ∃ r, addLayers c i scrns acc = .ok r ∧ ∀ a b, r a b = acc a b + ((List.range scrns.length).map fun l => (L (i + l)).px a b).sum := by
  induction scrns with
  | nil => intro i acc _; exact ⟨acc, rfl, fun a b => by simp⟩
  | cons s ss ih =>
    intro i acc h
    obtain ⟨h1, h2, h3⟩ := h 0 s rfl
    rw [Nat.add_zero] at h1 h2 h3
    obtain ⟨r, hr, hv⟩ := ih (i + 1) (fun a b => acc a b + (L i).px a b) (by
      intro l s' hl
      have := h (l + 1) s' (by simpa using hl)
      rwa [show i + (l + 1) = i + 1 + l by ring] at this)
    refine ⟨r, ?_, ?_⟩
    · rw [addLayers, h1]
      dsimp only
      rw [operand_same _ _ h2 h3]
      exact hr
    · intro a b
      rw [hv]
      have : ((List.range (s :: ss).length).map fun l => (L (i + l)).px a b).sum = (L i).px a b + ((List.range ss.length).map fun l => (L (i + 1 + l)).px a b).sum := by
        rw [List.length_cons, List.range_succ_eq_map, List.map_cons, List.sum_cons, List.map_map]
        congr 2
        apply List.map_congr_left
        intro l _
        simp only [Function.comp]
        rw [show i + (l + 1) = i + 1 + l by ring]
      rw [this]
      ring

/-- `f` is what the line of sight sees of a correction. -/
def SeenOf (c : Legacy.Cfg) (x : Option ℚ × Arr2) (f : ℕ → ℕ → ℚ) : Prop :=
  ∃ p, metaPhase c x.2 (x.1.getD 0) (some (metaSize c (x.1.getD 0) c.height / c.scale)) none none = .ok p ∧ p.rows = c.nOut ∧ p.cols = c.nOut ∧ p.px = f

theorem correct_sum (c : Legacy.Cfg) (hk : c.k ≠ 0) : ∀ (cs : List (Option ℚ × Arr2)) (fs : List (ℕ → ℕ → ℚ)), List.Forall₂ (SeenOf c) cs fs → ∀ s : Legacy.State,
    ∃ s', correct c cs s = .ok s' ∧ (∀ a b, s'.phase a b = s.phase a b - c.k * (fs.map fun f => f a b).sum) ∧
      (∀ a b, s'.efield a b = s.efield a b - c.k * (fs.map fun f => f a b).sum) ∧
      (∀ a b, s'.residual a b = if cs = [] then s.residual a b else s'.phase a b / c.k) := by
  intro cs fs h
  induction h with
  | nil => intro s; exact ⟨s, rfl, fun a b => by simp, fun a b => by simp, fun a b => by simp⟩
  | cons hx hr ih =>
    rename_i x f xs gs
    intro s
    obtain ⟨alt, arr⟩ := x
    obtain ⟨p, h1, h2, h3, h4⟩ := hx
    obtain ⟨s', e, p1, p2, p3⟩ := ih ⟨fun i j => (s.phase i j / c.k - p.px i j) * c.k, fun i j => s.efield i j - p.px i j * c.k, fun i j => s.phase i j / c.k - p.px i j⟩
    refine ⟨s', ?_, ?_, ?_, ?_⟩
    · rw [correct]
      dsimp only at h1
      rw [h1]
      dsimp only
      rw [operand_same _ _ h2 h3]
      exact e
    · intro a b
      rw [p1]
      simp only [List.map_cons, List.sum_cons, ← h4]
      field_simp
      ring
    · intro a b
      rw [p2]
      simp only [List.map_cons, List.sum_cons, ← h4]
      ring
    · intro a b
      rw [p3, if_neg (List.cons_ne_nil _ _)]
      by_cases hxs : xs = []
      · rw [if_pos hxs]
        subst hxs
        cases hr
        rw [p1]
        simp
        field_simp
      · rw [if_neg hxs]

/-- **C162 (a frame).** Whatever the line of sight did before: with `L` seen of the layers and `fs` of the corrections, phase and field after a frame are those of the turbulence (with the sign of the direction) less the corrections, in radians. The result of `frame` is
that phase in radians if nothing was corrected and in nanometres if something was. -/
theorem C162_frame (c : Legacy.Cfg) (hk : c.k ≠ 0) (s : Legacy.State) (scrns : List Arr2) (cs : List (Option ℚ × Arr2)) (L : ℕ → Arr2) (fs : List (ℕ → ℕ → ℚ))
    (hL : ∀ l x, scrns[l]? = some x → layerPhase c l x = .ok (L l) ∧ (L l).rows = c.nOut ∧ (L l).cols = c.nOut) (hf : List.Forall₂ (SeenOf c) cs fs) :
    ∃ s', Legacy.frame c s (some scrns) (some cs) = .ok s' ∧
      (∀ a b, s'.phase a b = c.k * ((if c.up then -1 else 1) * ((List.range scrns.length).map fun l => (L l).px a b).sum - (fs.map fun f => f a b).sum)) ∧
      s'.efield = s'.phase ∧ (∀ a b, s'.residual a b = if cs = [] then s'.phase a b else s'.phase a b / c.k) := by
  obtain ⟨r, hr, hv⟩ := addLayers_sum c L scrns 0 (fun _ _ => 0) (by intro l x hx; rw [Nat.zero_add]; exact hL l x hx)
  simp only [zero_add] at hv
  set q : ℕ → ℕ → ℚ := fun a b => if c.up then r a b * c.k * -1 else r a b * c.k with hq
  obtain ⟨s', e, p1, p2, p3⟩ := correct_sum c hk cs fs hf ⟨q, q, q⟩
  refine ⟨s', ?_, ?_, ?_, ?_⟩
  · unfold Legacy.frame Legacy.zeroData geometric
    dsimp only
    rw [hr]
    exact e
  · intro a b
    rw [p1]
    simp only [hq, hv]
    split <;> ring
  · funext a b
    rw [p1, p2]
  · intro a b
    rw [p3]
    by_cases h : cs = []
    · rw [if_pos h, if_pos h, p1]
      subst h
      cases hf
      simp
    · rw [if_neg h, if_neg h]

theorem full_radius (c : Legacy.Cfg) (scrn : Arr2) (h r : ℚ) (hr : 2 * r / c.pupil = 1) :
    metaPhase c scrn h (some r) none none = metaPhase c scrn h none none none := by
  have hne : some r ≠ some 0 := by
    intro e
    rw [Option.some.inj e] at hr
    simp at hr
  unfold metaPhase
  rw [if_neg hne, if_neg (fun h => nomatch h)]
  simp only [Option.elim_some, Option.elim_none, hr]
  rfl

/-- **C162 (a mirror at its layer).** One layer below the star, `S` the surface of a mirror at the altitude of the layer, the pupil as large as the telescope: going down, the mirror with the shape of the layer leaves a flat wavefront, with and without cone effect. -/
theorem C162_conjugate (c : Legacy.Cfg) (hk : c.k ≠ 0) (s : Legacy.State) (h : ℚ) (scrn : Arr2) (hdown : c.up = false) (hpos : c.pos = none) (hh : c.heights = [h])
    (hpup : c.diam / c.scale = c.pupil) (hpup0 : c.pupil ≠ 0) (p : Arr2) (hp : layerPhase c 0 scrn = .ok p) (h1 : p.rows = c.nOut) (h2 : p.cols = c.nOut) :
    ∃ s', Legacy.frame c s (some [scrn]) (some [(some h, scrn)]) = .ok s' ∧ ∀ a b, s'.phase a b = 0 ∧ s'.efield a b = 0 ∧ s'.residual a b = 0 := by
  have hpup' : (c.pupil : ℚ) ≠ 0 := by exact_mod_cast hpup0
  have hseen : metaPhase c scrn h (some (metaSize c h c.height / c.scale)) none none = .ok p := by
    rw [← hp]
    unfold layerPhase radii
    rw [hpos, hh]
    by_cases h0 : c.height = 0
    · simp only [if_pos h0, List.getElem?_cons_zero]
      refine full_radius c scrn h _ ?_
      unfold metaSize
      rw [if_pos h0, show 2 * (c.diam / 2 / c.scale) = c.diam / c.scale by ring, hpup, div_self hpup']
    · simp only [if_neg h0, List.map_cons, List.getElem?_cons_zero]
  obtain ⟨s', e, e1, e2, e3⟩ := C162_frame c hk s [scrn] [(some h, scrn)] (fun _ => p) [p.px]
    (by
      intro l x hx
      rcases l with _ | l
      · simp only [List.getElem?_cons_zero, Option.some.injEq] at hx
        subst hx
        exact ⟨hp, h1, h2⟩
      · simp at hx)
    (.cons ⟨p, hseen, h1, h2, rfl⟩ .nil)
  have z : ∀ a b, s'.phase a b = 0 := by
    intro a b
    rw [e1, hdown]
    simp
  refine ⟨s', e, fun a b => ⟨z a b, by rw [e2]; exact z a b, ?_⟩⟩
  rw [e3, z]
  simp

/-- **C162 (violated).** A correction of zeros changes what `frame` returns (radians into nanometres); going up, the mirror with the shape of the layer doubles the turbulence; a layer above the star is an error if the number of pixels of the output is not that of the
simulation. -/
theorem C162_violated :
    (Legacy.frame oldLos ⟨fun _ _ => 0, fun _ _ => 0, fun _ _ => 0⟩ (some [rampScreen 8]) none).map (fun s => (s.phase 0 5, s.residual 0 5)) = .ok (15, 15) ∧
    (Legacy.frame oldLos ⟨fun _ _ => 0, fun _ _ => 0, fun _ _ => 0⟩ (some [rampScreen 8]) (some [(none, zero2 8)])).map (fun s => (s.phase 0 5, s.residual 0 5)) = .ok (15, 5) ∧
    (Legacy.frame { oldLos with up := true } ⟨fun _ _ => 0, fun _ _ => 0, fun _ _ => 0⟩ (some [rampScreen 8]) (some [(some 0, rampScreen 8)])).map (fun s => s.phase 0 5) = .ok (-30) ∧
    (Legacy.frame { oldLos with height := 5, nOut := 4, heights := [10] } ⟨fun _ _ => 0, fun _ _ => 0, fun _ _ => 0⟩ (some [rampScreen 8]) none).map (fun s => s.phase 0 0) = .error .valueError := by
  refine ⟨?_, ?_, ?_, ?_⟩ <;> decide +kernel

/-! ### C163: physical propagation -/

/-- The whole distance the light travels. -/
def travelled : List Act → ℚ
  | [] => 0
  | .propagate z :: r => z + travelled r
  | .screen _ :: r => travelled r

theorem trace_end (dir : ℚ) (acts : List Act) : ∀ h, (trace dir h acts).2 = h + dir * travelled acts := by
  induction acts with
  | nil => intro h; simp [trace, travelled]
  | cons a r ih =>
    intro h
    cases a with
    | propagate z => rw [trace, travelled, ih]; ring
    | screen i => rw [trace, travelled]; exact ih h

theorem legacy_down (n : ℕ) (alts : ℕ → ℚ) (hm : ∀ i, i + 1 < n → alts (i + 1) ≤ alts i) (ht hf : ℚ) : ∀ (m : ℕ) (z : ℚ), m + 1 ≤ n →
    travelled (Legacy.physLoop n alts ht hf (List.range m).reverse z) = alts 0 - alts m ∧
    ∀ g, ∀ x ∈ (trace (-1) g (Legacy.physLoop n alts ht hf (List.range m).reverse z)).1, x.2 ≤ g := by
  intro m
  induction m with
  | zero => intro z _; simp [Legacy.physLoop, travelled, trace]
  | succ m ih =>
    intro z hmn
    obtain ⟨i1, i2⟩ := ih (z + |alts (m + 1) - alts m|) (by omega)
    have ha : |alts (m + 1) - alts m| = alts m - alts (m + 1) := by
      rw [abs_of_nonpos (by linarith [hm m (by omega)])]; ring
    rw [List.range_succ, List.reverse_append, List.reverse_singleton, List.singleton_append, Legacy.physLoop]
    rw [if_neg (by omega)]
    constructor
    · rw [travelled, travelled, i1, ha]; ring
    · intro g x hx
      rw [trace, trace] at hx
      rcases List.mem_cons.mp hx with rfl | hx
      · exact le_refl _
      · have := i2 _ x hx
        rw [ha] at this
        linarith [hm m (by omega)]

/-- **C163 (violated, down).** With any ascending altitudes the light of the old line of sight travels the whole way to the ground right after the highest layer: every other screen is met at the ground or below, and the light travels twice the height of the
highest layer less that of the lowest. -/
theorem C163_down_violated (source : ℚ) (alts : List ℚ) (hne : alts ≠ []) (hasc : Ascending alts) (h0 : 0 ≤ alts.getD 0 0) :
    ∃ acts, Legacy.physical false source alts = .ok acts ∧
      travelled acts = 2 * alts.getD (alts.length - 1) 0 - alts.getD 0 0 ∧
      (trace (-1) (alts.getD (alts.length - 1) 0) acts).2 = alts.getD 0 0 - alts.getD (alts.length - 1) 0 ∧
      ∃ rest, (trace (-1) (alts.getD (alts.length - 1) 0) acts).1 = (alts.length - 1, alts.getD (alts.length - 1) 0) :: rest ∧ ∀ x ∈ rest, x.2 ≤ 0 := by
  have hlen : 0 < alts.length := List.length_pos_of_ne_nil hne
  obtain ⟨n, hn⟩ : ∃ n, alts.length = n + 1 := ⟨alts.length - 1, by omega⟩
  have mono : ∀ i j, i ≤ j → j < alts.length → alts.getD i 0 ≤ alts.getD j 0 := by
    intro i j hij
    induction j, hij using Nat.le_induction with
    | base => intro _; exact le_refl _
    | succ j hj ih => intro hl; exact (ih (by omega)).trans (hasc j hl)
  have htop : 0 ≤ alts.getD n 0 := h0.trans (mono 0 n (by omega) (by omega))
  obtain ⟨t, b⟩ := legacy_down (n + 1) (fun i => alts.getD (n - i) 0) (by
    intro i hi
    exact mono _ _ (by omega) (by omega)) (alts.getD n 0) 0 n (0 + (|0 - alts.getD n 0| - 0)) (by omega)
  unfold Legacy.physical
  simp only [hn, Nat.add_sub_cancel]
  rw [if_neg (by omega), if_neg (by simp)]
  have ha : |0 - alts.getD n 0| - 0 = alts.getD n 0 := by
    rw [zero_sub, abs_neg, abs_of_nonneg htop, sub_zero]
  refine ⟨_, rfl, ?_, ?_, ?_⟩
  · simp only [Nat.sub_zero, ne_eq, not_true_eq_false, if_false, Bool.false_eq_true, List.nil_append]
    rw [List.range_succ, List.reverse_append, List.reverse_singleton, List.singleton_append, Legacy.physLoop]
    rw [if_pos rfl, travelled, travelled, t, ha]
    simp
    ring
  · rw [trace_end]
    simp only [Nat.sub_zero, ne_eq, not_true_eq_false, if_false, Bool.false_eq_true, List.nil_append]
    rw [List.range_succ, List.reverse_append, List.reverse_singleton, List.singleton_append, Legacy.physLoop]
    rw [if_pos rfl, travelled, travelled, t, ha]
    simp
  · simp only [Nat.sub_zero, ne_eq, not_true_eq_false, if_false, Bool.false_eq_true, List.nil_append]
    rw [List.range_succ, List.reverse_append, List.reverse_singleton, List.singleton_append, Legacy.physLoop]
    rw [if_pos rfl, trace, trace]
    refine ⟨_, rfl, ?_⟩
    intro x hx
    have := b _ x hx
    rw [ha] at this
    linarith

theorem legacy_up (n : ℕ) (alts : ℕ → ℚ) (hm : ∀ i, i + 1 < n → alts i ≤ alts (i + 1)) (hf : ℚ) : ∀ (m i : ℕ) (z : ℚ), i + m = n → 1 ≤ m → z = alts i - alts 0 →
    trace 1 (alts i) (Legacy.physLoop n alts 0 hf (List.range' i m) z) = ((List.range' i m).map fun k => (k, alts k), |hf - 0| + alts 0) := by
  intro m
  induction m with
  | zero => intro i z _ h; omega
  | succ m ih =>
    intro i z him _ hz
    rw [List.range'_succ, Legacy.physLoop]
    rw [trace, trace]
    rcases Nat.eq_zero_or_pos m with h0 | h0
    · subst h0
      rw [if_pos him]
      simp only [List.range'_zero, Legacy.physLoop, trace, List.map_cons, List.map_nil, hz]
      congr 1
      ring
    · rw [if_neg (by omega), abs_of_nonneg (by linarith [hm i (by omega)])]
      rw [show alts i + 1 * (alts (i + 1) - alts i) = alts (i + 1) by ring]
      rw [ih (i + 1) _ (by omega) (by omega) (by rw [hz]; ring)]
      rfl

/-- **C163 (up).** Going up, every layer is met at its own altitude, from the lowest to the highest, and the light ends at the height of the star plus that of the lowest layer: right for a lowest layer at the ground, too high otherwise. -/
theorem C163_up (source : ℚ) (alts : List ℚ) (hne : alts ≠ []) (hasc : Ascending alts) (h0 : 0 ≤ alts.getD 0 0) (hs : 0 < source) :
    ∃ acts, Legacy.physical true source alts = .ok acts ∧
      trace 1 0 acts = ((List.range alts.length).map fun k => (k, alts.getD k 0), source + alts.getD 0 0) := by
  have hlen : 0 < alts.length := List.length_pos_of_ne_nil hne
  have hP := legacy_up alts.length (fun i => alts.getD i 0) (fun i hi => hasc i hi) source alts.length 0 0 (by omega) hlen (by ring)
  unfold Legacy.physical
  simp only
  rw [if_neg (by omega), if_neg (by simp; exact ne_of_gt hs)]
  refine ⟨_, rfl, ?_⟩
  simp only [if_true]
  rw [List.range_eq_range']
  rw [sub_zero, abs_of_pos hs] at hP
  by_cases hz : (0 : ℚ) = alts.getD 0 0
  · rw [if_neg (by simpa using hz), List.nil_append]
    rw [← hz] at hP ⊢
    exact hP
  · rw [if_pos hz, List.singleton_append, trace, sub_zero, abs_of_nonneg h0]
    rw [show (0 : ℚ) + 1 * alts.getD 0 0 = alts.getD 0 0 by ring]
    exact hP

/-- **C163 (partial).** What is right: going down through a single layer, the light meets it at its altitude and ends at the ground; going up through layers of which the lowest is at the ground it ends at the star.  Missing: more layers downwards (`C163_down_violated`). -/
theorem C163_partial (source h : ℚ) (hh : 0 ≤ h) (alts : List ℚ) (hne : alts ≠ []) (hasc : Ascending alts) (h0 : alts.getD 0 0 = 0) (hs : 0 < source) :
    (∃ acts, Legacy.physical false source [h] = .ok acts ∧ trace (-1) h acts = ([(0, h)], 0)) ∧
    (∃ acts, Legacy.physical true source alts = .ok acts ∧ trace 1 0 acts = ((List.range alts.length).map fun k => (k, alts.getD k 0), source)) := by
  constructor
  · refine ⟨_, rfl, ?_⟩
    simp [Legacy.physLoop, trace, abs_of_nonneg hh]
  · obtain ⟨acts, e, t⟩ := C163_up source alts hne hasc (le_of_eq h0.symm) hs
    exact ⟨acts, e, by rw [t, h0, add_zero]⟩

/-- **C163 (violated).** Three layers: the light ends 10 km under the ground and meets the lower layers at and under the ground; and going up, the phase of a screen has the wrong sign beside that of geometric propagation. -/
theorem C163_violated :
    (∃ acts, Legacy.physical false 0 [0, 4000, 10000] = .ok acts ∧ trace (-1) 10000 acts = ([(2, 10000), (1, 0), (0, -4000)], -10000)) ∧
    (Legacy.frame { oldLos with up := true } ⟨fun _ _ => 0, fun _ _ => 0, fun _ _ => 0⟩ (some [rampScreen 8]) none).map (fun s => s.efield 0 5) = .ok (-15) ∧
    physArg true oldLos.k ((rampScreen 8).px 0 5) = 15 := by
  refine ⟨⟨_, rfl, by decide +kernel⟩, by decide +kernel, by decide +kernel⟩

example : Ascending [0, 4000, 10000] ∧ (0 : ℚ) ≤ [0, 4000, 10000].getD 0 0 := by
  refine ⟨?_, by norm_num⟩
  intro i hi
  simp at hi
  rcases i with _ | _ | i
  · norm_num
  · norm_num
  · omega

end Soapy.Props
