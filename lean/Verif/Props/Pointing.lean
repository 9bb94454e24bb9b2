/-
Property theorems C114: a guide star can be moved while the simulation runs.
-/
import Verif.Model.Pointing
import Verif.Props.Los
import Verif.Props.Interp

namespace Soapy.Props

open Soapy.Mirror Soapy.Los Soapy.Interp Soapy.Pointing

/-- Assignments to the position, the height or the wavelength; not a recalculation. -/
def Assigns : Op → Prop
  | .position _ | .height _ | .gsPosition _ | .wavelength _ => True
  | _ => False

/-- Not an initialisation. -/
def NoInit : Op → Prop
  | .reinit => False
  | _ => True

/-- The last value assigned to `los.position`, or the one before. -/
def lastPosition (p : ℚ × ℚ) (ops : List Op) : ℚ × ℚ := ops.foldl (fun p o => match o with | .position q => q | _ => p) p

/-- The last value assigned to `config.GSPosition`, or the one before. -/
def lastGs (p : ℚ × ℚ) (ops : List Op) : ℚ × ℚ := ops.foldl (fun p o => match o with | .gsPosition q => q | _ => p) p

/-- The last value assigned to `los.height`, or the one before. -/
def lastHeight (h : ℚ) (ops : List Op) : ℚ := ops.foldl (fun h o => match o with | .height q => q | _ => h) h

/-- The last value assigned to `config.wavelength`, or the one before. -/
def lastWavelength (w : ℚ) (ops : List Op) : ℚ := ops.foldl (fun w o => match o with | .wavelength q => q | _ => w) w

private theorem run_cons (u : Setup) (s : Sight) (o : Op) (ops : List Op) : run u s (o :: ops) = run u (Op.apply u s o) ops := rfl

private theorem run_append (u : Setup) (s : Sight) (xs ys : List Op) : run u s (xs ++ ys) = run u (run u s xs) ys := by simp only [run, List.foldl_append]

private theorem run_star (u : Setup) (s : Sight) (ops : List Op) :
    (run u s ops).star.gsPosition = lastGs s.star.gsPosition ops ∧ (run u s ops).star.gsHeight = lastHeight s.star.gsHeight ops ∧
      (run u s ops).star.wavelength = lastWavelength s.star.wavelength ops := by
  induction ops generalizing s with
  | nil => exact ⟨rfl, rfl, rfl⟩
  | cons o ops ih => rw [run_cons]; obtain ⟨h1, h2, h3⟩ := ih (Op.apply u s o); rw [h1, h2, h3]; cases o <;> exact ⟨rfl, rfl, rfl⟩

private theorem run_position (u : Setup) (s : Sight) (ops : List Op) (h : ∀ o ∈ ops, NoInit o) : (run u s ops).star.position = lastPosition s.star.position ops ∧
    (run u s ops).source = s.source ∧ (run u s ops).wavelength = s.wavelength := by
  induction ops generalizing s with
  | nil => exact ⟨rfl, rfl, rfl⟩
  | cons o ops ih =>
    rw [run_cons]
    obtain ⟨h1, h2, h3⟩ := ih (Op.apply u s o) fun x hx => h x (by simp [hx])
    rw [h1, h2, h3]
    have := h o (by simp)
    cases o <;> first | exact absurd this id | exact ⟨rfl, rfl, rfl⟩

/-- **C114 (layers and mirrors at the same height).** Whatever was done to a line of sight, a mirror that is conjugate to a layer is looked at in exactly the same places as the layer. -/
theorem C114_conjugate (u : Setup) (c : Star) (sc : Option ℚ) (n : Option ℕ) (ops : List Op) :
    (run u (make u c sc n) ops).layerCoords.length = u.layers.length ∧ (run u (make u c sc n) ops).mirrorCoords.length = u.mirrors.length ∧
    ∀ i j : ℕ, u.layers[i]? ≠ none → u.layers[i]? = u.mirrors[j]? → (run u (make u c sc n) ops).layerCoords[i]? = (run u (make u c sc n) ops).mirrorCoords[j]? := by
  have key : ∃ g, (run u (make u c sc n) ops).layerCoords = u.layers.map (metapupilCoords g) ∧ (run u (make u c sc n) ops).mirrorCoords = u.mirrors.map (metapupilCoords g) := by
    generalize hs : make u c sc n = s
    have h0 : ∃ g, s.layerCoords = u.layers.map (metapupilCoords g) ∧ s.mirrorCoords = u.mirrors.map (metapupilCoords g) := by rw [← hs]; exact ⟨_, rfl, rfl⟩
    clear hs
    induction ops generalizing s with
    | nil => exact h0
    | cons o ops ih =>
      rw [run_cons]
      apply ih
      cases o <;> first | exact h0 | exact ⟨_, rfl, rfl⟩
  obtain ⟨g, h1, h2⟩ := key
  rw [h1, h2]
  refine ⟨by simp, by simp, ?_⟩
  intro i j _ h
  rw [List.getElem?_map, List.getElem?_map, h]

/-- **C114 (ignored).** Assigning the position or the height of a line of sight, or the guide star's position or wavelength in the configuration, as often as one likes, changes no frame. -/
theorem C114_ignored (u : Setup) (s : Sight) (ops : List Op) (h : ∀ o ∈ ops, Assigns o) (old : State) (scrns correction : Option (List Arr2)) :
    Pointing.frame u (run u s ops) old scrns correction = Pointing.frame u s old scrns correction := by
  unfold Pointing.frame
  congr 1
  induction ops generalizing s with
  | nil => rfl
  | cons o ops ih =>
    rw [run_cons, ih _ fun x hx => h x (by simp [hx])]
    have := h o (by simp)
    cases o <;> first | exact absurd this id | rfl

/-- **C114 (what is read is what was set).** Nevertheless the attributes read as assigned. -/
theorem C114_reads (u : Setup) (s : Sight) (p : ℚ × ℚ) (h : ℚ) :
    (Op.apply u s (.position p)).star.position = p ∧ (Op.apply u s (.height h)).star.gsHeight = h ∧
      (Op.apply u s (.position p)).star.gsPosition = s.star.gsPosition ∧ (Op.apply u s (.gsPosition p)).star.position = s.star.position := ⟨rfl, rfl, rfl, rfl⟩

/-- **C114 (recalculated).** After `calcInitParams` the frames are those of a new line of sight in the direction last assigned to `los.position`; the height of the star and the wavelength are still those the object
was made with, and the output has the size given in this call, not the one it was made with. -/
theorem C114_recalc_partial (u : Setup) (c : Star) (sc sc' : Option ℚ) (n n' : Option ℕ) (xs ys : List Op) (hx : ∀ o ∈ xs, NoInit o) (hy : ∀ o ∈ ys, Assigns o) (old : State)
    (scrns correction : Option (List Arr2)) :
    Pointing.frame u (run u (make u c sc n) (xs ++ .recalc sc' n' :: ys)) old scrns correction =
      Pointing.frame u (make u { c with position := lastPosition c.position xs } sc' n') old scrns correction := by
  rw [run_append, run_cons, C114_ignored u _ ys hy]
  obtain ⟨h1, h2, h3⟩ := run_position u (make u c sc n) xs hx
  unfold Pointing.frame
  congr 1
  simp only [frameCfg, Op.apply, calcInit, h1, h2, h3]
  rfl

/-- **C114 (initialised again).** After initialising again the frames are those of a new line of sight with the position last assigned to `config.GSPosition` and the last height and wavelength; what was assigned to
`los.position` is forgotten. -/
theorem C114_reinit (u : Setup) (s : Sight) (xs ys : List Op) (hy : ∀ o ∈ ys, Assigns o) (old : State) (scrns correction : Option (List Arr2)) :
    Pointing.frame u (run u s (xs ++ .reinit :: ys)) old scrns correction =
      Pointing.frame u (make u ⟨lastGs s.star.gsPosition xs, lastGs s.star.gsPosition xs, lastHeight s.star.gsHeight xs, lastWavelength s.star.wavelength xs⟩ none none) old scrns correction := by
  rw [run_append, run_cons, C114_ignored u _ ys hy]
  obtain ⟨h1, h2, h3⟩ := run_star u s xs
  simp only [Op.apply, Star.calc]
  rw [← h1, ← h2, ← h3]

/-! ### How wrong the frames are -/

/-- A screen with a constant slope. -/
def Tilted (a : Arr2) (α β γ : ℚ) : Prop := ∀ i j : ℕ, a.px i j = α + β * i + γ * j

/-- The shift, in pixels of the screen, of the footprint at altitude `h` for a star at `p` arc seconds. -/
def shiftOf (u : Setup) (h p : ℚ) : ℚ := Conf.asec2rad * p * h / u.scale

/-- The footprints at the altitudes of both axes are inside the screen. -/
def Inside (u : Setup) (h : ℚ) (p : ℚ × ℚ) : Prop :=
  |shiftOf u h p.1| + 1 / 1000000000 ≤ ((u.scrn : ℚ) - u.simSize) / 2 ∧ |shiftOf u h p.2| + 1 / 1000000000 ≤ ((u.scrn : ℚ) - u.simSize) / 2

private theorem clip_inside (u : Setup) (s : ℚ) (k : ℕ) (hk : k < u.simSize) (h : |s| + 1 / 1000000000 ≤ ((u.scrn : ℚ) - u.simSize) / 2) :
    clip 0 (u.scrn - 1000000001 / 1000000000) (((u.scrn : ℚ) - u.simSize) / 2 + s + k) = ((u.scrn : ℚ) - u.simSize) / 2 + s + k ∧
      0 ≤ ((u.scrn : ℚ) - u.simSize) / 2 + s + k ∧ ((u.scrn : ℚ) - u.simSize) / 2 + s + k < u.scrn - 1 := by
  have h1 := neg_abs_le s
  have h2 := le_abs_self s
  have h3 : (k : ℚ) + 1 ≤ u.simSize := by exact_mod_cast hk
  have h4 : (0 : ℚ) ≤ k := by positivity
  refine ⟨?_, by linarith, by linarith⟩
  unfold clip
  rw [max_eq_left (by linarith), min_eq_left (by linarith)]

private theorem coords_inside (u : Setup) (h : ℚ) (p : ℚ × ℚ) (hd : u.up = false) (hs : u.scale ≠ 0) (hn : 2 ≤ u.simSize) (hin : Inside u h p) (k : ℕ) (hk : k < u.simSize) :
    (metapupilCoords (geomOf u p 0 u.scale u.simSize) h).1[k]? = some (((u.scrn : ℚ) - u.simSize) / 2 + shiftOf u h p.1 + k) ∧
      (metapupilCoords (geomOf u p 0 u.scale u.simSize) h).2[k]? = some (((u.scrn : ℚ) - u.simSize) / 2 + shiftOf u h p.2 + k) := by
  have key : ∀ q : ℚ, |shiftOf u h q| + 1 / 1000000000 ≤ ((u.scrn : ℚ) - u.simSize) / 2 →
      ((linspace (edges (geomOf u p 0 u.scale u.simSize) (Conf.asec2rad * q) 0 h).1 ((edges (geomOf u p 0 u.scale u.simSize) (Conf.asec2rad * q) 0 h).2 - 1) u.simSize).map
        (clip 0 (u.scrn - 1000000001 / 1000000000)))[k]? = some (((u.scrn : ℚ) - u.simSize) / 2 + shiftOf u h q + k) := by
    intro q hq
    have h2 : (2 : ℚ) ≤ u.simSize := by exact_mod_cast hn
    have h1 : (u.simSize : ℚ) - 1 ≠ 0 := by linarith
    rw [List.getElem?_map, (C32_samples _ _ _ _ hn hk).1, Option.map_some, Option.some.injEq]
    rw [← (clip_inside u (shiftOf u h q) k hk hq).1]
    congr 1
    simp only [edges, footprint, geomOf, hd, shiftOf, ne_eq, not_true_eq_false, if_false, Bool.false_eq_true]
    field_simp
    ring
  have hl : ∀ q r, edges (geomOf u p 0 u.scale u.simSize) q r h = edges (geomOf u p 0 u.scale u.simSize) q 0 h := by
    intro q r
    simp only [edges, footprint, geomOf, hd, Bool.false_eq_true, if_false]
  constructor
  · simp only [metapupilCoords, altitudeCoords]
    rw [hl]
    exact key p.1 hin.1
  · simp only [metapupilCoords, altitudeCoords]
    rw [hl]
    exact key p.2 hin.2

private theorem coords_length (g : Geom) (h : ℚ) : (metapupilCoords g h).1.length = g.nOut ∧ (metapupilCoords g h).2.length = g.nOut := by
  simp [metapupilCoords, linspace]

/-- The phase a new line of sight to a natural star at `p` sees of one tilted screen. -/
private theorem tilt_seen (u : Setup) (c : Star) (h α β γ : ℚ) (a : Arr2) (old t : State) (hd : u.up = false) (hs : u.scale ≠ 0) (ht : u.tau ≠ 0) (hw : c.wavelength ≠ 0) (hn : 2 ≤ u.simSize)
    (hl : u.layers = [h]) (h0 : c.gsHeight = 0) (hin : Inside u h c.position) (ha : Tilted a α β γ) (hr : a.rows = u.scrn) (hc : a.cols = u.scrn)
    (hf : Pointing.frame u (make u c none none) old (some [a]) none = .ok t) (i j : ℕ) (hi : i < u.simSize) (hj : j < u.simSize) :
    t.phase.px i j = u.tau / (c.wavelength * 10 ^ 9) * (α + β * (((u.scrn : ℚ) - u.simSize) / 2 + shiftOf u h c.position.1 + i) +
      γ * (((u.scrn : ℚ) - u.simSize) / 2 + shiftOf u h c.position.2 + j)) := by
  have hk : u.tau / (c.wavelength * 10 ^ 9) ≠ 0 := div_ne_zero ht (mul_ne_zero hw (by norm_num))
  obtain ⟨v, w, hv, hw', he, _⟩ := C31_additive (frameCfg u (make u c none none)) old t [a] none hk
    (by intro x hx; simp only [frameCfg, make, calcInit, List.mem_map] at hx; obtain ⟨_, _, rfl⟩ := hx; exact coords_length _ _)
    (by intro x hx; simp only [frameCfg, make, calcInit, List.mem_map] at hx; obtain ⟨_, _, rfl⟩ := hx; exact coords_length _ _) hf i j hi hj
  have hw0 : w = 0 := by
    obtain ⟨ws, h1, h2, _⟩ := hw'
    simp only [Option.getD_none, List.length_nil, List.length_eq_zero_iff] at h1
    rw [h2, h1, List.sum_nil]
  obtain ⟨vs, h1, h2, h3⟩ := hv
  obtain ⟨co, x, y, z, e1, e2, e3, e4, e5⟩ := h3 0 a rfl
  simp only [frameCfg, make, calcInit, hl, List.map_cons, List.map_nil, List.getElem?_cons_zero, Option.some.injEq, h0, Option.getD_none] at e1
  subst e1
  rw [(coords_inside u h c.position hd hs hn hin i hi).1] at e2
  rw [(coords_inside u h c.position hd hs hn hin j hj).2] at e3
  cases e2
  cases e3
  have ci := (clip_inside u _ i hi hin.1).2
  have cj := (clip_inside u _ j hj hin.2).2
  rw [C29_exact_on_bilinear false a α β γ 0 (by intro i j _ _; rw [ha]; ring) _ _ (by rw [hr]; exact ci) (by rw [hc]; exact cj)] at e5
  have hz := Except.ok.inj e5
  have hvz : v = z := by
    match vs, h1 with
    | [q], _ => rw [h2]; simpa using e4
  rw [he, hw0, hvz, ← hz]
  simp only [frameCfg, make, calcInit]
  ring

/-- **C114 (how wrong).** One layer at altitude `h` with a constant slope, a natural star moved from `c.position` to `p` by `los.position = p` (and any other assignments): the phase differs from the one a line of
sight to `p` sees by the slope times the displacement of the footprint. -/
theorem C114_how_wrong (u : Setup) (c : Star) (p : ℚ × ℚ) (ops : List Op) (h α β γ : ℚ) (a : Arr2) (old t t' : State) (hd : u.up = false) (hs : u.scale ≠ 0) (ht : u.tau ≠ 0)
    (hw : c.wavelength ≠ 0) (hn : 2 ≤ u.simSize) (hl : u.layers = [h]) (h0 : c.gsHeight = 0) (hin : Inside u h c.position) (hin' : Inside u h p) (ha : Tilted a α β γ) (hr : a.rows = u.scrn)
    (hc : a.cols = u.scrn) (hops : ∀ o ∈ ops, Assigns o) (hf : Pointing.frame u (run u (make u c none none) ops) old (some [a]) none = .ok t)
    (hf' : Pointing.frame u (make u { c with position := p } none none) old (some [a]) none = .ok t') (i j : ℕ) (hi : i < u.simSize) (hj : j < u.simSize) :
    t'.phase.px i j - t.phase.px i j = u.tau / (c.wavelength * 10 ^ 9) * (Conf.asec2rad * h / u.scale) * (β * (p.1 - c.position.1) + γ * (p.2 - c.position.2)) := by
  rw [C114_ignored u _ ops hops] at hf
  rw [tilt_seen u c h α β γ a old t hd hs ht hw hn hl h0 hin ha hr hc hf i j hi hj,
    tilt_seen u { c with position := p } h α β γ a old t' hd hs ht hw hn hl h0 hin' ha hr hc hf' i j hi hj]
  simp only [shiftOf]
  ring

/-- A telescope with half-metre pixels, a screen of 24 pixels, one layer at 10 km, one mirror on the ground. -/
def pointSetup : Setup := ⟨false, (0, 0), 1 / 2, 24, 8, [10000], [0], 6⟩
/-- A natural star on the axis. -/
def pointStar : Star := ⟨(0, 0), (0, 0), 0, 1 / 1000000⟩
/-- A screen with slope 1 on the first axis. -/
def pointScreen : Arr2 := ⟨24, 24, fun i _ => i⟩

/-- **C114 (violated).** A star is moved by 20 arc seconds, the frame is not that of a line of sight to the new position. -/
theorem C114_violated : ¬ ∀ (u : Setup) (c : Star) (p : ℚ × ℚ) (old : State) (scrns correction : Option (List Arr2)),
    Pointing.frame u (run u (make u c none none) [.position p, .gsPosition p]) old scrns correction = Pointing.frame u (make u { c with gsPosition := p, position := p } none none) old scrns correction := by
  intro h
  have := congrArg (fun r => r.map fun t : State => t.phase.px 0 0) (h pointSetup pointStar (20, 0) toyLosState (some [pointScreen]) none)
  revert this
  decide +kernel

/-- The setting meets the hypotheses of `C114_how_wrong`: 20 arc seconds at 10 km are nearly two pixels. -/
example : Inside pointSetup 10000 (0, 0) ∧ Inside pointSetup 10000 (20, 0) ∧ Tilted pointScreen 0 1 0 ∧ pointSetup.layers = [10000] ∧ pointStar.wavelength ≠ 0 ∧
    (Pointing.frame pointSetup (make pointSetup pointStar none none) toyLosState (some [pointScreen]) none).toBool = true ∧
    (Pointing.frame pointSetup (make pointSetup { pointStar with position := (20, 0) } none none) toyLosState (some [pointScreen]) none).toBool = true := by
  refine ⟨by unfold Inside; decide +kernel, by unfold Inside; decide +kernel, fun i j => by simp [pointScreen], rfl, by decide +kernel, by decide +kernel, by decide +kernel⟩

/-- Recalculating uses the new direction but not the new height; initialising again uses the new height but not the direction given to the line of sight. -/
example :
    (run pointSetup (make pointSetup pointStar none none) [.position (20, 0), .height 90000, .recalc none none]).source = 0 ∧
    (run pointSetup (make pointSetup pointStar none none) [.position (20, 0), .height 90000, .recalc none none]).layerCoords ≠ (make pointSetup pointStar none none).layerCoords ∧
    (run pointSetup (make pointSetup pointStar none none) [.position (20, 0), .height 90000, .reinit]).source = 90000 ∧
    (run pointSetup (make pointSetup pointStar none none) [.position (20, 0), .height 90000, .reinit]).star.position = (0, 0) := by
  refine ⟨by decide +kernel, by decide +kernel, by decide +kernel, by decide +kernel⟩

end Soapy.Props
