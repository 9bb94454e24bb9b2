/-
Model of a whole noise-free frame of a Shack-Hartmann sensor (`wfs/shackhartmann.py`, `wfs/wfs.py`, `numbalib/wfslib.py`) with geometric propagation: from the phase of the line of sight to the
vector of measurements.  The pieces are those of `SubapScale`, `Spot` and `Subaps`.

Not in this model: noise, laser uplink, extended sources, physical propagation; float32 rounding.  `computeFillFactor` and the centroiders are functions of AOtools, so parameters here.  A dark
detector (`detector.sum() == 0`) is divided by zero in Python; here the quotient is 0.
-/
import Verif.Model.SubapScale

namespace Soapy.ShSensor

open Soapy.Mirror Soapy.Subaps Soapy.Spot Soapy.SubapScale

/-- What a sensor is made of after initialisation (shackhartmann.py:44-145).  `o` is `SUBAP_OVERSIZE`, `b` `fftOversamp` after `initFFTs`, `m` `nx_subap_interp`, `N` `nx_interp_efield`, `A` the amplitude in
`calcTiltCorrect`, `pupil` the mask without its padding, `scaled` `scaledMask`, `fill` `subapFillFactor` of the sub-aperture `(x, y)`, `cent` the centroider with `nan_to_num` on one image, `photons` what
`photons_per_mag` returns. -/
structure Sh where
  nx : ℕ
  p : ℕ
  o : ℕ
  g : ℕ
  b : ℕ
  m : ℕ
  N : ℕ
  P : ℕ
  pad : ℕ
  A : ℝ
  th : ℚ
  pupil : Arr2
  scaled : ℕ → ℕ → ℝ
  fill : ℕ → ℕ → ℝ
  cent : (ℕ → ℕ → ℝ) → ℝ × ℝ
  photons : ℝ
  removeTT : Bool

/-- The active sub-apertures in their order (shackhartmann.py:119-127). -/
def subs (s : Sh) : List (ℕ × ℕ) := activeList s.pupil s.nx s.th

/-- `interp_subap_coords` on one axis (shackhartmann.py:129-130). -/
def corner (s : Sh) (x : ℕ) : ℕ := (interpCoord s.P s.nx s.pad s.m x).toNat

/-- The slices of `chop_subaps_mask` lie inside the field (wfslib.py:45-55); a shorter slice cannot be stored and raises `ValueError`. -/
def inside (s : Sh) (q : ℕ × ℕ) : Bool := decide (corner s q.1 + s.m ≤ s.N ∧ corner s q.2 + s.m ≤ s.N)

/-- `binnedFPSubapArrays[i]` (shackhartmann.py:319-351, 369-378): image of the sub-aperture `q`, binned and multiplied by its fill factor. -/
noncomputable def image (s : Sh) (waves : List (List ℚ)) (q : ℕ × ℕ) (i j : ℕ) : ℝ :=
  binned s.b (subImage (s.o * s.p * s.b) s.m (tiltFix s.p s.m s.A) s.scaled waves (corner s q.1) (corner s q.2)) i j * s.fill q.1 q.2

/-- `detector` after `integrateDetectorPlane` (shackhartmann.py:380-381), zero before (zeroData, 301-316). -/
noncomputable def detector (s : Sh) (waves : List (List ℚ)) : Except PyErr (ℕ → ℕ → ℝ) :=
  if (subs s).all (inside s) then place s.nx s.p s.o s.g (fun _ _ => 0) ((subs s).map fun q => (q, image s waves q)) else .error .valueError

/-- `readDetectorPlane` without noise (shackhartmann.py:384-390). -/
noncomputable def readOut (s : Sh) (det : ℕ → ℕ → ℝ) (r c : ℕ) : ℝ :=
  det r c / (∑ i ∈ Finset.range (detSize s.nx s.p s.g), ∑ j ∈ Finset.range (detSize s.nx s.p s.g), det i j) * s.photons

/-- One column of `slopes` before the static measurements are removed (shackhartmann.py:428-442): the cut-out image, its centroid, relative to the middle of the sub-aperture. -/
noncomputable def centre (s : Sh) (det : ℕ → ℕ → ℝ) (q : ℕ × ℕ) : ℝ × ℝ :=
  let c := s.cent (cut s.p s.g (readOut s det) q)
  (c.1 - s.p / 2, c.2 - s.p / 2)

/-- A frame as far as line 442: phase of the line of sight in waves, `zoomtoefield`, images, detector, centroids (wfs.py:468-496 `simple_frame`, the same steps in `frame`). -/
noncomputable def raw (s : Sh) (phase : Arr2) : Except PyErr (List (ℝ × ℝ)) :=
  match sampled phase s.N with
  | .error e => .error e
  | .ok waves =>
    match detector s waves with
    | .error e => .error e
    | .ok det => .ok ((subs s).map (centre s det))

/-- A line of sight with no aberration, of the size of `phase`. -/
def flat (phase : Arr2) : Arr2 := ⟨phase.rows, phase.cols, fun _ _ => 0⟩

/-- `v -= v.mean()` for one half of the slopes (shackhartmann.py:449-451). -/
noncomputable def removeMean (v : List ℝ) : List ℝ := v.map fun x => x - v.sum / v.length

/-- The measurements of a frame: `staticData` (287-297, taken with a flat wavefront and without removal of tip and tilt) subtracted, all first coordinates, then all second coordinates (444-447), tip and tilt
removed if configured (449-451).  `numpy.any(staticData)` is false only if subtracting makes no difference. -/
noncomputable def measure (s : Sh) (phase : Arr2) : Except PyErr (List ℝ) :=
  match raw s (flat phase), raw s phase with
  | .ok st, .ok l =>
    let x := List.zipWith (fun a b => a - b) (l.map Prod.fst) (st.map Prod.fst)
    let y := List.zipWith (fun a b => a - b) (l.map Prod.snd) (st.map Prod.snd)
    .ok (if s.removeTT then removeMean x ++ removeMean y else x ++ y)
  | .error e, _ => .error e
  | _, .error e => .error e

/-- `aotools.centroiders.centre_of_gravity` without threshold on one image of `p × p` pixels, column first; pixels count from 1/2.  (AOtools, not in the repository; used in the examples.) -/
noncomputable def cog (p : ℕ) (img : ℕ → ℕ → ℝ) : ℝ × ℝ :=
  let tot := ∑ i ∈ Finset.range p, ∑ j ∈ Finset.range p, img i j
  ((∑ i ∈ Finset.range p, ∑ j ∈ Finset.range p, (j + 1 / 2) * img i j) / tot, (∑ i ∈ Finset.range p, ∑ j ∈ Finset.range p, (i + 1 / 2) * img i j) / tot)

/-- Transposed array. -/
def turnArr (a : Arr2) : Arr2 := ⟨a.cols, a.rows, fun i j => a.px j i⟩

/-- The same sensor behind a transposed pupil. -/
def turn (s : Sh) : Sh := { s with pupil := turnArr s.pupil, scaled := fun i j => s.scaled j i, fill := fun x y => s.fill y x }

end Soapy.ShSensor
