/-
Model of a frame of `lineofsight.LineOfSight` in physical propagation: the complex field, the recorded phase and residual.

`aotools.opticalpropagation.angularSpectrum` is not part of the repository; it is always called with equal input and output scales, where the angular spectrum method is: Fourier transform, multiply by the quadratic phase
`exp(-i π λ z f²)`, transform back; a distance of zero returns the input.  Complex numbers are exact (the code stores complex64).
-/
import Verif.Model.Los
import Verif.Model.Spot

namespace Soapy.Physical

open Soapy.Mirror Soapy.Los Soapy.Spot Finset

/-- A complex field, `nx_out_pixels` square (`self.EField`, lineofsight.py:248). -/
abbrev Field := ℕ → ℕ → ℂ

/-- The grid of a propagation: number of pixels, the factor `π λ / (N · output_pixel_scale)²`, and the integer (for odd sizes half-integer) frequency that belongs to an element of the transform. -/
structure Grid where
  n : ℕ
  kappa : ℝ
  freq : ℕ → ℝ

/-- The discrete Fourier transform of a field. -/
noncomputable def spectrum (N : ℕ) (E : Field) : Field := fun u v =>
  ∑ a ∈ range N, ∑ b ∈ range N, E a b * cis (-1 * (2 * Real.pi * ((u : ℝ) * a + (v : ℝ) * b) / N))

/-- `opticalpropagation.angularSpectrum(field, wavelength, scale, scale, z)` (called in lineofsight.py:445-447, 480-482). -/
noncomputable def angularSpectrum (g : Grid) (z : ℝ) (E : Field) : Field :=
  if z = 0 then E
  else fun i j => (∑ u ∈ range g.n, ∑ v ∈ range g.n, cis (-(g.kappa * z * (g.freq u ^ 2 + g.freq v ^ 2))) * spectrum g.n E u v *
    cis (1 * (2 * Real.pi * ((i : ℝ) * u + (j : ℝ) * v) / g.n))) / (g.n : ℂ) ^ 2

/-- `EFieldBuf *= exp(1j * phase)` with `phase` times `phs2Rad` (lineofsight.py:453-459); `b` is the sampled screen. -/
noncomputable def applyPhase (k : ℚ) (b : Arr2) (E : Field) : Field := fun i j => E i j * cis ((b.px i j * k : ℚ) : ℝ)

/-- One operation of `physical_atmosphere_propagation` on the field (lineofsight.py:440-484). -/
noncomputable def step (g : Grid) (k : ℚ) (bufs : List Arr2) (E : Field) : Act → Field
  | .propagate z => angularSpectrum g (z : ℝ) E
  | .screen i => applyPhase k (bufs.getD i (zero2 g.n)) E

/-- What a frame leaves behind: `EField`, `phase`, `residual`. -/
structure Out where
  field : Field
  phase : Arr2
  residual : Arr2

/-- `performCorrection` (lineofsight.py:327-348) on the buffers cleared by `zeroData`. -/
noncomputable def correct (c : Cfg) (o : Out) (correction : List Arr2) : Except PyErr Out :=
  match fill c.dmCoords (c.dmCoords.map fun _ => zero2 c.nOut) correction with
  | .error e => .error e
  | .ok bufs =>
    let pc : ℕ → ℕ → ℚ := fun i j => (sumImg c.nOut bufs).px i j * c.k
    let residual : Arr2 := ⟨c.nOut, c.nOut, fun i j => (o.phase.px i j - pc i j) / c.k⟩
    .ok ⟨fun i j => o.field i j * cis ((-pc i j : ℚ) : ℝ), ⟨c.nOut, c.nOut, fun i j => residual.px i j * c.k⟩, residual⟩

/-- `makePhase` and `makePhasePhys` (lineofsight.py:262-280, 309-324, 395-486): sample the screens, then propagate.  Going up without a mask, `EFieldBuf *= None` is a `TypeError`. -/
noncomputable def makePhase (g : Grid) (c : Cfg) (source : ℚ) (alts : List ℚ) (mask : Option (ℕ → ℕ → ℝ)) (o : Out) (scrns : List Arr2) : Except PyErr Out :=
  match fill c.layerCoords (c.layerCoords.map fun _ => zero2 c.nOut) scrns with
  | .error e => .error e
  | .ok bufs =>
    match physical c.up source alts bufs.length with
    | .error e => .error e
    | .ok acts =>
      if c.up then
        match mask with
        | none => .error .typeError
        | some m => .ok { o with field := acts.foldl (step g c.k bufs) fun i j => o.field i j * m i j }
      else .ok { o with field := acts.foldl (step g c.k bufs) o.field }

/-- `frame` (lineofsight.py:351-392) with `propagationMode` Physical; `zeroData` (lineofsight.py:253-260) clears everything first. -/
noncomputable def frame (g : Grid) (c : Cfg) (source : ℚ) (alts : List ℚ) (mask : Option (ℕ → ℕ → ℝ)) (scrns correction : Option (List Arr2)) : Except PyErr Out :=
  let start : Out := ⟨fun _ _ => 1, zero2 c.nOut, zero2 c.nOut⟩
  let first := match c.up, correction with
    | true, some corr => correct c start corr
    | _, _ => .ok start
  match first with
  | .error e => .error e
  | .ok o =>
    match makePhase g c source alts mask o (scrns.getD (c.layerCoords.map fun _ => zero2 c.scrn)) with
    | .error e => .error e
    | .ok o =>
      let o := { o with residual := o.phase }
      match c.up, correction with
      | false, some corr => correct c o corr
      | _, _ => .ok o

end Soapy.Physical
