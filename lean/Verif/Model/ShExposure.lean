/-
Model of the successive frames of a Shack-Hartmann sensor whose exposure lasts several frames (`WFS.frame` with `read`, wfs/wfs.py and wfs/shackhartmann.py), with the images of `ShSensor`.

Not in this model: noise, laser uplink and elongation, see C08, C55 and C71; float32 rounding.
-/
import Verif.Model.ShSensor

namespace Soapy.ShExposure

open Soapy.Mirror Soapy.Subaps Soapy.Spot Soapy.SubapScale Soapy.ShSensor

/-- The arrays that keep their contents between frames: `subap_focus_intensity` and `detector` (shackhartmann.py:240-249). -/
structure Mem where
  focus : ℕ × ℕ → ℕ → ℕ → ℝ
  det : ℕ → ℕ → ℝ

/-- After `allocDataArrays` (shackhartmann.py:240-249): zeros. -/
def fresh : Mem := ⟨fun _ _ _ => 0, fun _ _ => 0⟩

/-- `subap_focus_intensity += temp_subap_intensity` (shackhartmann.py:336-351) for the sub-aperture `q`. -/
noncomputable def expose (s : Sh) (waves : List (List ℚ)) (m : Mem) (q : ℕ × ℕ) (i j : ℕ) : ℝ :=
  m.focus q i j + subImage (s.o * s.p * s.b) s.m (tiltFix s.p s.m s.A) s.scaled waves (corner s q.1) (corner s q.2) i j

/-- `binnedFPSubapArrays` (shackhartmann.py:369-378) of the sub-aperture `q`. -/
noncomputable def binFill (s : Sh) (focus : ℕ × ℕ → ℕ → ℕ → ℝ) (q : ℕ × ℕ) (i j : ℕ) : ℝ := binned s.b (focus q) i j * s.fill q.1 q.2

/-- `calculateSlopes` (shackhartmann.py:428-451) of a detector that was read; `st` is `staticData`, `tt` is `removeTT`. -/
noncomputable def slopesOf (s : Sh) (tt : Bool) (st : List (ℝ × ℝ)) (det : ℕ → ℕ → ℝ) : List ℝ :=
  let l := (subs s).map (centre s det)
  let x := List.zipWith (fun a b => a - b) (l.map Prod.fst) (st.map Prod.fst)
  let y := List.zipWith (fun a b => a - b) (l.map Prod.snd) (st.map Prod.snd)
  if tt then removeMean x ++ removeMean y else x ++ y

/-- `WFS.frame` (wfs.py:424-466): `zeroData(detector=read, FP=False)`, the light is added to the focal planes, those are binned and *added* to the detector; with `read` it is read out and the focal
planes are cleared, otherwise zeros are returned. -/
noncomputable def frame (s : Sh) (tt : Bool) (st : List (ℝ × ℝ)) (m : Mem) (phase : Arr2) (read : Bool) : Except PyErr (List ℝ × Mem) :=
  match sampled phase s.N with
  | .error e => .error e
  | .ok waves =>
    if (subs s).all (inside s) then
      let focus := expose s waves m
      match place s.nx s.p s.o s.g (if read then fun _ _ => 0 else m.det) ((subs s).map fun q => (q, binFill s focus q)) with
      | .error e => .error e
      | .ok det => if read then .ok (slopesOf s tt st det, ⟨fun _ _ _ => 0, readOut s det⟩) else .ok (List.replicate (2 * (subs s).length) 0, ⟨focus, det⟩)
    else .error .valueError

/-- Several frames; the phase of each and whether the sensor is read in it.  The vectors returned, in order. -/
noncomputable def frames (s : Sh) (tt : Bool) (st : List (ℝ × ℝ)) : Mem → List (Arr2 × Bool) → Except PyErr (List (List ℝ))
  | _, [] => .ok []
  | m, (phase, read) :: rest =>
    match frame s tt st m phase read with
    | .error e => .error e
    | .ok (v, m') =>
      match frames s tt st m' rest with
      | .error e => .error e
      | .ok vs => .ok (v :: vs)

/-- `staticData` (shackhartmann.py:287-297): the flat wavefront `flat0` of the size of the screens, `frame(…, iMatFrame=True)` on the fresh object without static data, reshaped to two rows. -/
noncomputable def static (s : Sh) (flat0 : Arr2) : Except PyErr (List (ℝ × ℝ) × Mem) :=
  match frame s false (List.replicate (subs s).length (0, 0)) fresh flat0 true with
  | .error e => .error e
  | .ok (v, m) => .ok (List.zip (v.take (subs s).length) (v.drop (subs s).length), m)

/-- A sensor object is made (its line of sight has the size of `flat0`), then runs these frames. -/
noncomputable def session (s : Sh) (flat0 : Arr2) (ins : List (Arr2 × Bool)) : Except PyErr (List (List ℝ)) :=
  match static s flat0 with
  | .error e => .error e
  | .ok (st, m) => frames s s.removeTT st m ins

/-- An exposure: all frames but the last are not read. -/
def exposure (phases : List Arr2) : List (Arr2 × Bool) := (phases.dropLast.map fun a => (a, false)) ++ (phases.getLast?.toList.map fun a => (a, true))

end Soapy.ShExposure
