/-
Model of changing parameters between loading a configuration and initialising the simulation (`simulation.py`, module text lines 33-43; `confParse.py`).
-/
import Verif.Model.Config

namespace Soapy.Conf

/-- An assignment to a parameter of the loaded configuration, `sim.config.… = …` (simulation.py:33-41).  The numbers of guide stars, mirrors and cameras are left out: they decide how much of the file is
read (confParse.py:107-134).  An index beyond the list raises in Python and changes nothing here. -/
inductive Edit where
  | pupilSize (n : ℕ)
  | simOversize (q : ℚ)
  | loopTime (t : ℚ)
  | telDiam (q : ℚ)
  | scrnHeights (l : List ℚ)
  | scrnNo (n : ℕ)
  | outerScale (l : List ℚ)
  | gsPosition (i : ℕ) (p : ℚ × ℚ)
  | gsHeight (i : ℕ) (h : ℚ)
  | gsPhysical (i : ℕ) (b : Bool)
  | gsExposure (i : ℕ) (t : Option ℚ)
  | gsSubaps (i n : ℕ)
  | gsFieldStop (i : ℕ) (b : Bool)
  | gsLaser (i : ℕ) (l : Lgs)
  | dmDiameter (i : ℕ) (d : Option ℚ)
  | sciPosition (i : ℕ) (p : ℚ × ℚ)
  | sciPxlScale (i : ℕ) (p : Option ℚ)
  | sciFov (i : ℕ) (f : ℚ)
  | sciPxls (i n : ℕ)

/-- The configuration after the assignment (confParse.py:436-440: the attribute is stored, nothing else happens). -/
def Edit.apply (e : Edit) (c : Config) : Config :=
  match e with
  | .pupilSize n => { c with pupil := n }
  | .simOversize q => { c with oversize := q }
  | .loopTime t => { c with loopTime := t }
  | .telDiam q => { c with telDiam := q }
  | .scrnHeights l => { c with heights := l }
  | .scrnNo n => { c with scrnNo := n }
  | .outerScale l => { c with L0 := some l }
  | .gsPosition i p => { c with wfss := c.wfss.modify i fun w => { w with pos := p } }
  | .gsHeight i h => { c with wfss := c.wfss.modify i fun w => { w with height := h } }
  | .gsPhysical i b => { c with wfss := c.wfss.modify i fun w => { w with physical := b } }
  | .gsExposure i t => { c with wfss := c.wfss.modify i fun w => { w with exposure := t } }
  | .gsSubaps i n => { c with wfss := c.wfss.modify i fun w => { w with nxSubaps := n } }
  | .gsFieldStop i b => { c with wfss := c.wfss.modify i fun w => { w with fieldStop := b } }
  | .gsLaser i l => { c with wfss := c.wfss.modify i fun w => { w with lgs := some l } }
  | .dmDiameter i d => { c with dms := c.dms.modify i fun _ => d }
  | .sciPosition i p => { c with scis := c.scis.modify i fun s => { s with pos := p } }
  | .sciPxlScale i p => { c with scis := c.scis.modify i fun s => { s with pxlScale := p } }
  | .sciFov i f => { c with scis := c.scis.modify i fun s => { s with fov := some f } }
  | .sciPxls i n => { c with scis := c.scis.modify i fun s => { s with pxls := n } }

/-- The configuration `aoinit` works with (simulation.py:179) after the file `c` was loaded (confParse.py:136) and the parameters were set. -/
def session (c : Config) (es : List Edit) : Except PyErr Config := (calcParams c).bind fun d => calcParams (es.foldl (fun c e => e.apply c) d)

/-- The same without touching the parameters: loaded, then initialised. -/
def fromFile (c : Config) : Except PyErr Config := (calcParams c).bind calcParams

/-! ### The sodium profile -/

/-- `elongationLayers` and `naProfile` of a laser guide star. -/
structure Sodium where
  layers : ℕ
  profile : Option (List ℚ)
  deriving DecidableEq

/-- `LgsConfig.calcParams` (confParse.py:945-952); it is run when the laser's parameters are loaded (410) and never again (835-837 are commented out). -/
def sodiumCalc (s : Sodium) : Except PyErr Sodium :=
  let p := s.profile.getD (List.replicate s.layers 1)
  if p.length < s.layers then .error .configurationError else .ok { s with profile := some p }

/-- The intensities of the layers in a frame (wfs/wfs.py:233, 377, 393): `naProfile[i]` for every layer. -/
def sodiumUse (s : Sodium) : Except PyErr (List ℚ) :=
  mapE (fun i => match s.profile with
    | none => .error .typeError
    | some p => match p[i]? with | some q => .ok q | none => .error .indexError) (List.range s.layers)

end Soapy.Conf
