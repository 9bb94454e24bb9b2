/-
Model of `dict(config)` (confParse.py:242-276, 418-446): a configuration written out as plain groups.

Simplifications: as in `Load.lean` the attribute `lgs` of a sensor is kept apart.  `ndarray.tolist()` (422-423, 429-430) is the identity, since values are compared by their items.
-/
import Verif.Model.Load

namespace Soapy.Dump

open Soapy Soapy.Conf Soapy.Load

/-- The keys yielded by `ConfigObj.__iter__` (confParse.py:419-420, 426-427). -/
def names (s : Schema) : List String := s.required ++ s.optional.map Prod.fst

/-- `self.__dict__[param]` (confParse.py:421, 428). -/
def pair (a : Attrs) (p : String) : Except PyErr (String × Val) :=
  match a p with
  | some v => .ok (p, v)
  | none => .error .keyError

/-- `dict(...)` of pairs: a later one replaces an earlier one with the same key. -/
def ofPairs (l : List (String × Val)) : Group := fun q => l.reverse.lookup q

/-- `dict(obj)` of a configuration object (confParse.py:418-431). -/
def dictObj (s : Schema) (a : Attrs) : Except PyErr Group := (mapE (pair a) (names s)).bind fun l => .ok (ofPairs l)

/-- `len(obj)` (confParse.py:433-434). -/
def len (s : Schema) : ℕ := s.required.length + s.optional.length

/-- The value of `lgs` in `dict(w)`: `None`, or the laser's `LgsConfig` itself, whose items are its attributes (confParse.py:445-446). -/
def lgsItem : Option Attrs → LgsEntry
  | none => .null
  | some l => .group l

/-- `dict(w)` of a sensor. -/
def dictWfs (lib : Lib) (w : Attrs × Option Attrs) : Except PyErr Row := (dictObj (lib.schema .wfs) w.1).bind fun g => .ok ⟨g, lgsItem w.2⟩

/-- `dict(d)` of a mirror or camera. -/
def dictRow (lib : Lib) (c : Cls) (a : Attrs) : Except PyErr Row := (dictObj (lib.schema c) a).bind fun g => .ok ⟨g, .absent⟩

/-- `for i, x in enumerate(l): d[i] = x`. -/
def enum (l : List Row) : Rows := .dict ((List.range l.length).zip l)

/-- `dict(config)` (confParse.py:242-273) as a dictionary that `YAML_Configurator` can be given. -/
def dictConfig (lib : Lib) (c : Loaded) : Except PyErr YamlFile := do
  let sim ← dictObj (lib.schema .sim) c.sim
  let atmos ← dictObj (lib.schema .atmos) c.atmos
  let tel ← dictObj (lib.schema .tel) c.tel
  let recon ← dictObj (lib.schema .recon) c.recon
  let wfss ← mapE (dictWfs lib) c.wfss
  let dms ← mapE (dictRow lib .dm) c.dms
  let scis ← mapE (dictRow lib .sci) c.scis
  return {
    top := fun _ => none
    group := fun | .sim => some sim | .atmos => some atmos | .tel => some tel | .recon => some recon | _ => none
    rows := fun | .wfs => some (enum wfss) | .dm => some (enum dms) | .sci => some (enum scis) | _ => none }

end Soapy.Dump
