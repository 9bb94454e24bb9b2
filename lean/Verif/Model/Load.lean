/-
Model of the two configuration loaders (confParse.py:52-137, 278-341, 1186-1204): Python files and YAML files.
-/
import Verif.Model.Config

namespace Soapy.Load

open Soapy Soapy.Conf

/-- Configuration classes (confParse.py:450-1184). -/
inductive Cls
  | sim | atmos | tel | lgs | wfs | dm | recon | sci
  deriving DecidableEq

/-- The parameters of a group of a file, by name. -/
abbrev Group := String → Option Val

/-- The whole configuration; a sensor comes with its laser.
Simplification: the attribute `lgs` of a sensor is kept apart, and so is the index `N`, which nothing but `loadParams` reads. -/
structure Loaded where
  sim : Attrs
  atmos : Attrs
  tel : Attrs
  wfss : List (Attrs × Option Attrs)
  dms : List Attrs
  recon : Attrs
  scis : List Attrs

/-- What both loaders share: the parameters of the classes, each class's `calcParams`, the number an attribute of `sim` holds, and `calcParams` of the whole (confParse.py:138-239). -/
structure Lib where
  schema : Cls → Schema
  derive : Cls → Attrs → Except PyErr Attrs
  finish : Loaded → Except PyErr Loaded

/-- `range(self.sim.nGS)` needs an integer. -/
def count (a : Attrs) (name : String) : Except PyErr ℕ :=
  match a name with
  | some (.atom n) => .ok n
  | some _ => .error .typeError
  | none => .error .attributeError

/-- `obj = Cls(N); obj.loadParams(group)` (confParse.py:365-410). -/
def loadObj (lib : Lib) (c : Cls) (N : Option ℕ) (g : Group) : Except PyErr Attrs := (loadParams (lib.schema c) N g fun _ => none).bind (lib.derive c)

/-- `for i in range(n): l.append(f(i))`, from `k` on. -/
def forRange {α : Type} (f : ℕ → Except PyErr α) : ℕ → ℕ → Except PyErr (List α)
  | _, 0 => .ok []
  | k, n + 1 => (f k).bind fun x => (forRange f (k + 1) n).bind fun xs => .ok (x :: xs)

/-! ### Python files -/

/-- The dictionary `simConfiguration` of a Python file: groups of columns, one value for each component. -/
abbrev PyFile := Cls → Option Group

/-- `self.configDict[name]`. -/
def PyFile.group (p : PyFile) (c : Cls) : Except PyErr Group := match p c with | some g => .ok g | none => .error .keyError

/-- Truth of a value. -/
def Val.truthy : Val → Bool
  | .atom n => n ≠ 0
  | .seq l => !l.isEmpty
  | .dict d => !d.isEmpty

/-- The parameter `lgs` of sensor `i`: its default is `None` (confParse.py:787). -/
def pyLgs (g : Group) (i : ℕ) : Except PyErr Bool :=
  match fetch g (some i) "lgs" with
  | .ok v => .ok (Val.truthy v)
  | .error .keyError => .ok false
  | .error _ => .error .configurationError

/-- One sensor (confParse.py:110-121): the laser is loaded first, and dropped if `lgs` is not true. -/
def pyWfs (lib : Lib) (p : PyFile) (i : ℕ) : Except PyErr (Attrs × Option Attrs) := do
  let gl ← p.group .lgs
  let l ← loadObj lib .lgs (some i) gl
  let gw ← p.group .wfs
  let w ← loadObj lib .wfs (some i) gw
  let b ← pyLgs gw i
  return (w, if b then some l else none)

/-- One mirror or camera (confParse.py:123-126, 131-134). -/
def pyObj (lib : Lib) (p : PyFile) (c : Cls) (i : ℕ) : Except PyErr Attrs := do
  let g ← p.group c
  loadObj lib c (some i) g

/-- `PY_Configurator.loadSimParams` (confParse.py:97-136) after `readfile`. -/
def loadPy (lib : Lib) (p : PyFile) : Except PyErr Loaded := do
  let sim ← (p.group .sim).bind (loadObj lib .sim none)
  let atmos ← (p.group .atmos).bind (loadObj lib .atmos none)
  let tel ← (p.group .tel).bind (loadObj lib .tel none)
  let ng ← count sim "nGS"
  let wfss ← forRange (pyWfs lib p) 0 ng
  let nd ← count sim "nDM"
  let dms ← forRange (pyObj lib p .dm) 0 nd
  let recon ← (p.group .recon).bind (loadObj lib .recon none)
  let ns ← count sim "nSci"
  let scis ← forRange (pyObj lib p .sci) 0 ns
  lib.finish ⟨sim, atmos, tel, wfss, dms, recon, scis⟩

/-! ### YAML files -/

/-- The entry `lgs` of a sensor: not there, `null`, a group, or anything without named items (`False`, a number). -/
inductive LgsEntry
  | absent
  | null
  | group (g : Group)
  | other

/-- A component of a YAML file; `lgs` is used for sensors only. -/
structure Row where
  params : Group
  lgs : LgsEntry

/-- The components: a list, or a dictionary with integer keys. -/
inductive Rows
  | seq (l : List Row)
  | dict (d : List (ℕ × Row))

/-- `rows[i]`. -/
def Rows.item : Rows → ℕ → Except PyErr Row
  | .seq l, i => match l[i]? with | some r => .ok r | none => .error .indexError
  | .dict d, i => match d.lookup i with | some r => .ok r | none => .error .keyError

/-- A YAML file: the parameters at the top, the groups without components (sim, atmos, tel, recon), the groups with components (wfs, dm, sci). -/
structure YamlFile where
  top : Group
  group : Cls → Option Group
  rows : Cls → Option Rows

/-- `self.configDict[name]`. -/
def YamlFile.get (y : YamlFile) (c : Cls) : Except PyErr Group := match y.group c with | some g => .ok g | none => .error .keyError

/-- `self.configDict[name][i]`. -/
def YamlFile.row (y : YamlFile) (c : Cls) (i : ℕ) : Except PyErr Row := match y.rows c with | some r => r.item i | none => .error .keyError

/-- One sensor (confParse.py:306-321). -/
def yamlWfs (lib : Lib) (y : YamlFile) (i : ℕ) : Except PyErr (Attrs × Option Attrs) := do
  let r ← y.row .wfs i
  let w ← loadObj lib .wfs none r.params
  match r.lgs with
  | .absent => return (w, none)
  | .null => return (w, none)
  | .group g =>
    let l ← loadObj lib .lgs none g
    return (w, some l)
  | .other => .error .configurationError

/-- One mirror or camera (confParse.py:323-328, 334-339). -/
def yamlObj (lib : Lib) (y : YamlFile) (c : Cls) (i : ℕ) : Except PyErr Attrs := do
  let r ← y.row c i
  loadObj lib c none r.params

/-- `YAML_Configurator.loadSimParams` (confParse.py:289-341) after `readfile`: without a group `Sim` its parameters are looked for at the top. -/
def loadYaml (lib : Lib) (y : YamlFile) : Except PyErr Loaded := do
  let sim ← loadObj lib .sim none ((y.group .sim).getD y.top)
  let atmos ← (y.get .atmos).bind (loadObj lib .atmos none)
  let tel ← (y.get .tel).bind (loadObj lib .tel none)
  let ng ← count sim "nGS"
  let wfss ← forRange (yamlWfs lib y) 0 ng
  let nd ← count sim "nDM"
  let dms ← forRange (yamlObj lib y .dm) 0 nd
  let recon ← (y.get .recon).bind (loadObj lib .recon none)
  let ns ← count sim "nSci"
  let scis ← forRange (yamlObj lib y .sci) 0 ns
  lib.finish ⟨sim, atmos, tel, wfss, dms, recon, scis⟩

/-! ### Files one after the other -/

/-- A Python file as a program: from the value `simConfiguration` has in the globals of `confParse` to the one it has afterwards, and whether it raised. -/
abbrev Script := Option PyFile → Option PyFile × Bool

/-- `PY_Configurator.readfile` and `loadSimParams` (confParse.py:84-136): the file is executed in the globals of the module, where `simConfiguration` is then read. -/
def openPy (lib : Lib) (globals : Option PyFile) (f : Script) : Except PyErr Loaded × Option PyFile :=
  match f globals with
  | (g, true) => (.error .configurationError, g)
  | (none, false) => (.error .nameError, none)
  | (some p, false) => (loadPy lib p, some p)

/-- A session: files loaded one after the other by `loadSoapyConfig` (confParse.py:1186-1204); the results of all. -/
def session (lib : Lib) : Option PyFile → List (Script ⊕ YamlFile) → List (Except PyErr Loaded)
  | _, [] => []
  | g, .inl f :: fs => (openPy lib g f).1 :: session lib (openPy lib g f).2 fs
  | g, .inr y :: fs => loadYaml lib y :: session lib g fs

/-! ### Numbers -/

/-- A number as written in a file: sign, whole part, decimals after a point, exponent with or without a sign.  Leading zeros, `.5`, underscores and colons are left out. -/
structure Lit where
  neg : Bool
  whole : ℕ
  frac : Option (List (Fin 10))
  exp : Option (Option Bool × ℕ)
  deriving DecidableEq

/-- The number a list of decimals stands for. -/
def decimals : List (Fin 10) → ℚ
  | [] => 0
  | d :: ds => (d.val + decimals ds) / 10

/-- The number a literal stands for; the sign of an exponent is `true` for minus. -/
def Lit.value (l : Lit) : ℚ :=
  (if l.neg then -1 else 1) * (l.whole + decimals (l.frac.getD [])) * (match l.exp with | none => 1 | some (some true, k) => (1 / 10) ^ k | some (_, k) => 10 ^ k)

/-- Values of a parameter. -/
inductive Scalar
  | int (z : ℤ)
  | float (q : ℚ)
  | str (l : Lit)
  deriving DecidableEq

/-- An integer literal. -/
def Lit.int (l : Lit) : ℤ := (if l.neg then -1 else 1) * l.whole

/-- The literal in a Python file. -/
def pyScalar (l : Lit) : Scalar := if l.frac = none ∧ l.exp = none then .int l.int else .float l.value

/-- The literal in a YAML file read by PyYAML's `SafeLoader` (confParse.py:286): a float needs a point, and a sign in its exponent; what is no number is a string. -/
def yamlScalar (l : Lit) : Scalar :=
  match l.frac, l.exp with
  | none, none => .int l.int
  | some _, none => .float l.value
  | some _, some (some _, _) => .float l.value
  | _, _ => .str l

/-- `float(x)`. -/
def toFloat : Scalar → Scalar
  | .int z => .float z
  | .float q => .float q
  | .str l => .float l.value

/-- Parameters that are one number and that `calcParams` turns into a float (confParse.py:832, 954-955, 1042-1043, 1174). -/
def converted : List (Cls × String) := [(.wfs, "wavelength"), (.lgs, "wavelength"), (.lgs, "height"), (.dm, "iMatValue"), (.dm, "svdConditioning"), (.sci, "wavelength")]

/-- The value of a parameter after `calcParams`. -/
def afterCalc (c : Cls) (name : String) (v : Scalar) : Scalar := if (c, name) ∈ converted then toFloat v else v

end Soapy.Load
