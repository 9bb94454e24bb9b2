/-
What it means that a Python file and a YAML file describe the same system (C92).
-/
import Verif.Model.Load

namespace Soapy.Load

open Soapy Soapy.Conf

/-- Component `i` of the columns and the row say the same about a parameter: it has the same value, or in both none. -/
def SameParam (cols : Group) (i : ℕ) (row : Group) (q : String) : Prop :=
  (∃ c v, cols q = some c ∧ c.item i = .ok v ∧ row q = some v) ∨ ((cols q = none ∨ ∃ c, cols q = some c ∧ c.item i = .error .keyError) ∧ row q = none)

/-- The names of the parameters of a class. -/
def Names (lib : Lib) (c : Cls) (q : String) : Prop := q ∈ (lib.schema c).required ∨ q ∈ (lib.schema c).optional.map Prod.fst

/-- A component is described alike. -/
def SameObj (lib : Lib) (c : Cls) (cols : Group) (i : ℕ) (row : Group) : Prop := ∀ q, Names lib c q → SameParam cols i row q

/-- Sensor `i` is described alike: with a laser in both, described alike, or with a laser in neither. -/
def SameWfs (lib : Lib) (cols lasers : Group) (i : ℕ) (row : Row) : Prop :=
  SameObj lib .wfs cols i row.params ∧
    ((∃ c v g, cols "lgs" = some c ∧ c.item i = .ok v ∧ Val.truthy v = true ∧ row.lgs = .group g ∧ SameObj lib .lgs lasers i g) ∨
      ((cols "lgs" = none ∨ ∃ c, cols "lgs" = some c ∧ (c.item i = .error .keyError ∨ ∃ v, c.item i = .ok v ∧ Val.truthy v = false)) ∧ (row.lgs = .absent ∨ row.lgs = .null) ∧ SameObj lib .lgs lasers i fun _ => none))

/-- The files describe the same system of `ng` sensors, `nd` mirrors, `ns` cameras. -/
structure Same (lib : Lib) (p : PyFile) (y : YamlFile) (ng nd ns : ℕ) : Prop where
  sim : p .sim = some ((y.group .sim).getD y.top)
  single : ∀ c, c = .atmos ∨ c = .tel ∨ c = .recon → p c = y.group c
  wfs : 0 < ng → ∃ cols lasers rows, p .wfs = some cols ∧ p .lgs = some lasers ∧ y.rows .wfs = some rows ∧ ∀ i, i < ng → ∃ r, rows.item i = .ok r ∧ SameWfs lib cols lasers i r
  objs : ∀ c n, (c = .dm ∧ n = nd) ∨ (c = .sci ∧ n = ns) → 0 < n → ∃ cols rows, p c = some cols ∧ y.rows c = some rows ∧ ∀ i, i < n → ∃ r, rows.item i = .ok r ∧ SameObj lib c cols i r.params

/-- The group `Sim` of the file asks for that many components. -/
def Asks (lib : Lib) (y : YamlFile) (ng nd ns : ℕ) : Prop :=
  ∀ a, loadObj lib .sim none ((y.group .sim).getD y.top) = .ok a → a "nGS" = some (.atom ng) ∧ a "nDM" = some (.atom nd) ∧ a "nSci" = some (.atom ns)

end Soapy.Load
