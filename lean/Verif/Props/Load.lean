/-
C92-C94: the two formats of configuration files.
-/
import Verif.Spec.Load
import Verif.Props.Config
import Mathlib.Algebra.BigOperators.Fin
import Mathlib.Algebra.BigOperators.Field
import Mathlib.Tactic.IntervalCases
import Mathlib.Tactic.Linarith
import Mathlib.Tactic.Positivity
import Mathlib.Tactic.Ring

namespace Soapy.Props

open Soapy Soapy.Conf Soapy.Load

theorem toOption_bind {α β : Type} {x y : Except PyErr α} {f g : α → Except PyErr β} (hx : x.toOption = y.toOption) (h : ∀ a, x = .ok a → (f a).toOption = (g a).toOption) : (x.bind f).toOption = (y.bind g).toOption := by
  cases x <;> cases y <;> simp_all [Except.toOption, Except.bind]

theorem forRange_congr {α : Type} (f g : ℕ → Except PyErr α) (n k : ℕ) (h : ∀ i, k ≤ i → i < k + n → (f i).toOption = (g i).toOption) : (forRange f k n).toOption = (forRange g k n).toOption := by
  induction n generalizing k with
  | zero => rfl
  | succ n ih =>
    unfold forRange
    refine toOption_bind (h k (by omega) (by omega)) fun x _ => toOption_bind (ih (k + 1) fun i h1 h2 => h i (by omega) (by omega)) fun xs _ => rfl

theorem fetch_same {cols : Group} {i : ℕ} {row : Group} {q : String} (h : SameParam cols i row q) : fetch cols (some i) q = fetch row none q := by
  rcases h with ⟨c, v, h1, h2, h3⟩ | ⟨h1 | ⟨c, h1, h2⟩, h3⟩ <;> simp [fetch, *]

theorem loadObj_same (lib : Lib) (c : Cls) {cols : Group} {i : ℕ} {row : Group} (h : SameObj lib c cols i row) : loadObj lib c (some i) cols = loadObj lib c none row := by
  unfold loadObj loadParams
  congr 1
  rw [foldE_congr (loadRequired (lib.schema c) cols (some i)) (loadRequired (lib.schema c) row none) _ (fun b p hp => by unfold loadRequired; rw [fetch_same (h p (Or.inl hp))])]
  congr 1
  funext b
  exact foldE_congr _ _ _ (fun b p hp => by unfold loadOptional; rw [fetch_same (h p.1 (Or.inr (List.mem_map_of_mem hp)))]) b

/-- **C92 (calculated parameters).** Every object of a configuration is what is calculated from the parameters of its section; if they cannot be read, or the calculation fails, there is no object. -/
theorem C92_calculated (lib : Lib) (c : Cls) (N : Option ℕ) (g : Group) (a : Attrs) :
    loadObj lib c N g = .ok a ↔ ∃ b, loadParams (lib.schema c) N g (fun _ => none) = .ok b ∧ lib.derive c b = .ok a := by
  unfold loadObj
  cases loadParams (lib.schema c) N g (fun _ => none) with
  | error e => simp [Except.bind]
  | ok b => simp [Except.bind]

theorem wfs_same (lib : Lib) (p : PyFile) (y : YamlFile) {cols lasers : Group} {rows : Rows} {i : ℕ} {r : Row} (h1 : p .wfs = some cols) (h2 : p .lgs = some lasers) (h3 : y.rows .wfs = some rows) (h4 : rows.item i = .ok r)
    (h : SameWfs lib cols lasers i r) (hdef : ∃ a, loadObj lib .lgs none (fun _ => none) = .ok a) : (pyWfs lib p i).toOption = (yamlWfs lib y i).toOption := by
  obtain ⟨hw, hl⟩ := h
  have ew := loadObj_same lib .wfs hw
  unfold pyWfs yamlWfs PyFile.group YamlFile.row pyLgs
  simp only [h1, h2, h3, h4, ew, bind, Except.bind, pure, Except.pure]
  rcases hl with ⟨c, v, g, e1, e2, e3, e4, e5⟩ | ⟨e1, e2, e3⟩
  · rw [loadObj_same lib .lgs e5, e4]
    simp only [fetch, e1, e2, e3]
    cases loadObj lib .lgs none g <;> cases loadObj lib .wfs none r.params <;> simp [Except.toOption]
  · obtain ⟨a, ha⟩ := hdef
    rw [loadObj_same lib .lgs e3, ha]
    cases loadObj lib .wfs none r.params with
    | error e => rcases e2 with e2 | e2 <;> simp [Except.toOption]
    | ok w =>
      rcases e1 with e1 | ⟨c, e1, e1' | ⟨v, e1', e1''⟩⟩ <;> rcases e2 with e2 | e2 <;> simp [Except.toOption, fetch, *]

theorem obj_same (lib : Lib) (p : PyFile) (y : YamlFile) (c : Cls) {cols : Group} {rows : Rows} {i : ℕ} {r : Row} (h1 : p c = some cols) (h3 : y.rows c = some rows) (h4 : rows.item i = .ok r) (h : SameObj lib c cols i r.params) :
    (pyObj lib p c i).toOption = (yamlObj lib y c i).toOption := by
  unfold pyObj yamlObj PyFile.group YamlFile.row
  simp only [h1, h3, h4, bind, Except.bind, loadObj_same lib c h]

/-- C92: files that describe the same system load in both formats or in neither, and to the same configuration.
The laser's parameters all have defaults, which load (confParse.py:922-933). -/
theorem C92_same (lib : Lib) (p : PyFile) (y : YamlFile) (ng nd ns : ℕ) (h : Same lib p y ng nd ns) (hn : Asks lib y ng nd ns) (hdef : ∃ a, loadObj lib .lgs none (fun _ => none) = .ok a) (c : Loaded) :
    loadPy lib p = .ok c ↔ loadYaml lib y = .ok c := by
  have key : (loadPy lib p).toOption = (loadYaml lib y).toOption := by
    have hs : ∀ c, c = .atmos ∨ c = .tel ∨ c = .recon → p.group c = y.get c := fun c hc => by
      unfold PyFile.group YamlFile.get; rw [h.single c hc]
    have ho : ∀ c n, (c = .dm ∧ n = nd) ∨ (c = .sci ∧ n = ns) → (forRange (pyObj lib p c) 0 n).toOption = (forRange (yamlObj lib y c) 0 n).toOption := fun c n hc => by
      refine forRange_congr _ _ n 0 fun i _ hi => ?_
      obtain ⟨cols, rows, e1, e2, e3⟩ := h.objs c n hc (by omega)
      obtain ⟨r, e4, e5⟩ := e3 i (by omega)
      exact obj_same lib p y c e1 e2 e4 e5
    have hw : (forRange (pyWfs lib p) 0 ng).toOption = (forRange (yamlWfs lib y) 0 ng).toOption := by
      refine forRange_congr _ _ ng 0 fun i _ hi => ?_
      obtain ⟨cols, lasers, rows, e1, e2, e3, e4⟩ := h.wfs (by omega)
      obtain ⟨r, e5, e6⟩ := e4 i (by omega)
      exact wfs_same lib p y e1 e2 e3 e5 e6 hdef
    have hsim : (p.group .sim).bind (loadObj lib .sim none) = loadObj lib .sim none ((y.group .sim).getD y.top) := by
      unfold PyFile.group; rw [h.sim]; rfl
    unfold loadPy loadYaml
    simp only [bind]
    rw [hsim, hs .atmos (by simp), hs .tel (by simp), hs .recon (by simp)]
    refine toOption_bind rfl fun sim hsim => ?_
    obtain ⟨n1, n2, n3⟩ := hn sim hsim
    refine toOption_bind rfl fun atmos _ => toOption_bind rfl fun tel _ => ?_
    simp only [count, n1, n2, n3, Except.bind]
    refine toOption_bind hw fun wfss _ => toOption_bind (ho .dm nd (by simp)) fun dms _ => toOption_bind rfl fun recon _ => toOption_bind (ho .sci ns (by simp)) fun scis _ => rfl
  constructor
  · intro hp
    rw [hp] at key
    cases hy : loadYaml lib y <;> simp_all [Except.toOption]
  · intro hy
    rw [hy] at key
    cases hp : loadPy lib p <;> simp_all [Except.toOption]

/-- C92: a number of guide stars that is not an integer (a list, a group) is refused by both formats with the same exception. -/
theorem C92_count (lib : Lib) (p : PyFile) (y : YamlFile) (sim atmos tel : Attrs) (hn : ∀ n, sim "nGS" ≠ some (.atom n)) :
    ((p.group .sim).bind (loadObj lib .sim none) = .ok sim → (p.group .atmos).bind (loadObj lib .atmos none) = .ok atmos → (p.group .tel).bind (loadObj lib .tel none) = .ok tel →
      loadPy lib p = .error (if (sim "nGS").isSome then .typeError else .attributeError)) ∧
    (loadObj lib .sim none ((y.group .sim).getD y.top) = .ok sim → (y.get .atmos).bind (loadObj lib .atmos none) = .ok atmos → (y.get .tel).bind (loadObj lib .tel none) = .ok tel →
      loadYaml lib y = .error (if (sim "nGS").isSome then .typeError else .attributeError)) := by
  have hc : count sim "nGS" = .error (if (sim "nGS").isSome then .typeError else .attributeError) := by
    unfold count
    cases h : sim "nGS" with
    | none => rfl
    | some v =>
      cases v with
      | atom n => exact absurd h (hn n)
      | seq l => rfl
      | dict d => rfl
  constructor
  · intro h1 h2 h3
    unfold loadPy
    simp only [bind]
    rw [h1, h2, h3]
    simp only [Except.bind, hc]
  · intro h1 h2 h3
    unfold loadYaml
    simp only [bind]
    rw [h1, h2, h3]
    simp only [Except.bind, hc]

/-- A YAML file without the section of the sensors, although it asks for some, is refused with a `KeyError`. -/
theorem C92_section (lib : Lib) (y : YamlFile) (sim atmos tel : Attrs) (n : ℕ) (hn : sim "nGS" = some (.atom (n + 1))) (h0 : y.rows .wfs = none)
    (h1 : loadObj lib .sim none ((y.group .sim).getD y.top) = .ok sim) (h2 : (y.get .atmos).bind (loadObj lib .atmos none) = .ok atmos) (h3 : (y.get .tel).bind (loadObj lib .tel none) = .ok tel) :
    loadYaml lib y = .error .keyError := by
  have hc : count sim "nGS" = .ok (n + 1) := by
    unfold count
    rw [hn]
  have hr : forRange (yamlWfs lib y) 0 (n + 1) = .error .keyError := by
    unfold forRange yamlWfs YamlFile.row
    rw [h0]
    rfl
  unfold loadYaml
  simp only [bind]
  rw [h1, h2, h3]
  simp only [Except.bind, hc, hr]

/-! Every YAML file can be written as a Python file. -/

/-- A column: the values of a parameter in those rows that have it. -/
def column (row : ℕ → Group) (n : ℕ) (q : String) : Val := .dict ((List.range n).filterMap fun i => (row i q).map fun v => (i, v))

theorem lookup_filterMap {α β : Type} (f : ℕ → Option α) (b : ℕ → α → β) (l : List ℕ) (i : ℕ) : (l.filterMap fun j => (f j).map fun v => (j, b j v)).lookup i = if i ∈ l then (f i).map (b i) else none := by
  induction l with
  | nil => simp
  | cons j l ih =>
    by_cases hij : i = j
    · subst hij
      cases hf : f i with
      | none => simp [hf, ih]
      | some v => simp [hf]
    · cases hf : f j with
      | none => simp [hf, ih, hij]
      | some v =>
        have hb : (i == j) = false := by simpa using hij
        simp only [List.filterMap_cons, hf, Option.map_some, List.lookup_cons, ih, List.mem_cons, hij, false_or, hb]

theorem column_item (row : ℕ → Group) (n i : ℕ) (hi : i < n) (q : String) : (column row n q).item i = match row i q with | some v => .ok v | none => .error .keyError := by
  unfold column Val.item
  have := lookup_filterMap (fun i => row i q) (fun _ v => v) (List.range n) i
  simp only [List.mem_range, hi, if_true] at this
  simp only [this]
  cases row i q <;> rfl

theorem column_same (row : ℕ → Group) (n i : ℕ) (hi : i < n) (q : String) (cols : Group) (hc : cols q = some (column row n q)) : SameParam cols i (row i) q := by
  have := column_item row n i hi q
  cases hr : row i q with
  | some v => rw [hr] at this; exact Or.inl ⟨_, v, hc, this, hr⟩
  | none => rw [hr] at this; exact Or.inr ⟨Or.inr ⟨_, hc, this⟩, hr⟩

/-- The parameters of row `i`, if there is one. -/
def rowParams (y : YamlFile) (c : Cls) (i : ℕ) : Group := match y.row c i with | .ok r => r.params | .error _ => fun _ => none

/-- The parameters of the laser in row `i`. -/
def rowLgs (y : YamlFile) (i : ℕ) : Option Group := match y.row .wfs i with | .ok r => (match r.lgs with | .group g => some g | _ => none) | .error _ => none

/-- The YAML file as a Python file. -/
def toPy (y : YamlFile) (ng nd ns : ℕ) : PyFile
  | .sim => some ((y.group .sim).getD y.top)
  | .atmos => y.group .atmos
  | .tel => y.group .tel
  | .recon => y.group .recon
  | .lgs => some fun q => some (column (fun i => (rowLgs y i).getD fun _ => none) ng q)
  | .wfs => some fun q => some (if q = "lgs" then column (fun i _ => (rowLgs y i).map fun _ => .atom 1) ng q else column (rowParams y .wfs) ng q)
  | .dm => some fun q => some (column (rowParams y .dm) nd q)
  | .sci => some fun q => some (column (rowParams y .sci) ns q)

/-- C92: a component that a YAML file does not list is refused: with an `IndexError` if the components are a list, with a `KeyError` if they are numbered or missing altogether. -/
theorem C92_missing (lib : Lib) (y : YamlFile) (c : Cls) (i : ℕ) :
    (∀ l, y.rows c = some (.seq l) → l.length ≤ i → yamlObj lib y c i = .error .indexError ∧ (c = .wfs → yamlWfs lib y i = .error .indexError)) ∧
    (∀ d, y.rows c = some (.dict d) → d.lookup i = none → yamlObj lib y c i = .error .keyError ∧ (c = .wfs → yamlWfs lib y i = .error .keyError)) ∧
    (y.rows c = none → yamlObj lib y c i = .error .keyError ∧ (c = .wfs → yamlWfs lib y i = .error .keyError)) := by
  refine ⟨fun l h hl => ?_, fun d h hd => ?_, fun h => ?_⟩
  · have hr : y.row c i = .error .indexError := by
      unfold YamlFile.row Rows.item
      rw [h]
      simp [List.getElem?_eq_none hl]
    refine ⟨by unfold yamlObj; rw [hr]; rfl, fun hc => ?_⟩
    subst hc
    unfold yamlWfs
    rw [hr]
    rfl
  · have hr : y.row c i = .error .keyError := by
      unfold YamlFile.row Rows.item
      rw [h]
      simp [hd]
    refine ⟨by unfold yamlObj; rw [hr]; rfl, fun hc => ?_⟩
    subst hc
    unfold yamlWfs
    rw [hr]
    rfl
  · have hr : y.row c i = .error .keyError := by
      unfold YamlFile.row
      rw [h]
    refine ⟨by unfold yamlObj; rw [hr]; rfl, fun hc => ?_⟩
    subst hc
    unfold yamlWfs
    rw [hr]
    rfl

/-- The second mirror of a file that lists one. -/
example (lib : Lib) (r : Row) : yamlObj lib ⟨fun _ => none, fun _ => none, fun _ => some (.seq [r])⟩ .dm 1 = .error .indexError := ((C92_missing lib _ .dm 1).1 [r] rfl (by simp)).1

/-- C92: every YAML file whose rows are there, and whose `lgs` are groups or `null`, has a Python file that describes the same system. -/
theorem C92_every (lib : Lib) (y : YamlFile) (ng nd ns : ℕ) (hlgs : ¬ Names lib .wfs "lgs")
    (hw : ∀ i, i < ng → ∃ r, y.row .wfs i = .ok r ∧ r.lgs ≠ .other) (hd : ∀ i, i < nd → ∃ r, y.row .dm i = .ok r) (hs : ∀ i, i < ns → ∃ r, y.row .sci i = .ok r) : ∃ p, Same lib p y ng nd ns := by
  have get : ∀ {c i r}, y.row c i = .ok r → ∃ rows, y.rows c = some rows ∧ rows.item i = .ok r := fun {c i r} h => by
    unfold YamlFile.row at h
    cases hr : y.rows c with
    | none => simp [hr] at h
    | some rows => exact ⟨rows, rfl, by simpa [hr] using h⟩
  have par : ∀ {c i r}, y.row c i = .ok r → rowParams y c i = r.params := fun {c i r} h => by simp [rowParams, h]
  refine ⟨toPy y ng nd ns, ⟨rfl, ?_, ?_, ?_⟩⟩
  · rintro c (rfl | rfl | rfl) <;> rfl
  · intro h0
    obtain ⟨r0, hr0, _⟩ := hw 0 h0
    obtain ⟨rows, hrows, _⟩ := get hr0
    refine ⟨_, _, rows, rfl, rfl, hrows, fun i hi => ?_⟩
    obtain ⟨r, hr, hne⟩ := hw i hi
    obtain ⟨rows', hrows', hit⟩ := get hr
    obtain rfl : rows = rows' := by rw [hrows] at hrows'; exact Option.some.inj hrows'
    refine ⟨r, hit, fun q hq => ?_, ?_⟩
    · have hqn : q ≠ "lgs" := fun e => hlgs (e ▸ hq)
      have := column_same (rowParams y .wfs) ng i hi q (fun q => some (if q = "lgs" then column (fun i _ => (rowLgs y i).map fun _ => .atom 1) ng q else column (rowParams y .wfs) ng q)) (by simp [hqn])
      rwa [par hr] at this
    · have hcol := column_item (fun i _ => (rowLgs y i).map fun _ => Val.atom 1) ng i hi "lgs"
      have hall : ∀ q, SameParam (fun q => some (column (fun i => (rowLgs y i).getD fun _ => none) ng q)) i ((rowLgs y i).getD fun _ => none) q :=
        fun q => column_same (fun i => (rowLgs y i).getD fun _ => none) ng i hi q _ rfl
      cases hl : r.lgs with
      | other => exact absurd hl hne
      | group g =>
        have hg : rowLgs y i = some g := by simp [rowLgs, hr, hl]
        simp only [hg, Option.map_some] at hcol
        refine Or.inl ⟨_, .atom 1, g, by simp, hcol, by simp [Val.truthy], rfl, fun q _ => ?_⟩
        simpa [hg] using hall q
      | absent =>
        have hg : rowLgs y i = none := by simp [rowLgs, hr, hl]
        simp only [hg, Option.map_none] at hcol
        refine Or.inr ⟨Or.inr ⟨_, by simp, Or.inl hcol⟩, Or.inl rfl, fun q _ => ?_⟩
        simpa [hg] using hall q
      | null =>
        have hg : rowLgs y i = none := by simp [rowLgs, hr, hl]
        simp only [hg, Option.map_none] at hcol
        refine Or.inr ⟨Or.inr ⟨_, by simp, Or.inl hcol⟩, Or.inr rfl, fun q _ => ?_⟩
        simpa [hg] using hall q
  · have obj : ∀ c n, (∀ i, i < n → ∃ r, y.row c i = .ok r) → toPy y ng nd ns c = some (fun q => some (column (rowParams y c) n q)) → 0 < n →
        ∃ cols rows, toPy y ng nd ns c = some cols ∧ y.rows c = some rows ∧ ∀ i, i < n → ∃ r, rows.item i = .ok r ∧ SameObj lib c cols i r.params := by
      intro c n hrow hpy h0
      obtain ⟨r0, hr0⟩ := hrow 0 h0
      obtain ⟨rows, hrows, _⟩ := get hr0
      refine ⟨_, rows, hpy, hrows, fun i hi => ?_⟩
      obtain ⟨r, hr⟩ := hrow i hi
      obtain ⟨rows', hrows', hit⟩ := get hr
      obtain rfl : rows = rows' := by rw [hrows] at hrows'; exact Option.some.inj hrows'
      refine ⟨r, hit, fun q _ => ?_⟩
      have := column_same (rowParams y c) n i hi q (fun q => some (column (rowParams y c) n q)) rfl
      rwa [par hr] at this
    rintro c n (⟨rfl, rfl⟩ | ⟨rfl, rfl⟩) h0
    · exact obj .dm n hd rfl h0
    · exact obj .sci n hs rfl h0

/-- Small classes for the examples. -/
def tiny : Lib where
  schema
    | .sim => ⟨["nGS"], [("nDM", .atom 0), ("nSci", .atom 0)], []⟩
    | .wfs => ⟨["wavelength"], [("GSHeight", .atom 0)], []⟩
    | .lgs => ⟨[], [("height", .atom 90)], []⟩
    | _ => ⟨[], [], []⟩
  derive _ a := .ok a
  finish c := .ok c

/-- Two sensors, the second with a laser. -/
def tinyYaml : YamlFile where
  top q := if q = "nGS" then some (.atom 2) else none
  group | .sim => none | _ => some fun _ => none
  rows
    | .wfs => some (.seq [⟨fun q => if q = "wavelength" then some (.atom 5) else none, .absent⟩, ⟨fun q => if q = "wavelength" then some (.atom 6) else if q = "GSHeight" then some (.atom 9) else none, .group fun q => if q = "height" then some (.atom 80) else none⟩])
    | _ => none

/-- The same in columns. -/
def tinyPy : PyFile
  | .sim => some fun q => if q = "nGS" then some (.atom 2) else none
  | .lgs => some fun q => if q = "height" then some (.dict [(1, .atom 80)]) else none
  | .wfs => some fun q => if q = "wavelength" then some (.seq [.atom 5, .atom 6]) else if q = "GSHeight" then some (.dict [(1, .atom 9)]) else if q = "lgs" then some (.seq [.atom 0, .atom 1]) else none
  | _ => some fun _ => none

/-- C92's hypotheses are met, and both load. -/
theorem tiny_same : Same tiny tinyPy tinyYaml 2 0 0 := by
  refine ⟨by simp [tinyPy, tinyYaml], ?_, fun _ => ⟨_, _, _, rfl, rfl, rfl, fun i hi => ?_⟩, ?_⟩
  · rintro c (rfl | rfl | rfl) <;> rfl
  · interval_cases i
    · refine ⟨_, rfl, fun q hq => ?_, Or.inr ⟨Or.inr ⟨.seq [.atom 0, .atom 1], by simp, Or.inr ⟨.atom 0, rfl, rfl⟩⟩, Or.inl rfl, fun q hq => ?_⟩⟩
      · simp only [Names, tiny, List.mem_cons, List.not_mem_nil, or_false, List.map_cons, List.map_nil] at hq
        rcases hq with rfl | rfl
        · exact Or.inl ⟨.seq [.atom 5, .atom 6], .atom 5, by simp, rfl, by simp⟩
        · exact Or.inr ⟨Or.inr ⟨.dict [(1, .atom 9)], by simp, rfl⟩, by simp⟩
      · simp only [Names, tiny, List.mem_cons, List.not_mem_nil, or_false, false_or, List.map_cons, List.map_nil] at hq
        subst hq
        exact Or.inr ⟨Or.inr ⟨.dict [(1, .atom 80)], by simp, rfl⟩, rfl⟩
    · refine ⟨_, rfl, fun q hq => ?_, Or.inl ⟨.seq [.atom 0, .atom 1], .atom 1, _, by simp, rfl, rfl, rfl, fun q hq => ?_⟩⟩
      · simp only [Names, tiny, List.mem_cons, List.not_mem_nil, or_false, List.map_cons, List.map_nil] at hq
        rcases hq with rfl | rfl
        · exact Or.inl ⟨.seq [.atom 5, .atom 6], .atom 6, by simp, rfl, by simp⟩
        · exact Or.inl ⟨.dict [(1, .atom 9)], .atom 9, by simp, rfl, by simp⟩
      · simp only [Names, tiny, List.mem_cons, List.not_mem_nil, or_false, false_or, List.map_cons, List.map_nil] at hq
        subst hq
        exact Or.inl ⟨.dict [(1, .atom 80)], .atom 80, by simp, rfl, by simp⟩
  · rintro c n (⟨rfl, rfl⟩ | ⟨rfl, rfl⟩) h0 <;> omega

theorem tiny_sim : ∃ a, loadObj tiny .sim none ((tinyYaml.group .sim).getD tinyYaml.top) = .ok a ∧ a "nGS" = some (.atom 2) ∧ a "nDM" = some (.atom 0) ∧ a "nSci" = some (.atom 0) := by
  refine ⟨_, rfl, ?_, ?_, ?_⟩ <;> simp

example : ∃ c, loadPy tiny tinyPy = .ok c ∧ loadYaml tiny tinyYaml = .ok c ∧ (∃ w l, c.wfss = [(w, none), l] ∧ w "wavelength" = some (.atom 5)) := by
  obtain ⟨a, ha, h1, h2, h3⟩ := tiny_sim
  have hask : Asks tiny tinyYaml 2 0 0 := fun b hb => by rw [ha] at hb; cases hb; exact ⟨h1, h2, h3⟩
  have hy : ∃ c, loadYaml tiny tinyYaml = .ok c ∧ (∃ w l, c.wfss = [(w, none), l] ∧ w "wavelength" = some (.atom 5)) := ⟨_, rfl, _, _, rfl, by simp⟩
  obtain ⟨c, hc, hx⟩ := hy
  exact ⟨c, (C92_same tiny tinyPy tinyYaml 2 0 0 tiny_same hask ⟨_, rfl⟩ c).mpr hc, hc, hx⟩

/-- A list where the number of guide stars should be. -/
example : loadYaml tiny { tinyYaml with top := fun q => if q = "nGS" then some (.seq [.atom 2]) else none } = .error .typeError := by
  have h := (C92_count tiny tinyPy { tinyYaml with top := fun q => if q = "nGS" then some (.seq [.atom 2]) else none } _ _ _ (fun n => ?_)).2 rfl rfl rfl
  · simpa using h
  · simp

/-- Two sensors asked for, none described. -/
example : loadYaml tiny { tinyYaml with rows := fun _ => none } = .error .keyError := C92_section tiny { tinyYaml with rows := fun _ => none } _ _ _ 1 (by simp) rfl rfl rfl rfl

/-- C92 fails for a sensor without a laser written as `lgs: False` in YAML: it cannot be loaded; in a Python file it means no laser. -/
theorem C92_false_violated (lib : Lib) (y : YamlFile) (a : Attrs) (n i : ℕ) (r : Row) (hs : loadObj lib .sim none ((y.group .sim).getD y.top) = .ok a) (hn : a "nGS" = some (.atom n)) (hi : i < n) (hr : y.row .wfs i = .ok r) (hl : r.lgs = .other) :
    (∀ c, loadYaml lib y ≠ .ok c) ∧ ∀ g : Group, g "lgs" = some (.seq (List.replicate n (.atom 0))) → pyLgs g i = .ok false := by
  constructor
  · intro c hc
    have bad : ∀ m k, k ≤ i → i < k + m → ∀ l, forRange (yamlWfs lib y) k m ≠ .ok l := by
      intro m
      induction m with
      | zero => intro k h1 h2; omega
      | succ m ih =>
        intro k h1 h2 l hl'
        unfold forRange at hl'
        by_cases hk : k = i
        · subst hk
          have : ∃ e, yamlWfs lib y k = .error e := by
            unfold yamlWfs
            simp only [hr, bind, Except.bind, hl]
            cases loadObj lib .wfs none r.params with
            | error e => exact ⟨e, rfl⟩
            | ok w => exact ⟨_, rfl⟩
          obtain ⟨e, he⟩ := this
          simp [he, Except.bind] at hl'
        · cases hf : yamlWfs lib y k with
          | error e => simp [hf, Except.bind] at hl'
          | ok x =>
            simp only [hf, Except.bind] at hl'
            cases hg : forRange (yamlWfs lib y) (k + 1) m with
            | error e => simp [hg] at hl'
            | ok xs => exact ih (k + 1) (by omega) (by omega) xs hg
    unfold loadYaml at hc
    simp only [bind, Except.bind, hs] at hc
    cases h1 : (y.get .atmos).bind (loadObj lib .atmos none) with
    | error e => simp [Except.bind] at h1; simp [h1] at hc
    | ok b1 =>
      simp only [Except.bind] at h1
      simp only [h1] at hc
      cases h2 : (y.get .tel).bind (loadObj lib .tel none) with
      | error e => simp [Except.bind] at h2; simp [h2] at hc
      | ok b2 =>
        simp only [Except.bind] at h2
        simp only [h2, count, hn] at hc
        cases h3 : forRange (yamlWfs lib y) 0 n with
        | error e => simp [h3] at hc
        | ok l => exact bad n 0 (by omega) (by omega) l h3
  · intro g hg
    simp [pyLgs, fetch, hg, Val.item, hi, Val.truthy]

/-- With such a row. -/
example : ∃ y : YamlFile, ∃ a r, loadObj tiny .sim none ((y.group .sim).getD y.top) = .ok a ∧ a "nGS" = some (.atom 1) ∧ y.row .wfs 0 = .ok r ∧ r.lgs = .other :=
  ⟨⟨fun _ => none, fun _ => some fun q => if q = "nGS" then some (.atom 1) else none, fun _ => some (.seq [⟨fun _ => none, .other⟩])⟩, _, ⟨fun _ => none, .other⟩, rfl, by simp, rfl, rfl⟩

/-! C93 -/

/-- The file loaded alone, in a new process. -/
def alone (lib : Lib) : Script ⊕ YamlFile → Except PyErr Loaded
  | .inl f => (openPy lib none f).1
  | .inr y => loadYaml lib y

/-- C93, the part that holds: if every Python file sets `simConfiguration` to something of its own, each file of a session loads as if alone, whatever was loaded before. -/
theorem C93_partial (lib : Lib) (g : Option PyFile) (fs : List (Script ⊕ YamlFile)) (h : ∀ f, .inl f ∈ fs → ∀ g, f g = f none) : session lib g fs = fs.map (alone lib) := by
  induction fs generalizing g with
  | nil => rfl
  | cons x fs ih =>
    have ih' := fun g => ih g fun f hf => h f (List.mem_cons_of_mem _ hf)
    cases x with
    | inl f =>
      have hf : openPy lib g f = openPy lib none f := by unfold openPy; rw [h f (by simp) g]
      simp only [session, List.map_cons, alone, ih', hf]
    | inr y => simp only [session, List.map_cons, alone, ih']

example : ∃ f : Script, (∀ g, f g = f none) ∧ ∃ c, alone tiny (.inl f) = .ok c := ⟨fun _ => (some tinyPy, false), fun _ => rfl, _, rfl⟩

/-- C93 fails: a Python file that does not set `simConfiguration` (an empty file, a misspelt name) fails alone, but after another file it silently loads that other file's configuration, also when YAML files were loaded in between. -/
theorem C93_violated (lib : Lib) (p : PyFile) (f : Script) (hf : ∀ g, f g = (g, false)) :
    alone lib (.inl f) = .error .nameError ∧ session lib none [.inl fun _ => (some p, false), .inl f] = [loadPy lib p, loadPy lib p] ∧
      ∀ ys : List YamlFile, session lib none ((.inl fun _ => (some p, false)) :: (ys.map .inr ++ [.inl f])) = loadPy lib p :: (ys.map (loadYaml lib) ++ [loadPy lib p]) := by
  refine ⟨by simp [alone, openPy, hf], by simp [session, openPy, hf], fun ys => ?_⟩
  simp only [session, openPy, List.cons.injEq, true_and]
  induction ys with
  | nil => simp [session, openPy, hf]
  | cons y ys ih => simp [session, ih]

example : ∃ c, session tiny none [.inl fun _ => (some tinyPy, false), .inl fun g => (g, false)] = [.ok c, .ok c] := ⟨_, (C93_violated tiny tinyPy _ fun _ => rfl).2.1⟩

/-! C94 -/

/-- Python's `==` of numbers: an integer equals the float of its value; a string equals no number. -/
def sameNumber : Scalar → Scalar → Prop
  | .int a, .int b => a = b
  | .int a, .float b => (a : ℚ) = b
  | .float a, .int b => a = (b : ℚ)
  | .float a, .float b => a = b
  | _, _ => False

theorem value_int {l : Lit} (h1 : l.frac = none) (h2 : l.exp = none) : l.value = (l.int : ℚ) := by
  unfold Lit.value Lit.int
  rw [h1, h2]
  cases l.neg <;> simp [decimals]

/-- C94: a number means the same in both formats exactly if the parameter is one of the six that are converted, or it is written without exponent, or with a point and a signed exponent. -/
theorem C94_exact (c : Cls) (name : String) (l : Lit) :
    sameNumber (afterCalc c name (yamlScalar l)) (afterCalc c name (pyScalar l)) ↔
      (c, name) ∈ [(Cls.wfs, "wavelength"), (.lgs, "wavelength"), (.lgs, "height"), (.dm, "iMatValue"), (.dm, "svdConditioning"), (.sci, "wavelength")] ∨ l.exp = none ∨ (l.frac ≠ none ∧ ∃ s k, l.exp = some (some s, k)) := by
  unfold afterCalc
  change _ ↔ (c, name) ∈ converted ∨ _
  by_cases hc : (c, name) ∈ converted
  · simp only [hc, if_true, true_or, iff_true]
    unfold yamlScalar pyScalar
    rcases h1 : l.frac with _ | f <;> rcases h2 : l.exp with _ | ⟨_ | s, k⟩ <;> simp [toFloat, sameNumber]
  · simp only [hc, if_false, false_or]
    unfold yamlScalar pyScalar
    rcases h1 : l.frac with _ | f <;> rcases h2 : l.exp with _ | ⟨_ | s, k⟩ <;> simp [sameNumber]

/-- The value is the number written, for the converted parameters. -/
theorem C94_value (c : Cls) (name : String) (h : (c, name) ∈ [(Cls.wfs, "wavelength"), (.lgs, "wavelength"), (.lgs, "height"), (.dm, "iMatValue"), (.dm, "svdConditioning"), (.sci, "wavelength")]) (l : Lit) :
    afterCalc c name (yamlScalar l) = .float l.value ∧ afterCalc c name (pyScalar l) = .float l.value := by
  have hc : (c, name) ∈ converted := h
  simp only [afterCalc, hc, if_true]
  unfold yamlScalar pyScalar
  rcases h1 : l.frac with _ | f <;> rcases h2 : l.exp with _ | ⟨_ | s, k⟩ <;> simp [toFloat, value_int, h1, h2]

/-- The decimals of a literal mean what they mean: digit `k` after the point counts `10 ^ -(k + 1)`. -/
theorem C94_decimals (ds : List (Fin 10)) : decimals ds = ∑ k : Fin ds.length, ((ds[k].val : ℕ) : ℚ) / 10 ^ (k.val + 1) := by
  induction ds with
  | nil => simp [decimals]
  | cons d ds ih =>
    simp only [decimals, ih, List.length_cons]
    rw [Fin.sum_univ_succ, add_div, Finset.sum_div]
    congr 1
    simp only [List.getElem_cons_succ, Fin.val_succ, Fin.getElem_fin]
    refine Finset.sum_congr rfl fun k _ => ?_
    rw [div_div, ← pow_succ]

/-- `12.05` is 12 and 5 hundredths. -/
example : (⟨false, 12, some [0, 5], none⟩ : Lit).value = 1205 / 100 := by norm_num [Lit.value, decimals]

/-- `600e-9` is the wavelength 6 × 10⁻⁷ in both. -/
example : afterCalc .wfs "wavelength" (yamlScalar ⟨false, 600, none, some (some true, 9)⟩) = .float (6 / 10000000) := by
  rw [(C94_value .wfs "wavelength" (by simp) _).1]; norm_num [Lit.value, decimals]

/-- C94 fails: `loopTime: 2e-3`, `r0: 1e-1`, `svdConditioning: 1e-3` of the reconstructor, `photometric_zp: 2e9` are strings in YAML. -/
theorem C94_violated : ∀ x ∈ [(Cls.sim, "loopTime", (⟨false, 2, none, some (some true, 3)⟩ : Lit)), (.atmos, "r0", ⟨false, 1, none, some (some true, 1)⟩), (.recon, "svdConditioning", ⟨false, 1, none, some (some true, 3)⟩), (.wfs, "photometric_zp", ⟨false, 2, none, some (none, 9)⟩)],
    afterCalc x.1 x.2.1 (yamlScalar x.2.2) = .str x.2.2 ∧ ¬ sameNumber (afterCalc x.1 x.2.1 (yamlScalar x.2.2)) (afterCalc x.1 x.2.1 (pyScalar x.2.2)) := by
  intro x hx
  rw [C94_exact]
  simp only [List.mem_cons, List.not_mem_nil, or_false] at hx
  rcases hx with rfl | rfl | rfl | rfl <;> simp [afterCalc, converted, yamlScalar]

end Soapy.Props
