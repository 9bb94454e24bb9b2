/-
C108: a parameter that is left out has its documented default.
-/
import Verif.Model.Defaults

namespace Soapy.Props

open Soapy.Load Soapy.Defaults

/-- The documented defaults that are not those of the code, with both values: documented, then real. -/
def wrongDefaults : List ((Cls × String) × D × D) :=
  [((.sim, "simOversize"), .num (6 / 5), .num (51 / 50)), ((.lgs, "propagationMode"), .str "Phsyical", .str "Physical"), ((.lgs, "fftwThreads"), .num 1, .num 0),
    ((.wfs, "removeTT"), .bool false, .str "False"), ((.wfs, "lgs"), .bool false, .none), ((.wfs, "centThreshold"), .num (1 / 10), .num 0), ((.wfs, "nb_of_photon"), .num 36000, .none),
    ((.dm, "wfs"), .num 0, .none), ((.dm, "gauss_width"), .num 1, .num (7 / 10))]

/-- Parameters documented as required that may be left out. -/
def notRequired : List ((Cls × String) × D) :=
  [((.dm, "nxActuators"), .none), ((.dm, "gain"), .num (3 / 5)), ((.dm, "svdConditioning"), .num 0), ((.sci, "FOV"), .none)]

private theorem table : ∀ c, ∀ p ∈ docOptional c, (c, p.1) ∉ wrongDefaults.map Prod.fst → (codeOptional c).reverse.lookup p.1 = some p.2 := by
  intro c
  cases c <;> decide +kernel

private theorem table_wrong : ∀ e ∈ wrongDefaults, (e.1.2, e.2.1) ∈ docOptional e.1.1 ∧ (codeOptional e.1.1).reverse.lookup e.1.2 = some e.2.2 ∧ e.2.1 ≠ e.2.2 := by decide +kernel

private theorem table_all : ∀ c, ∀ p ∈ docOptional c, ((codeOptional c).reverse.lookup p.1).isSome := by
  intro c
  cases c <;> decide +kernel

private theorem table_required : ∀ c, ∀ n ∈ docRequired c, (c, n) ∉ notRequired.map Prod.fst → n ∈ codeRequired c ∧ (codeOptional c).reverse.lookup n = none := by
  intro c
  cases c <;> decide +kernel

private theorem table_notRequired : ∀ e ∈ notRequired, e.1.2 ∈ docRequired e.1.1 ∧ (codeOptional e.1.1).reverse.lookup e.1.2 = some e.2 := by decide +kernel

/-- **C108 (default).** A parameter that is left out has the documented default, but for the nine of `wrongDefaults`. -/
theorem C108_default_partial {α : Type} (dflt : D → α) (c : Cls) (name : String) (d : D) (hd : (name, d) ∈ docOptional c) (he : (c, name) ∉ wrongDefaults.map Prod.fst)
    (file : String → Option α) (hf : file name = none) : loaded dflt c file name = some (.ok (dflt d)) := by
  have := table c _ hd he
  simp only at this
  simp [loaded, this, hf]

/-- **C108 (violated).** The nine have another default than documented, for every file. -/
theorem C108_default_violated {α : Type} (dflt : D → α) (e : (Cls × String) × D × D) (he : e ∈ wrongDefaults) (file : String → Option α) (hf : file e.1.2 = none) :
    (e.1.2, e.2.1) ∈ docOptional e.1.1 ∧ loaded dflt e.1.1 file e.1.2 = some (.ok (dflt e.2.2)) ∧ e.2.1 ≠ e.2.2 := by
  obtain ⟨h1, h2, h3⟩ := table_wrong e he
  exact ⟨h1, by simp [loaded, h2, hf], h3⟩

/-- **C108 (given).** A documented parameter, optional or required, that is given has the given value. -/
theorem C108_given {α : Type} (dflt : D → α) (c : Cls) (name : String) (hd : name ∈ (docOptional c).map Prod.fst ∨ name ∈ docRequired c) (file : String → Option α) (v : α) (hf : file name = some v) :
    loaded dflt c file name = some (.ok v) := by
  have opt : ((codeOptional c).reverse.lookup name).isSome → loaded dflt c file name = some (.ok v) := fun h => by
    obtain ⟨d, hd⟩ := Option.isSome_iff_exists.mp h
    simp [loaded, hd, hf]
  rcases hd with hd | hd
  · obtain ⟨p, hp, rfl⟩ := List.mem_map.mp hd
    exact opt (table_all c p hp)
  · by_cases hn : (c, name) ∈ notRequired.map Prod.fst
    · obtain ⟨e, he, h⟩ := List.mem_map.mp hn
      have := (table_notRequired e he).2
      rw [h] at this
      exact opt (by simp [this])
    · obtain ⟨h1, h2⟩ := table_required c name hd hn
      simp [loaded, h2, h1, hf]

/-- **C108 (required).** Without a parameter documented as required the file is refused, but for the four of `notRequired`. -/
theorem C108_required_partial {α : Type} (dflt : D → α) (c : Cls) (name : String) (hd : name ∈ docRequired c) (he : (c, name) ∉ notRequired.map Prod.fst) (file : String → Option α) (hf : file name = none) :
    loaded dflt c file name = some (.error .configurationError) := by
  obtain ⟨h1, h2⟩ := table_required c name hd he
  simp [loaded, h2, h1, hf]

/-- **C108 (violated).** The four get a default that is documented nowhere. -/
theorem C108_required_violated {α : Type} (dflt : D → α) (e : (Cls × String) × D) (he : e ∈ notRequired) (file : String → Option α) (hf : file e.1.2 = none) :
    e.1.2 ∈ docRequired e.1.1 ∧ loaded dflt e.1.1 file e.1.2 = some (.ok (dflt e.2)) := by
  obtain ⟨h1, h2⟩ := table_notRequired e he
  exact ⟨h1, by simp [loaded, h2, hf]⟩

/-- Parameters that are accepted but documented nowhere. -/
def undocumented : List (Cls × String) := [(.sim, "gain"), (.sim, "saveLgsPsf"), (.sim, "saveLearn"), (.dm, "dmShapesFilename")]

private theorem table_doc : ∀ c, ∀ n ∈ keys c, ((c, n) ∉ undocumented ↔ n ∈ (docOptional c).map Prod.fst ++ docRequired c) := by
  intro c
  cases c <;> decide +kernel

private theorem table_keys : ∀ c, (∀ p ∈ codeOptional c, p.1 ∈ keys c) ∧ (∀ n ∈ codeRequired c, n ∈ keys c) := by
  intro c
  cases c <;> decide +kernel

private theorem lookup_mem {l : List (String × D)} {n : String} {d : D} (h : l.lookup n = some d) : (n, d) ∈ l := by
  induction l with
  | nil => simp at h
  | cons a l ih =>
    obtain ⟨k, v⟩ := a
    rw [List.lookup_cons] at h
    by_cases hk : n = k
    · subst hk
      rw [beq_self_eq_true] at h
      cases h
      exact List.mem_cons_self
    · rw [beq_false_of_ne hk] at h
      exact List.mem_cons_of_mem _ (ih h)

/-- **C108 (documented).** What can be set is documented, but for the four of `undocumented` (one of them without a default). -/
theorem C108_documented_partial {α : Type} (dflt : D → α) (c : Cls) (name : String) (file : String → Option α) (h : loaded dflt c file name ≠ none) (hn : (c, name) ∉ undocumented) :
    name ∈ (docOptional c).map Prod.fst ∨ name ∈ docRequired c := by
  have hk : name ∈ keys c := by
    unfold loaded at h
    cases hl : (codeOptional c).reverse.lookup name with
    | some d => exact (table_keys c).1 (name, d) (by simpa using lookup_mem hl)
    | none =>
      by_cases hr : name ∈ codeRequired c
      · exact (table_keys c).2 name hr
      · simp [hl, hr] at h
  simpa using (table_doc c name hk).mp hn

/-- The length of a configuration is the number of its parameters, except for a sensor: `angleEquivNoise` is listed twice. -/
theorem C108_length : (∀ c, c ≠ .wfs → Defaults.length c = (keys c).length) ∧ Defaults.length .wfs = (keys .wfs).length + 1 := by
  refine ⟨fun c hc => ?_, by decide +kernel⟩
  cases c <;> first | exact absurd rfl hc | decide +kernel

/-- A sensor without `fftOversamp`, with `subapFOV = 2`. -/
example : loaded some .wfs (fun n => if n = "subapFOV" then some (some (.num 2)) else none) "fftOversamp" = some (.ok (some (.num 3))) :=
  C108_default_partial some .wfs "fftOversamp" (.num 3) (by decide +kernel) (by decide +kernel) _ (by decide)

example : loaded some .wfs (fun n => if n = "subapFOV" then some (some (.num 2)) else none) "subapFOV" = some (.ok (some (.num 2))) :=
  C108_given some .wfs "subapFOV" (by decide +kernel) _ _ (by decide)

example : loaded some .wfs (fun n => if n = "subapFOV" then some (some (.num 2)) else none) "wavelength" = some (.error .configurationError) :=
  C108_required_partial some .wfs "wavelength" (by decide +kernel) (by decide +kernel) _ (by decide)

end Soapy.Props
