/-
C127: a configuration written out with `dict` and read again.
-/
import Verif.Model.Dump
import Verif.Props.Load
import Verif.Model.Defaults

namespace Soapy.Props

open Soapy Soapy.Conf Soapy.Load Soapy.Dump

/-- All parameters of the class are set. -/
def Full (s : Schema) (a : Attrs) : Prop := ∀ q, q ∈ s.required ∨ q ∈ s.optional.map Prod.fst → ∃ v, a q = some v

/-- The parameters of an object without the calculated ones. -/
def paramsOf (s : Schema) (a : Attrs) : Attrs := fun q => if q ∈ s.required ∨ q ∈ s.optional.map Prod.fst then a q else none

private theorem mapE_pair (a : Attrs) (l : List String) (h : ∀ q ∈ l, ∃ v, a q = some v) :
    ∃ r, mapE (pair a) l = .ok r ∧ r.map Prod.fst = l ∧ ∀ x ∈ r, a x.1 = some x.2 := by
  induction l with
  | nil => exact ⟨[], rfl, rfl, by simp⟩
  | cons p l ih =>
    obtain ⟨v, hv⟩ := h p (by simp)
    obtain ⟨r, h1, h2, h3⟩ := ih fun q hq => h q (by simp [hq])
    refine ⟨(p, v) :: r, by simp [mapE, pair, hv, h1, Except.bind], by simp [h2], ?_⟩
    intro x hx
    rcases List.mem_cons.mp hx with rfl | hx
    · exact hv
    · exact h3 x hx

private theorem lookup_of {a : Attrs} (r : List (String × Val)) (h : ∀ x ∈ r, a x.1 = some x.2) (q : String) : r.lookup q = if q ∈ r.map Prod.fst then a q else none := by
  induction r with
  | nil => simp
  | cons x r ih =>
    obtain ⟨p, v⟩ := x
    have ih := ih fun y hy => h y (by simp [hy])
    rw [List.lookup_cons]
    by_cases hq : q = p
    · subst hq; simpa using (h (q, v) (by simp)).symm
    · have : (q == p) = false := by simpa using hq
      rw [this]
      simp only [List.map_cons, List.mem_cons, hq, false_or, ih]

/-- What `dict` of an object holds. -/
theorem dictObj_eq (s : Schema) (a : Attrs) (h : Full s a) : dictObj s a = .ok (paramsOf s a) := by
  obtain ⟨r, h1, h2, h3⟩ := mapE_pair a (names s) (fun q hq => h q (by simpa [names] using hq))
  unfold dictObj
  rw [h1]
  simp only [Except.bind, Except.ok.injEq]
  funext q
  unfold ofPairs paramsOf
  rw [lookup_of r.reverse (fun x hx => h3 x (List.mem_reverse.mp hx)), List.map_reverse, h2]
  simp only [names, List.mem_reverse, List.mem_append]

/-- Reading the parameters of an object gives them back. -/
theorem loadParams_params (s : Schema) (a : Attrs) (h : Full s a) (hdef : ∀ p ∈ s.optional, ∀ q ∈ s.optional, p.1 = q.1 → p.2 = q.2) (hdis : ∀ p ∈ s.optional, p.1 ∉ s.required)
    (g : Group) (hg : ∀ q, q ∈ s.required ∨ q ∈ s.optional.map Prod.fst → g q = a q) : loadParams s none g (fun _ => none) = .ok (paramsOf s a) := by
  have he : ∀ q, q ∈ s.required ∨ q ∈ s.optional.map Prod.fst → ∃ v, a q = some v ∧ entry g none q = .value v := by
    intro q hq
    obtain ⟨v, hv⟩ := h q hq
    exact ⟨v, hv, by simp [entry, hg q hq, hv]⟩
  obtain ⟨b, h1, h2, h3, h4⟩ := (C36_load s none g (fun _ => none) hdef hdis).1
    ⟨fun p hp => (he p (.inl hp)).imp fun v hv => hv.2, fun p hp => by obtain ⟨v, _, e⟩ := he p.1 (.inr (List.mem_map_of_mem hp)); rw [e]; simp⟩
  rw [h1]
  congr 1
  funext q
  unfold paramsOf
  split_ifs with hq
  · obtain ⟨v, e1, e2⟩ := he q hq
    rw [e1]
    rcases hq with hq | hq
    · exact h2 q hq v e2
    · obtain ⟨p, hp, rfl⟩ := List.mem_map.mp hq
      exact (h3 p hp).1 v e2
  · push Not at hq
    exact h4 q hq.1 hq.2

/-- **C127 (every parameter is there).**  `dict` of an object holds every parameter with its value, and no calculated one; read again it gives the same parameters. -/
theorem C127_object (s : Schema) (a : Attrs) (h : Full s a) (hdef : ∀ p ∈ s.optional, ∀ q ∈ s.optional, p.1 = q.1 → p.2 = q.2) (hdis : ∀ p ∈ s.optional, p.1 ∉ s.required) :
    ∃ g, dictObj s a = .ok g ∧ (∀ q, q ∈ s.required ∨ q ∈ s.optional.map Prod.fst → g q = a q ∧ g q ≠ none) ∧ (∀ q, q ∉ s.required → q ∉ s.optional.map Prod.fst → g q = none) ∧
      ∃ b, loadParams s none g (fun _ => none) = .ok b ∧ ∀ q, q ∈ s.required ∨ q ∈ s.optional.map Prod.fst → b q = a q := by
  refine ⟨_, dictObj_eq s a h, ?_, ?_, _, loadParams_params s a h hdef hdis _ ?_, ?_⟩
  · intro q hq
    obtain ⟨v, hv⟩ := h q hq
    rw [paramsOf, if_pos hq, hv]; simp
  · intro q h1 h2; simp [paramsOf, h1, h2]
  · intro q hq; rw [paramsOf, if_pos hq]
  · intro q hq; rw [paramsOf, if_pos hq]

/-- **C127 (unset parameters).**  `dict` of an object with a parameter that was never set raises `KeyError`. -/
theorem C127_unset (s : Schema) (a : Attrs) (h : ¬ Full s a) : dictObj s a = .error .keyError := by
  have : ∀ l : List String, (∃ q ∈ l, a q = none) → mapE (pair a) l = .error .keyError := by
    intro l
    induction l with
    | nil => rintro ⟨q, hq, _⟩; simp at hq
    | cons p l ih =>
      rintro ⟨q, hq, hn⟩
      unfold mapE pair
      cases hp : a p with
      | none => rfl
      | some v =>
        have hq : q ∈ l := by
          rcases List.mem_cons.mp hq with rfl | hq
          · rw [hp] at hn; cases hn
          · exact hq
        simp only [Except.bind]
        have := ih ⟨q, hq, hn⟩
        unfold pair at this
        rw [this]
  unfold dictObj
  rw [this]
  · rfl
  · unfold Full at h
    push Not at h
    obtain ⟨q, hq, hn⟩ := h
    refine ⟨q, by simpa [names] using hq, ?_⟩
    cases hv : a q with
    | none => rfl
    | some v => exact absurd hv (hn v)

/-- Something holds for every object. -/
structure AllObjs (P : Cls → Attrs → Prop) (c : Loaded) : Prop where
  sim : P .sim c.sim
  atmos : P .atmos c.atmos
  tel : P .tel c.tel
  recon : P .recon c.recon
  wfss : ∀ w ∈ c.wfss, P .wfs w.1 ∧ ∀ l, w.2 = some l → P .lgs l
  dms : ∀ d ∈ c.dms, P .dm d
  scis : ∀ d ∈ c.scis, P .sci d

/-- The object is what its class calculates from parameters and nothing else. -/
def Made (lib : Lib) (k : Cls) (b : Attrs) : Prop :=
  ∃ a, Full (lib.schema k) a ∧ (∀ q, q ∉ (lib.schema k).required → q ∉ (lib.schema k).optional.map Prod.fst → a q = none) ∧ lib.derive k a = .ok b

/-- The objects of `e` are calculated from the parameters of those of `d`. -/
structure Rederived (lib : Lib) (d e : Loaded) : Prop where
  sim : lib.derive .sim (paramsOf (lib.schema .sim) d.sim) = .ok e.sim
  atmos : lib.derive .atmos (paramsOf (lib.schema .atmos) d.atmos) = .ok e.atmos
  tel : lib.derive .tel (paramsOf (lib.schema .tel) d.tel) = .ok e.tel
  recon : lib.derive .recon (paramsOf (lib.schema .recon) d.recon) = .ok e.recon
  wfss : List.Forall₂ (fun w v => lib.derive .wfs (paramsOf (lib.schema .wfs) w.1) = .ok v.1 ∧ (w.2 = none → v.2 = none) ∧ ∀ l, w.2 = some l → ∃ m, v.2 = some m ∧ lib.derive .lgs (paramsOf (lib.schema .lgs) l) = .ok m) d.wfss e.wfss
  dms : List.Forall₂ (fun a b => lib.derive .dm (paramsOf (lib.schema .dm) a) = .ok b) d.dms e.dms
  scis : List.Forall₂ (fun a b => lib.derive .sci (paramsOf (lib.schema .sci) a) = .ok b) d.scis e.scis

/-- What C127 needs of the classes and calculations of confParse.py: names have one default, the numbers of components are parameters, nothing unsets an attribute or changes how many components there are,
and calculating again from the parameters of a finished configuration ends with the same configuration. -/
structure Stands (lib : Lib) : Prop where
  defaults : ∀ c, ∀ p ∈ (lib.schema c).optional, ∀ q ∈ (lib.schema c).optional, p.1 = q.1 → p.2 = q.2
  apart : ∀ c, ∀ p ∈ (lib.schema c).optional, p.1 ∉ (lib.schema c).required
  counts : ∀ n ∈ ["nGS", "nDM", "nSci"], n ∈ (lib.schema .sim).required ∨ n ∈ (lib.schema .sim).optional.map Prod.fst
  derive_keeps : ∀ c a b, lib.derive c a = .ok b → Full (lib.schema c) a → Full (lib.schema c) b
  derive_counts : ∀ a b, lib.derive .sim a = .ok b → ∀ n ∈ ["nGS", "nDM", "nSci"], b n = a n
  finish_lengths : ∀ c d, lib.finish c = .ok d → d.wfss.length = c.wfss.length ∧ d.dms.length = c.dms.length ∧ d.scis.length = c.scis.length
  finish_counts : ∀ c d, lib.finish c = .ok d → ∀ n ∈ ["nGS", "nDM", "nSci"], d.sim n = c.sim n
  finish_keeps : ∀ c d, lib.finish c = .ok d → AllObjs (fun k => Full (lib.schema k)) c → AllObjs (fun k => Full (lib.schema k)) d
  again : ∀ c d, lib.finish c = .ok d → AllObjs (Made lib) c → ∃ e, Rederived lib d e ∧ lib.finish e = .ok d

private theorem loadObj_full {lib : Lib} (hs : Stands lib) {c : Cls} {N : Option ℕ} {g : Group} {b : Attrs} (h : loadObj lib c N g = .ok b) : Made lib c b := by
  unfold loadObj at h
  obtain ⟨l1, l2⟩ := C36_load (lib.schema c) N g (fun _ => none) (hs.defaults c) (hs.apart c)
  by_cases hc : (∀ p ∈ (lib.schema c).required, ∃ v, entry g N p = .value v) ∧ (∀ p ∈ (lib.schema c).optional, entry g N p.1 ≠ .unusable)
  · obtain ⟨a, h1, h2, h3, h4⟩ := l1 hc
    rw [h1] at h
    refine ⟨a, ?_, h4, h⟩
    rintro q (hq | hq)
    · obtain ⟨v, hv⟩ := hc.1 q hq
      exact ⟨v, h2 q hq v hv⟩
    · obtain ⟨p, hp, rfl⟩ := List.mem_map.mp hq
      cases he : entry g N p.1 with
      | value v => exact ⟨v, (h3 p hp).1 v he⟩
      | missing => exact ⟨_, (h3 p hp).2 he⟩
      | unusable => exact absurd he (hc.2 p hp)
  · rw [l2 hc] at h
    cases h

private theorem made_full {lib : Lib} (hs : Stands lib) {k : Cls} {b : Attrs} (h : Made lib k b) : Full (lib.schema k) b := by
  obtain ⟨a, h1, _, h2⟩ := h
  exact hs.derive_keeps k a b h2 h1

private theorem bind_ok {α β : Type} {x : Except PyErr α} {f : α → Except PyErr β} {b : β} (h : x.bind f = .ok b) : ∃ a, x = .ok a ∧ f a = .ok b := by
  cases x with
  | error e => cases h
  | ok a => exact ⟨a, rfl, h⟩

private theorem forRange_ok {α : Type} (f : ℕ → Except PyErr α) (n k : ℕ) (l : List α) : forRange f k n = .ok l ↔ l.length = n ∧ ∀ i (h : i < l.length), f (k + i) = .ok l[i] := by
  induction n generalizing k l with
  | zero =>
    simp only [forRange, Except.ok.injEq]
    constructor
    · rintro rfl; simp
    · rintro ⟨h, _⟩; exact (List.length_eq_zero_iff.mp h).symm
  | succ n ih =>
    constructor
    · intro h
      obtain ⟨x, hx, h⟩ := bind_ok h
      obtain ⟨xs, hxs, h⟩ := bind_ok h
      obtain ⟨h1, h2⟩ := (ih (k + 1) xs).mp hxs
      cases h
      refine ⟨by simp [h1], fun i hi => ?_⟩
      cases i with
      | zero => simpa using hx
      | succ i =>
        have := h2 i (by simpa using hi)
        rw [show k + 1 + i = k + (i + 1) by ring] at this
        simpa using this
    · rintro ⟨h1, h2⟩
      cases l with
      | nil => simp at h1
      | cons x xs =>
        have e0 := h2 0 (by simp)
        simp only [Nat.add_zero, List.getElem_cons_zero] at e0
        have es := (ih (k + 1) xs).mpr ⟨by simpa using h1, fun i hi => by
          have := h2 (i + 1) (by simpa using hi)
          rw [show k + (i + 1) = k + 1 + i by ring] at this
          simpa using this⟩
        simp [forRange, e0, es, Except.bind]

private theorem count_ok {a : Attrs} {n : String} {k : ℕ} (h : count a n = .ok k) : a n = some (.atom k) := by
  unfold count at h
  split at h
  · rename_i m hm; cases h; exact hm
  · cases h
  · cases h

/-- What is known of a configuration that was loaded: it comes from `finish`, and its objects have all parameters and are as many as `sim` says. -/
private def Origin (lib : Lib) (d : Loaded) : Prop :=
  ∃ c, lib.finish c = .ok d ∧ AllObjs (Made lib) c ∧ c.sim "nGS" = some (.atom c.wfss.length) ∧ c.sim "nDM" = some (.atom c.dms.length) ∧ c.sim "nSci" = some (.atom c.scis.length)

private theorem yaml_origin {lib : Lib} (hs : Stands lib) {y : YamlFile} {d : Loaded} (h : loadYaml lib y = .ok d) : Origin lib d := by
  obtain ⟨sim, h1, h⟩ := bind_ok h
  obtain ⟨atmos, h2, h⟩ := bind_ok h
  obtain ⟨tel, h3, h⟩ := bind_ok h
  obtain ⟨ng, h4, h⟩ := bind_ok h
  obtain ⟨wfss, h5, h⟩ := bind_ok h
  obtain ⟨nd, h6, h⟩ := bind_ok h
  obtain ⟨dms, h7, h⟩ := bind_ok h
  obtain ⟨recon, h8, h⟩ := bind_ok h
  obtain ⟨ns, h9, h⟩ := bind_ok h
  obtain ⟨scis, h10, h⟩ := bind_ok h
  obtain ⟨_, _, h2⟩ := bind_ok h2
  obtain ⟨_, _, h3⟩ := bind_ok h3
  obtain ⟨_, _, h8⟩ := bind_ok h8
  obtain ⟨l5, e5⟩ := (forRange_ok _ _ _ _).mp h5
  obtain ⟨l7, e7⟩ := (forRange_ok _ _ _ _).mp h7
  obtain ⟨l10, e10⟩ := (forRange_ok _ _ _ _).mp h10
  have obj : ∀ c i a, yamlObj lib y c i = .ok a → Made lib c a := by
    intro c i a ha
    obtain ⟨r, _, ha⟩ := bind_ok ha
    exact loadObj_full hs ha
  refine ⟨_, h, ⟨loadObj_full hs h1, loadObj_full hs h2, loadObj_full hs h3, loadObj_full hs h8, ?_, ?_, ?_⟩, ?_, ?_, ?_⟩
  · intro w hw
    obtain ⟨i, hi, rfl⟩ := List.getElem_of_mem hw
    obtain ⟨r, _, hr⟩ := bind_ok (e5 i hi)
    obtain ⟨a, ha, hr⟩ := bind_ok hr
    split at hr
    · injection hr with hr; rw [← hr]; exact ⟨loadObj_full hs ha, by simp⟩
    · injection hr with hr; rw [← hr]; exact ⟨loadObj_full hs ha, by simp⟩
    · obtain ⟨b, hb, hr⟩ := bind_ok hr
      injection hr with hr
      rw [← hr]
      refine ⟨loadObj_full hs ha, fun l hl => ?_⟩
      cases hl
      exact loadObj_full hs hb
    · cases hr
  · intro w hw
    obtain ⟨i, hi, rfl⟩ := List.getElem_of_mem hw
    exact obj _ _ _ (e7 i hi)
  · intro w hw
    obtain ⟨i, hi, rfl⟩ := List.getElem_of_mem hw
    exact obj _ _ _ (e10 i hi)
  · rw [l5]; exact count_ok h4
  · rw [l7]; exact count_ok h6
  · rw [l10]; exact count_ok h9

private theorem py_origin {lib : Lib} (hs : Stands lib) {p : PyFile} {d : Loaded} (h : loadPy lib p = .ok d) : Origin lib d := by
  obtain ⟨sim, h1, h⟩ := bind_ok h
  obtain ⟨atmos, h2, h⟩ := bind_ok h
  obtain ⟨tel, h3, h⟩ := bind_ok h
  obtain ⟨ng, h4, h⟩ := bind_ok h
  obtain ⟨wfss, h5, h⟩ := bind_ok h
  obtain ⟨nd, h6, h⟩ := bind_ok h
  obtain ⟨dms, h7, h⟩ := bind_ok h
  obtain ⟨recon, h8, h⟩ := bind_ok h
  obtain ⟨ns, h9, h⟩ := bind_ok h
  obtain ⟨scis, h10, h⟩ := bind_ok h
  obtain ⟨_, _, h1⟩ := bind_ok h1
  obtain ⟨_, _, h2⟩ := bind_ok h2
  obtain ⟨_, _, h3⟩ := bind_ok h3
  obtain ⟨_, _, h8⟩ := bind_ok h8
  obtain ⟨l5, e5⟩ := (forRange_ok _ _ _ _).mp h5
  obtain ⟨l7, e7⟩ := (forRange_ok _ _ _ _).mp h7
  obtain ⟨l10, e10⟩ := (forRange_ok _ _ _ _).mp h10
  have obj : ∀ c i a, pyObj lib p c i = .ok a → Made lib c a := by
    intro c i a ha
    obtain ⟨r, _, ha⟩ := bind_ok ha
    exact loadObj_full hs ha
  refine ⟨_, h, ⟨loadObj_full hs h1, loadObj_full hs h2, loadObj_full hs h3, loadObj_full hs h8, ?_, ?_, ?_⟩, ?_, ?_, ?_⟩
  · intro w hw
    obtain ⟨i, hi, rfl⟩ := List.getElem_of_mem hw
    obtain ⟨gl, _, hr⟩ := bind_ok (e5 i hi)
    obtain ⟨l, hl, hr⟩ := bind_ok hr
    obtain ⟨gw, _, hr⟩ := bind_ok hr
    obtain ⟨a, ha, hr⟩ := bind_ok hr
    obtain ⟨b, hb, hr⟩ := bind_ok hr
    injection hr with hr
    rw [← hr]
    refine ⟨loadObj_full hs ha, fun m hm => ?_⟩
    cases b
    · cases hm
    · cases hm; exact loadObj_full hs hl
  · intro w hw
    obtain ⟨i, hi, rfl⟩ := List.getElem_of_mem hw
    exact obj _ _ _ (e7 i hi)
  · intro w hw
    obtain ⟨i, hi, rfl⟩ := List.getElem_of_mem hw
    exact obj _ _ _ (e10 i hi)
  · rw [l5]; exact count_ok h4
  · rw [l7]; exact count_ok h6
  · rw [l10]; exact count_ok h9

private theorem mapE_forall {α β : Type} (f : α → Except PyErr β) (g : α → β) (l : List α) (h : ∀ a ∈ l, f a = .ok (g a)) : mapE f l = .ok (l.map g) := by
  induction l with
  | nil => rfl
  | cons a l ih => simp [mapE, h a (by simp), ih fun b hb => h b (by simp [hb]), Except.bind]

private theorem enum_item (l : List Row) (i : ℕ) (h : i < l.length) : (enum l).item i = .ok l[i] := by
  unfold enum Rows.item
  have : ((List.range l.length).zip l).lookup i = some l[i] := by
    have key : ∀ (l : List Row) (k i : ℕ) (h : i < l.length), ((List.range' k l.length).zip l).lookup (k + i) = some l[i] := by
      intro l
      induction l with
      | nil => intro k i h; simp at h
      | cons r l ih =>
        intro k i h
        rw [List.length_cons, List.range'_succ, List.zip_cons_cons, List.lookup_cons]
        cases i with
        | zero => simp
        | succ i =>
          have : (k + (i + 1) == k) = false := by simp
          rw [this]
          have := ih (k + 1) i (by simpa using h)
          rw [show k + 1 + i = k + (i + 1) by ring] at this
          simpa using this
    have := key l 0 i h
    rwa [Nat.zero_add, ← List.range_eq_range'] at this
  simp only
  rw [this]

private theorem enum_map_item {α : Type} (g : α → Row) (l : List α) (i : ℕ) (h : i < l.length) : (enum (l.map g)).item i = .ok (g l[i]) := by
  rw [enum_item _ i (by simpa using h), List.getElem_map]

private theorem loadObj_params {lib : Lib} (hs : Stands lib) {c : Cls} {a b : Attrs} (hf : Full (lib.schema c) a) (h : lib.derive c (paramsOf (lib.schema c) a) = .ok b)
    (g : Group) (hg : ∀ q, q ∈ (lib.schema c).required ∨ q ∈ (lib.schema c).optional.map Prod.fst → g q = a q) : loadObj lib c none g = .ok b := by
  unfold loadObj
  rw [loadParams_params _ a hf (hs.defaults c) (hs.apart c) g hg]
  exact h

private theorem params_eq (s : Schema) (a : Attrs) (q : String) (h : q ∈ s.required ∨ q ∈ s.optional.map Prod.fst) : paramsOf s a q = a q := by rw [paramsOf, if_pos h]

private theorem round {lib : Lib} (hs : Stands lib) {d : Loaded} (h : Origin lib d) : ∃ y, dictConfig lib d = .ok y ∧ loadYaml lib y = .ok d := by
  obtain ⟨c, hf, hw, n1, n2, n3⟩ := h
  obtain ⟨e, he, hfe⟩ := hs.again c d hf hw
  have hd := hs.finish_keeps c d hf ⟨made_full hs hw.sim, made_full hs hw.atmos, made_full hs hw.tel, made_full hs hw.recon, fun w h => ⟨made_full hs (hw.wfss w h).1, fun l hl => made_full hs ((hw.wfss w h).2 l hl)⟩,
    fun x h => made_full hs (hw.dms x h), fun x h => made_full hs (hw.scis x h)⟩
  obtain ⟨k1, k2, k3⟩ := hs.finish_lengths c d hf
  have cnt : ∀ n ∈ ["nGS", "nDM", "nSci"], e.sim n = c.sim n := fun n hn => by
    rw [hs.derive_counts _ _ he.sim n hn, params_eq _ _ _ (hs.counts n hn), hs.finish_counts c d hf n hn]
  let y : YamlFile :=
    { top := fun _ => none
      group := fun | .sim => some (paramsOf (lib.schema .sim) d.sim) | .atmos => some (paramsOf (lib.schema .atmos) d.atmos) | .tel => some (paramsOf (lib.schema .tel) d.tel) | .recon => some (paramsOf (lib.schema .recon) d.recon) | _ => none
      rows := fun
        | .wfs => some (enum (d.wfss.map fun w => ⟨paramsOf (lib.schema .wfs) w.1, lgsItem w.2⟩))
        | .dm => some (enum (d.dms.map fun a => ⟨paramsOf (lib.schema .dm) a, .absent⟩))
        | .sci => some (enum (d.scis.map fun a => ⟨paramsOf (lib.schema .sci) a, .absent⟩))
        | _ => none }
  have wr : ∀ c l, (∀ a ∈ l, Full (lib.schema c) a) → mapE (dictRow lib c) l = .ok (l.map fun a => ⟨paramsOf (lib.schema c) a, .absent⟩) := fun c l hl =>
    mapE_forall _ _ _ fun a ha => by simp [dictRow, dictObj_eq _ _ (hl a ha), Except.bind]
  have ww : mapE (dictWfs lib) d.wfss = .ok (d.wfss.map fun w => ⟨paramsOf (lib.schema .wfs) w.1, lgsItem w.2⟩) :=
    mapE_forall _ _ _ fun a ha => by simp [dictWfs, dictObj_eq _ _ (hd.wfss a ha).1, Except.bind]
  refine ⟨y, ?_, ?_⟩
  · unfold dictConfig
    simp only [dictObj_eq _ _ hd.sim, dictObj_eq _ _ hd.atmos, dictObj_eq _ _ hd.tel, dictObj_eq _ _ hd.recon, ww, wr _ _ hd.dms, wr _ _ hd.scis, bind, Except.bind, pure, Except.pure]
    rfl
  · have rows : ∀ (c : Cls) (l m : List Attrs), y.rows c = some (enum (l.map fun a => ⟨paramsOf (lib.schema c) a, .absent⟩)) → (∀ a ∈ l, Full (lib.schema c) a) →
        List.Forall₂ (fun a b => lib.derive c (paramsOf (lib.schema c) a) = .ok b) l m → forRange (yamlObj lib y c) 0 l.length = .ok m := by
      intro c l m hy hl hlm
      have hlen := hlm.length_eq
      refine (forRange_ok _ _ _ _).mpr ⟨hlen.symm, fun i hi => ?_⟩
      have hi' : i < l.length := by omega
      unfold yamlObj YamlFile.row
      rw [hy]
      simp only [Nat.zero_add, enum_map_item _ l i hi', bind, Except.bind]
      exact loadObj_params hs (hl _ (List.getElem_mem hi')) ((List.forall₂_iff_get.mp hlm).2 i hi' hi) _ fun q hq => params_eq _ _ _ hq
    have wfs : forRange (yamlWfs lib y) 0 d.wfss.length = .ok e.wfss := by
      have hlen := he.wfss.length_eq
      refine (forRange_ok _ _ _ _).mpr ⟨hlen.symm, fun i hi => ?_⟩
      have hi' : i < d.wfss.length := by omega
      obtain ⟨g1, g2, g3⟩ := (List.forall₂_iff_get.mp he.wfss).2 i hi' hi
      have hfull := hd.wfss _ (List.getElem_mem hi')
      simp only [List.get_eq_getElem] at g1 g2 g3
      unfold yamlWfs YamlFile.row
      have hy : y.rows .wfs = some (enum (d.wfss.map fun w => ⟨paramsOf (lib.schema .wfs) w.1, lgsItem w.2⟩)) := rfl
      rw [hy]
      simp only [Nat.zero_add, enum_map_item _ d.wfss i hi', bind, Except.bind, loadObj_params hs hfull.1 g1 _ fun q hq => params_eq _ _ _ hq]
      cases hl : d.wfss[i].2 with
      | none =>
        have := g2 hl
        simp only [lgsItem, pure, Except.pure]
        rw [← this]
      | some l =>
        obtain ⟨m, hm, hdm⟩ := g3 l hl
        simp only [lgsItem, loadObj_params hs (hfull.2 l hl) hdm l fun q _ => rfl, pure, Except.pure]
        rw [← hm]
    have c1 : count e.sim "nGS" = .ok d.wfss.length := by rw [count, cnt _ (by simp), n1, k1]
    have c2 : count e.sim "nDM" = .ok d.dms.length := by rw [count, cnt _ (by simp), n2, k2]
    have c3 : count e.sim "nSci" = .ok d.scis.length := by rw [count, cnt _ (by simp), n3, k3]
    have o : ∀ {c a b}, Full (lib.schema c) a → lib.derive c (paramsOf (lib.schema c) a) = .ok b → loadObj lib c none (paramsOf (lib.schema c) a) = .ok b :=
      fun hf h => loadObj_params hs hf h _ fun q hq => params_eq _ _ _ hq
    have gs : y.group .sim = some (paramsOf (lib.schema .sim) d.sim) := rfl
    have ga : y.get .atmos = .ok (paramsOf (lib.schema .atmos) d.atmos) := rfl
    have gt : y.get .tel = .ok (paramsOf (lib.schema .tel) d.tel) := rfl
    have gr : y.get .recon = .ok (paramsOf (lib.schema .recon) d.recon) := rfl
    unfold loadYaml
    simp only [gs, ga, gt, gr, Option.getD_some, bind, Except.bind, o hd.sim he.sim, o hd.atmos he.atmos, o hd.tel he.tel, o hd.recon he.recon, c1, c2, c3, wfs, rows .dm d.dms e.dms rfl hd.dms he.dms, rows .sci d.scis e.scis rfl hd.scis he.scis]
    exact hfe

/-- **C127 (round trip).**  Every configuration that was loaded, from a Python or a YAML file, can be written out with `dict` (in the form of a YAML file), and reading that gives the same configuration. -/
theorem C127_round (lib : Lib) (hs : Stands lib) (d : Loaded) (h : (∃ p, loadPy lib p = .ok d) ∨ ∃ y, loadYaml lib y = .ok d) : ∃ y, dictConfig lib d = .ok y ∧ loadYaml lib y = .ok d := by
  rcases h with ⟨p, h⟩ | ⟨y, h⟩
  · exact round hs (py_origin hs h)
  · exact round hs (yaml_origin hs h)

/-- **C127 (nothing is lost).**  Two loaded configurations that are written out alike are the same. -/
theorem C127_injective (lib : Lib) (hs : Stands lib) (c d : Loaded) (hc : (∃ p, loadPy lib p = .ok c) ∨ ∃ y, loadYaml lib y = .ok c) (hd : (∃ p, loadPy lib p = .ok d) ∨ ∃ y, loadYaml lib y = .ok d)
    (h : dictConfig lib c = dictConfig lib d) : c = d := by
  obtain ⟨y, h1, h2⟩ := C127_round lib hs c hc
  obtain ⟨z, h3, h4⟩ := C127_round lib hs d hd
  rw [h1, h3] at h
  cases h
  rw [h2] at h4
  cases h4
  rfl

/-- **C127 (the real calculations).**  Missing: cameras of zero pixels, as in C35.  Written out, the configuration loses exactly the parameters calculated for the simulation; calculating from what is left restores the whole configuration. -/
theorem C127_real_partial (c d : Config) (hp : ∀ s ∈ c.scis, s.pxls ≠ 0) (h : calcParams c = .ok d) : d.derived ≠ none ∧ calcParams { d with derived := none } = .ok d := by
  have h1 := C35_stable_partial c d hp h
  refine ⟨?_, ?_⟩
  · obtain ⟨scis, ps, hs, ht, hl, hpos, hh, hd⟩ := calcParams_ok c d h
    rw [hd]; simp
  · rw [← h1]; rfl

example : ∃ d, calcParams (toyConfig none 1 [⟨(0, 0), some 2, some 7, 10⟩, ⟨(0, 0), none, some 7, 10⟩]) = .ok d ∧ calcParams { d with derived := none } = .ok d := by
  have : (calcParams (toyConfig none 1 [⟨(0, 0), some 2, some 7, 10⟩, ⟨(0, 0), none, some 7, 10⟩])).toOption.isSome = true := by decide +kernel
  cases h : calcParams (toyConfig none 1 [⟨(0, 0), some 2, some 7, 10⟩, ⟨(0, 0), none, some 7, 10⟩]) with
  | error e => rw [h] at this; cases this
  | ok d => exact ⟨d, rfl, (C127_real_partial _ d (by simp [toyConfig]) h).2⟩

/-- **C127 (the real parameters).**  In the lists of confParse.py every name has one default, no name is both required and optional, and the numbers of components are parameters. -/
theorem C127_tables (c : Cls) :
    (∀ p ∈ Defaults.codeOptional c, ∀ q ∈ Defaults.codeOptional c, p.1 = q.1 → p.2 = q.2) ∧ (∀ p ∈ Defaults.codeOptional c, p.1 ∉ Defaults.codeRequired c) ∧
      ∀ n ∈ ["nGS", "nDM", "nSci"], n ∈ (Defaults.codeOptional .sim).map Prod.fst := by
  refine ⟨?_, ?_, by decide +kernel⟩ <;> cases c <;> decide +kernel

/-- **C127 (finding).**  `len(obj)` is the number of entries of `dict(obj)` for every class but sensors, for which it is one more: `angleEquivNoise` is listed twice. -/
theorem C127_len (c : Cls) : Dump.len ⟨Defaults.codeRequired c, (Defaults.codeOptional c).map fun p => (p.1, .atom 0), []⟩ =
    (Defaults.codeRequired c ++ (Defaults.codeOptional c).map Prod.fst).dedup.length + if c = .wfs then 1 else 0 := by
  cases c <;> decide +kernel

/-- Classes with a calculation: an exposure time of 0 is replaced by the loop time, and the camera's size is calculated. -/
private def small : Lib where
  schema
    | .sim => ⟨["nGS", "loopTime"], [("nDM", .atom 0), ("nSci", .atom 0)], ["size"]⟩
    | .wfs => ⟨["wavelength"], [("exposureTime", .atom 0)], []⟩
    | .lgs => ⟨[], [("height", .atom 90)], []⟩
    | _ => ⟨[], [], []⟩
  derive _ a := .ok a
  finish c := .ok { c with
    sim := fun q => if q = "size" then some (.atom c.wfss.length) else c.sim q
    wfss := c.wfss.map fun w => (fun q => if q = "exposureTime" then (match w.1 q with | some (.atom 0) => c.sim "loopTime" | x => x) else w.1 q, w.2) }

private theorem small_settles : Stands small where
  defaults c := by cases c <;> simp [small]
  apart c := by cases c <;> simp [small]
  counts := by simp [small]
  derive_keeps c a b h hf := by cases h; exact hf
  derive_counts a b h n _ := by cases h; rfl
  finish_lengths c d h := by cases h; simp
  finish_counts c d h n hn := by
    cases h
    simp only [List.mem_cons, List.not_mem_nil, or_false] at hn
    rcases hn with rfl | rfl | rfl <;> simp
  finish_keeps c d h hc := by
    cases h
    refine ⟨?_, hc.atmos, hc.tel, hc.recon, ?_, hc.dms, hc.scis⟩
    · intro q hq
      obtain ⟨v, hv⟩ := hc.sim q hq
      simp only
      split_ifs
      · exact ⟨_, rfl⟩
      · exact ⟨v, hv⟩
    · intro w hw
      obtain ⟨u, hu, rfl⟩ := List.mem_map.mp hw
      refine ⟨fun q hq => ?_, fun l hl => (hc.wfss u hu).2 l hl⟩
      obtain ⟨v, hv⟩ := (hc.wfss u hu).1 q hq
      simp only
      split_ifs
      · split
        · exact hc.sim _ (by simp [small])
        · exact ⟨v, hv⟩
      · exact ⟨v, hv⟩
  again c d h hc := by
    cases h
    have keep : ∀ k a, Made small k a → paramsOf (small.schema k) a = a := by
      rintro k a ⟨b, h1, h2, h3⟩
      cases h3
      funext q
      unfold paramsOf
      split_ifs with hq
      · rfl
      · push Not at hq; exact (h2 q hq.1 hq.2).symm
    have hsim : paramsOf (small.schema .sim) (fun q => if q = "size" then some (.atom c.wfss.length) else c.sim q) = c.sim := by
      conv_rhs => rw [← keep _ _ hc.sim]
      funext q
      unfold paramsOf
      split_ifs with h1
      · exact if_neg fun h2 => by subst h2; simp [small] at h1
      · rfl
    have hwfs : ∀ w ∈ c.wfss, paramsOf (small.schema .wfs) (fun q => if q = "exposureTime" then (match w.1 q with | some (.atom 0) => c.sim "loopTime" | x => x) else w.1 q) =
        fun q => if q = "exposureTime" then (match w.1 q with | some (.atom 0) => c.sim "loopTime" | x => x) else w.1 q := by
      intro w hw
      funext q
      have hk := congrFun (keep _ _ (hc.wfss w hw).1) q
      unfold paramsOf at hk ⊢
      beta_reduce
      by_cases h1 : q ∈ (small.schema .wfs).required ∨ q ∈ List.map Prod.fst (small.schema .wfs).optional
      · rw [if_pos h1]
      · rw [if_neg h1] at hk ⊢
        rw [if_neg fun h2 => h1 (by subst h2; simp [small])]
        exact hk
    refine ⟨⟨c.sim, c.atmos, c.tel, c.wfss.map fun w => (fun q => if q = "exposureTime" then (match w.1 q with | some (.atom 0) => c.sim "loopTime" | x => x) else w.1 q, w.2), c.dms, c.recon, c.scis⟩, ⟨?_, ?_, ?_, ?_, ?_, ?_, ?_⟩, ?_⟩
    · exact congrArg Except.ok hsim
    · exact congrArg Except.ok (keep _ _ hc.atmos)
    · exact congrArg Except.ok (keep _ _ hc.tel)
    · exact congrArg Except.ok (keep _ _ hc.recon)
    · refine List.forall₂_same.mpr fun w hw => ?_
      obtain ⟨u, hu, rfl⟩ := List.mem_map.mp hw
      exact ⟨congrArg Except.ok (hwfs u hu), fun h => h, fun l hl => ⟨l, hl, congrArg Except.ok (keep _ _ ((hc.wfss u hu).2 l hl))⟩⟩
    · exact List.forall₂_same.mpr fun a ha => congrArg Except.ok (keep _ _ (hc.dms a ha))
    · exact List.forall₂_same.mpr fun a ha => congrArg Except.ok (keep _ _ (hc.scis a ha))
    · simp only [small, List.map_map, List.length_map, Except.ok.injEq, Loaded.mk.injEq, true_and, and_true]
      refine List.map_congr_left fun w _ => ?_
      simp only [Function.comp_apply, Prod.mk.injEq, and_true]
      funext q
      split_ifs with h1
      · split <;> split <;> simp_all
      · rfl

/-- Two sensors, one with a laser and one without an exposure time. -/
private def smallYaml : YamlFile where
  top q := if q = "nGS" then some (.atom 2) else if q = "loopTime" then some (.atom 7) else none
  group | .sim => none | _ => some fun _ => none
  rows
    | .wfs => some (.seq [⟨fun q => if q = "wavelength" then some (.atom 5) else none, .absent⟩, ⟨fun q => if q = "wavelength" then some (.atom 6) else if q = "exposureTime" then some (.atom 9) else none, .group fun _ => none⟩])
    | _ => none

/-- Loaded, written out and read again. -/
example : ∃ d y, loadYaml small smallYaml = .ok d ∧ (d.wfss.map fun w => (w.1 "exposureTime", w.2.bind fun l => l "height")) = [(some (.atom 7), none), (some (.atom 9), some (.atom 90))] ∧
    dictConfig small d = .ok y ∧ loadYaml small y = .ok d := by
  obtain ⟨d, h1, h2⟩ : ∃ d, loadYaml small smallYaml = .ok d ∧ (d.wfss.map fun w => (w.1 "exposureTime", w.2.bind fun l => l "height")) = [(some (.atom 7), none), (some (.atom 9), some (.atom 90))] := ⟨_, rfl, by simp⟩
  obtain ⟨y, h3, h4⟩ := C127_round small small_settles d (.inr ⟨_, h1⟩)
  exact ⟨d, y, h1, h2, h3, h4⟩

end Soapy.Props
