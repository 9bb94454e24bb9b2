/-
C89: every type of sensor can be made from its configuration and used.
-/
import Verif.Lemmas.Attr

namespace Soapy.Props

open Soapy.Attr

/-- Uses the configuration does not exclude: a correction with `precompensated` needs `uplink`, `simple_frame` needs a point source. -/
def C89_fits (cfg : Cfg) : Use → Bool
  | .frame _ corr _ => !(corr && cfg.lgs && cfg.precomp && !cfg.uplink && !cfg.elong)
  | .simple _ => !(cfg.lgs && cfg.elong)
  | _ => true

/-- A point source: no guide star with depth. -/
def C89_point (cfg : Cfg) : Prop := cfg.lgs = false ∨ cfg.elong = false

/-- The current Shack-Hartmann sensor: made from any configuration and used in any order, nothing is missing. -/
theorem C89_shackhartmann_partial (cfg : Cfg) (us : List Use) (h : ∀ u ∈ us, C89_fits cfg u = true) :
    (∃ o, Life .ShackHartmann cfg us (.ok o)) ∧ ∀ res, Life .ShackHartmann cfg us res → ∃ o, res = .ok o := by
  have key : ∀ a b c d : Bool, sane .ShackHartmann ⟨a, b, c, d⟩ (C89_fits ⟨a, b, c, d⟩) [] [] = true := by decide +kernel
  obtain ⟨a, b, c, d⟩ := cfg
  exact sane_sound (key a b c d) us h

example : ∀ u ∈ [Use.frame false true false, .frame true true false, .setMask, .size, .frame true false true], C89_fits ⟨true, true, true, true⟩ u = true := by decide

/-- The pyramid sensor with a point source. -/
theorem C89_pyramid_partial (cfg : Cfg) (hp : C89_point cfg) (us : List Use) (h : ∀ u ∈ us, C89_fits cfg u = true) :
    (∃ o, Life .Pyramid cfg us (.ok o)) ∧ ∀ res, Life .Pyramid cfg us res → ∃ o, res = .ok o := by
  have key : ∀ a b c d : Bool, a = false ∨ c = false → sane .Pyramid ⟨a, b, c, d⟩ (C89_fits ⟨a, b, c, d⟩) [] [] = true := by decide +kernel
  obtain ⟨a, b, c, d⟩ := cfg
  exact sane_sound (key a b c d hp) us h

example : C89_point ⟨true, true, false, true⟩ ∧
    ∀ u ∈ [Use.frame false true false, .simple true, .frame true true false, .setMask, .size], C89_fits ⟨true, true, false, true⟩ u = true := by
  constructor
  · exact Or.inr rfl
  · decide

/-- The legacy Shack-Hartmann sensor with a point source. -/
theorem C89_legacy_partial (cfg : Cfg) (hp : C89_point cfg) (us : List Use) (h : ∀ u ∈ us, C89_fits cfg u = true) :
    (∃ o, Life .ShackHartmannLegacy cfg us (.ok o)) ∧ ∀ res, Life .ShackHartmannLegacy cfg us res → ∃ o, res = .ok o := by
  have key : ∀ a b c d : Bool, a = false ∨ c = false → sane .ShackHartmannLegacy ⟨a, b, c, d⟩ (C89_fits ⟨a, b, c, d⟩) [] [] = true := by decide +kernel
  obtain ⟨a, b, c, d⟩ := cfg
  exact sane_sound (key a b c d hp) us h

example : C89_point ⟨false, false, true, false⟩ ∧ ∀ u ∈ [Use.frame false true false, .simple true, .size], C89_fits ⟨false, false, true, false⟩ u = true := by
  constructor
  · exact Or.inl rfl
  · decide

/-- What the gradient sensor and the base class can do with a point source: frames that are read, and masks. -/
def C89_readOnly (cfg : Cfg) (u : Use) : Bool := C89_fits cfg u && (match u with
  | .frame read _ _ => read
  | .size => false
  | _ => true)

/-- The gradient sensor: frames that are read work … -/
theorem C89_gradient_partial (cfg : Cfg) (hp : C89_point cfg) (us : List Use) (h : ∀ u ∈ us, C89_readOnly cfg u = true) :
    (∃ o, Life .Gradient cfg us (.ok o)) ∧ ∀ res, Life .Gradient cfg us res → ∃ o, res = .ok o := by
  have key : ∀ a b c d : Bool, a = false ∨ c = false → sane .Gradient ⟨a, b, c, d⟩ (C89_readOnly ⟨a, b, c, d⟩) [] [] = true := by decide +kernel
  obtain ⟨a, b, c, d⟩ := cfg
  exact sane_sound (key a b c d hp) us h

example : C89_point ⟨true, false, false, false⟩ ∧
    ∀ u ∈ [Use.frame true true false, .simple true, .setMask, .frame true false true], C89_readOnly ⟨true, false, false, false⟩ u = true := by
  constructor
  · exact Or.inr rfl
  · decide

/-- … but it has no `n_measurements`, which a simulation, a reconstructor and a frame that is not read need. -/
theorem C89_gradient_violated (cfg : Cfg) (hp : C89_point cfg) (us : List Use) (h : ∀ u ∈ us, C89_readOnly cfg u = true) (u : Use)
    (hu : u = .size ∨ ∃ imat, u = .frame false false imat) :
    Life .Gradient cfg (us ++ [u]) (.error (.attributeError .n_measurements)) ∧ ∀ res, Life .Gradient cfg (us ++ [u]) res → res = .error (.attributeError .n_measurements) := by
  have key : ∀ a b c d : Bool, a = false ∨ c = false → sane .Gradient ⟨a, b, c, d⟩ (C89_readOnly ⟨a, b, c, d⟩) [.n_measurements]
      [(.size, .attributeError .n_measurements), (.frame false false false, .attributeError .n_measurements), (.frame false false true, .attributeError .n_measurements)] = true := by decide +kernel
  obtain ⟨a, b, c, d⟩ := cfg
  refine sane_then_bad (key a b c d hp) us h _ _ ?_
  rcases hu with rfl | ⟨i, rfl⟩
  · simp
  · cases i <;> simp

/-- All frames with one error. -/
def C89_frames (e : Err) : List (Use × Err) :=
  [(.frame false false false, e), (.frame false false true, e), (.frame false true false, e), (.frame false true true, e), (.frame true false false, e), (.frame true false true, e), (.frame true true false, e), (.frame true true true, e)]

/-- The pyramid and the gradient sensor can be made with an elongated guide star, but no frame can be taken: `calcFocalPlane` has no argument `los`. -/
theorem C89_elongation_violated (cls : Cls) (hc : cls = .Pyramid ∨ cls = .Gradient) (cfg : Cfg) (h1 : cfg.lgs = true) (h2 : cfg.elong = true) (us : List Use) (hus : ∀ u ∈ us, u = .setMask) (read corr imat : Bool) :
    Life cls cfg (us ++ [.frame read corr imat]) (.error (.typeError .calcFocalPlane)) ∧ ∀ res, Life cls cfg (us ++ [.frame read corr imat]) res → res = .error (.typeError .calcFocalPlane) := by
  have key : ∀ b d : Bool, sane .Pyramid ⟨true, b, true, d⟩ (· = .setMask) [] (C89_frames (.typeError .calcFocalPlane)) = true ∧
      sane .Gradient ⟨true, b, true, d⟩ (· = .setMask) [] (C89_frames (.typeError .calcFocalPlane)) = true := by decide +kernel
  obtain ⟨a, b, c, d⟩ := cfg
  simp only at h1 h2
  subst h1 h2
  have hm : (Use.frame read corr imat, Err.typeError Meth.calcFocalPlane) ∈ C89_frames (.typeError .calcFocalPlane) := by cases read <;> cases corr <;> cases imat <;> decide
  rcases hc with rfl | rfl
  · exact sane_then_bad (key b d).1 us (by simpa using hus) _ _ hm
  · exact sane_then_bad (key b d).2 us (by simpa using hus) _ _ hm

/-- The legacy sensor, which says it is there for elongated guide stars, cannot be made with one: it calls `allocDataArrays` of a line of sight that does not have it. -/
theorem C89_legacy_violated (cfg : Cfg) (h1 : cfg.lgs = true) (h2 : cfg.elong = true) (us : List Use) :
    Life .ShackHartmannLegacy cfg us (.error (.attributeError .los_single)) ∧ ∀ res, Life .ShackHartmannLegacy cfg us res → res = .error (.attributeError .los_single) := by
  have key : ∀ b d : Bool, bad (.attributeError .los_single) (an .ShackHartmannLegacy fuel (Cfg.env ⟨true, b, true, d⟩) (0, 0) (.seq construct)) = true := by decide +kernel
  obtain ⟨a, b, c, d⟩ := cfg
  simp only at h1 h2
  subst h1 h2
  exact construct_bad (key b d) us

/-- The Zernike sensor can never be made: `base` is not defined. -/
theorem C89_zernike_violated (cfg : Cfg) (us : List Use) :
    Life .Zernike cfg us (.error (.nameError .base)) ∧ ∀ res, Life .Zernike cfg us res → res = .error (.nameError .base) := by
  have key : ∀ a b c d : Bool, bad (.nameError .base) (an .Zernike fuel (Cfg.env ⟨a, b, c, d⟩) (0, 0) (.seq construct)) = true := by decide +kernel
  obtain ⟨a, b, c, d⟩ := cfg
  exact construct_bad (key a b c d) us

/-- The extended Shack-Hartmann sensor can never be made: it uses `activeSubaps`, which its base class no longer has. -/
theorem C89_extended_violated (cfg : Cfg) (us : List Use) :
    Life .ExtendedSH cfg us (.error (.attributeError .activeSubaps)) ∧ ∀ res, Life .ExtendedSH cfg us res → res = .error (.attributeError .activeSubaps) := by
  have key : ∀ a b c d : Bool, bad (.attributeError .activeSubaps) (an .ExtendedSH fuel (Cfg.env ⟨a, b, c, d⟩) (0, 0) (.seq construct)) = true := by decide +kernel
  obtain ⟨a, b, c, d⟩ := cfg
  exact construct_bad (key a b c d) us

/-- The uses left out for the Shack-Hartmann sensor do fail, after any other uses. -/
theorem C89_shackhartmann_violated (cfg : Cfg) (h1 : cfg.lgs = true) (us : List Use) (h : ∀ u ∈ us, C89_fits cfg u = true) :
    (cfg.elong = true → ∀ imat res, Life .ShackHartmann cfg (us ++ [.simple imat]) res → res = .error (.attributeError .los_single)) ∧
      (cfg.elong = false → cfg.precomp = true → cfg.uplink = false → ∀ read imat res, Life .ShackHartmann cfg (us ++ [.frame read true imat]) res → res = .error (.attributeError .lgs_obj)) := by
  have kS : ∀ b d : Bool, sane .ShackHartmann ⟨true, b, true, d⟩ (C89_fits ⟨true, b, true, d⟩) [.los_single] [(.simple false, .attributeError .los_single), (.simple true, .attributeError .los_single)] = true := by decide +kernel
  have kP : sane .ShackHartmann ⟨true, false, false, true⟩ (C89_fits ⟨true, false, false, true⟩) [.lgs_obj]
      [(.frame false true false, .attributeError .lgs_obj), (.frame false true true, .attributeError .lgs_obj), (.frame true true false, .attributeError .lgs_obj), (.frame true true true, .attributeError .lgs_obj)] = true := by decide +kernel
  obtain ⟨a, b, c, d⟩ := cfg
  simp only at h1
  subst h1
  constructor
  · intro h2 imat
    simp only at h2; subst h2
    exact (sane_then_bad (kS b d) us h _ _ (by cases imat <;> simp)).2
  · intro h2 h3 h4 read imat
    simp only at h2 h3 h4; subst h2 h3 h4
    exact (sane_then_bad kP us h _ _ (by cases read <;> cases imat <;> simp)).2

example : ∀ u ∈ [Use.frame true false false, .frame false false false, .setMask, .size], C89_fits ⟨true, false, false, true⟩ u = true := by decide

/-- So the claim is wrong: four of the seven classes fail when they are made or used as a simulation does. -/
theorem C89_violated : ¬ ∀ (cls : Cls) (cfg : Cfg) (us : List Use), ∃ o, Life cls cfg us (.ok o) := by
  intro h
  obtain ⟨o, ho⟩ := h .Zernike ⟨false, false, false, false⟩ []
  have := (C89_zernike_violated _ _).2 _ ho
  cases this

end Soapy.Props
