/-
C122, C123: the noise of the sensors.
-/
import Verif.Model.Noise
import Verif.Lemmas.Poisson
import Verif.Props.Sensors
import Mathlib.Probability.Independence.Basic
import Mathlib.MeasureTheory.Constructions.Pi

namespace Soapy.Props

open MeasureTheory ProbabilityTheory Soapy.Noise Soapy.Lemmas
open scoped NNReal

variable {Ω : Type*} [MeasurableSpace Ω] {P : Measure Ω} {k : ℕ}

/-- What `numpy.random` promises: Poisson distributed numbers with the rates asked for and standard normal numbers, all independent. -/
structure Drawn (P : Measure Ω) (rate : Fin k → ℝ) (counts : Fin k → Ω → ℕ) (z : Fin k → Ω → ℝ) : Prop where
  prob : IsProbabilityMeasure P
  poisson : ∀ i, HasLaw (counts i) (poissonMeasure (rate i).toNNReal) P
  normal : ∀ i, HasLaw (z i) (gaussianReal 0 1) P
  pixels : iIndepFun (fun i ω => (counts i ω, z i ω)) P
  apart : ∀ i, IndepFun (counts i) (z i) P

/-- There are such numbers for any rates: the hypothesis `Drawn` of the theorems below can be met. -/
theorem drawn_exists (rate : Fin k → ℝ) :
    Drawn (Measure.pi fun i => (poissonMeasure (rate i).toNNReal).prod (gaussianReal 0 1)) rate (fun i ω => (ω i).1) (fun i ω => (ω i).2) := by
  have e : ∀ i, MeasurePreserving (Function.eval i) (Measure.pi fun i : Fin k => (poissonMeasure (rate i).toNNReal).prod (gaussianReal 0 1)) ((poissonMeasure (rate i).toNNReal).prod (gaussianReal 0 1)) :=
    fun i => measurePreserving_eval _ i
  refine ⟨inferInstance, fun i => ?_, fun i => ?_, ?_, fun i => ?_⟩
  · exact (measurePreserving_fst.comp (e i)).hasLaw
  · exact (measurePreserving_snd.comp (e i)).hasLaw
  · exact iIndepFun_pi (X := fun _ x => x) (fun i => aemeasurable_id)
  · have hf : Measurable (fun ω : Fin k → ℕ × ℝ => (ω i).1) := by fun_prop
    have hg : Measurable (fun ω : Fin k → ℕ × ℝ => (ω i).2) := by fun_prop
    rw [indepFun_iff_map_prod_eq_prod_map_map hf.aemeasurable hg.aemeasurable]
    have a : (Measure.pi fun i => (poissonMeasure (rate i).toNNReal).prod (gaussianReal 0 1)).map (fun ω : Fin k → ℕ × ℝ => (ω i).1) = poissonMeasure (rate i).toNNReal := (measurePreserving_fst.comp (e i)).map_eq
    have b : (Measure.pi fun i => (poissonMeasure (rate i).toNNReal).prod (gaussianReal 0 1)).map (fun ω : Fin k → ℕ × ℝ => (ω i).2) = gaussianReal 0 1 := (measurePreserving_snd.comp (e i)).map_eq
    rw [a, b]
    exact (e i).map_eq

variable {counts : Fin k → Ω → ℕ} {z : Fin k → Ω → ℝ}

private theorem var_const [IsProbabilityMeasure P] (c : ℝ) : Var[fun _ : Ω => c; P] = 0 := by
  rw [variance_eq_integral (by fun_prop)]
  simp

theorem normal_memLp {X : Ω → ℝ} (h : HasLaw X (gaussianReal 0 1) P) : MemLp X 2 P := by
  have m : MemLp id 2 (gaussianReal 0 1) := memLp_id_gaussianReal 2
  rw [← h.map_eq] at m
  exact m.comp_of_map h.aemeasurable

theorem normal_mean {X : Ω → ℝ} (h : HasLaw X (gaussianReal 0 1) P) : ∫ ω, X ω ∂P = 0 := by
  rw [h.integral_eq, integral_id_gaussianReal]

theorem normal_variance {X : Ω → ℝ} (h : HasLaw X (gaussianReal 0 1) P) : Var[X; P] = 1 := by
  rw [h.variance_eq, variance_id_gaussianReal]; rfl

theorem image_nonneg {n : ℝ} (hn : 0 ≤ n) {det : Fin k → ℝ} (hd : ∀ i, 0 ≤ det i) (i : Fin k) : 0 ≤ image n det i :=
  mul_nonneg (div_nonneg (hd i) (Finset.sum_nonneg fun j _ => hd j)) hn

/-- The part of a pixel that is not read noise. -/
private noncomputable def light (o : Options) (n : ℝ) (det : Fin k → ℝ) (counts : Fin k → ℕ) (i : Fin k) : ℝ := if o.photonNoise then (counts i : ℝ) else image n det i

private theorem read_eq (o : Options) (n : ℝ) (det : Fin k → ℝ) (c : Fin k → ℕ) (z : Fin k → ℝ) (i : Fin k) : readDetector o n det c z i = light o n det c i + o.eReadNoise * z i := by
  unfold readDetector light
  by_cases h : o.eReadNoise = 0 <;> simp [h]

private theorem light_memLp {o : Options} {n : ℝ} {det : Fin k → ℝ} (h : Drawn P (image n det) counts z) (i : Fin k) : MemLp (fun ω => light o n det (fun j => counts j ω) i) 2 P := by
  have := h.prob
  unfold light
  cases o.photonNoise
  · simpa using memLp_const _
  · simpa using poisson_memLp (h.poisson i)

private theorem light_mean {o : Options} {n : ℝ} (hn : 0 ≤ n) {det : Fin k → ℝ} (hd : ∀ i, 0 ≤ det i) (h : Drawn P (image n det) counts z) (i : Fin k) :
    ∫ ω, light o n det (fun j => counts j ω) i ∂P = image n det i := by
  have := h.prob
  unfold light
  cases o.photonNoise
  · simp
  · simp only [if_true]
    rw [poisson_mean (h.poisson i), Real.coe_toNNReal _ (image_nonneg hn hd i)]

private theorem light_variance {o : Options} {n : ℝ} (hn : 0 ≤ n) {det : Fin k → ℝ} (hd : ∀ i, 0 ≤ det i) (h : Drawn P (image n det) counts z) (i : Fin k) :
    Var[fun ω => light o n det (fun j => counts j ω) i; P] = if o.photonNoise then image n det i else 0 := by
  have := h.prob
  unfold light
  cases o.photonNoise
  · simp only [Bool.false_eq_true, if_false]
    exact var_const _
  · simp only [if_true]
    rw [poisson_variance (h.poisson i), Real.coe_toNNReal _ (image_nonneg hn hd i)]

private theorem light_indep {o : Options} {n : ℝ} {det : Fin k → ℝ} (h : Drawn P (image n det) counts z) (i : Fin k) :
    IndepFun (fun ω => light o n det (fun j => counts j ω) i) (fun ω => o.eReadNoise * z i ω) P := by
  have e : (fun ω => light o n det (fun j => counts j ω) i) = (fun c : ℕ => if o.photonNoise then (c : ℝ) else image n det i) ∘ counts i := rfl
  rw [e]
  exact (h.apart i).comp (φ := fun c : ℕ => if o.photonNoise then (c : ℝ) else image n det i) (ψ := fun x => o.eReadNoise * x) (measurable_from_top) (by fun_prop)

/-- **C122 (mean).** Photon and read noise have no bias: on average a pixel of the Shack-Hartmann sensor's detector shows its share of the photons. -/
theorem C122_mean (o : Options) {n : ℝ} (hn : 0 ≤ n) {det : Fin k → ℝ} (hd : ∀ i, 0 ≤ det i) (h : Drawn P (fun i => n * det i / ∑ j, det j) counts z) (i : Fin k) :
    ∫ ω, readDetector o n det (fun j => counts j ω) (fun j => z j ω) i ∂P = n * det i / ∑ j, det j := by
  have e : (fun i => n * det i / ∑ j, det j) = image n det := by funext i; unfold image; ring
  rw [e] at h
  have := h.prob
  simp only [read_eq]
  rw [integral_add ((light_memLp h i).integrable (by norm_num)) (((normal_memLp (h.normal i)).integrable (by norm_num)).const_mul _), light_mean hn hd h, integral_const_mul, normal_mean (h.normal i)]
  unfold image; ring

/-- **C122 (variance).** The variance of a pixel is the number of photons expected in it with photon noise, plus the square of `eReadNoise`. -/
theorem C122_variance (o : Options) {n : ℝ} (hn : 0 ≤ n) {det : Fin k → ℝ} (hd : ∀ i, 0 ≤ det i) (h : Drawn P (fun i => n * det i / ∑ j, det j) counts z) (i : Fin k) :
    Var[fun ω => readDetector o n det (fun j => counts j ω) (fun j => z j ω) i; P] = (if o.photonNoise then n * det i / ∑ j, det j else 0) + o.eReadNoise ^ 2 := by
  have e : (fun i => n * det i / ∑ j, det j) = image n det := by funext i; unfold image; ring
  rw [e] at h
  rw [show n * det i / ∑ j, det j = image n det i by unfold image; ring]
  have := h.prob
  simp only [read_eq]
  have a := (light_indep (o := o) h i).variance_add (light_memLp h i) ((normal_memLp (h.normal i)).const_mul _)
  refine Eq.trans a ?_
  rw [light_variance hn hd h, variance_const_mul, normal_variance (h.normal i), mul_one]

private theorem pixels_indep {o : Options} {n : ℝ} {det : Fin k → ℝ} (h : Drawn P (image n det) counts z) :
    iIndepFun (fun i ω => readDetector o n det (fun j => counts j ω) (fun j => z j ω) i) P := by
  simp only [read_eq]
  exact h.pixels.comp (fun i (x : ℕ × ℝ) => (if o.photonNoise then (x.1 : ℝ) else image n det i) + o.eReadNoise * x.2) (fun i => by split_ifs <;> fun_prop)

/-- **C122 (independence).** The noise of different pixels is independent. -/
theorem C122_independent (o : Options) {n : ℝ} {det : Fin k → ℝ} (h : Drawn P (fun i => n * det i / ∑ j, det j) counts z) :
    iIndepFun (fun i ω => readDetector o n det (fun j => counts j ω) (fun j => z j ω) i) P := by
  have e : (fun i => n * det i / ∑ j, det j) = image n det := by funext i; unfold image; ring
  rw [e] at h
  exact pixels_indep h

/-- **C122 (total).** All pixels together hold on average the photons of the guide star, with a variance of that number (with photon noise) plus `eReadNoise` squared for every pixel: the
relative error of the light falls with the root of the number of photons. -/
theorem C122_total (o : Options) {n : ℝ} (hn : 0 ≤ n) {det : Fin k → ℝ} (hd : ∀ i, 0 ≤ det i) (hs : ∑ j, det j ≠ 0) (h : Drawn P (fun i => n * det i / ∑ j, det j) counts z) :
    ∫ ω, ∑ i, readDetector o n det (fun j => counts j ω) (fun j => z j ω) i ∂P = n ∧
    Var[fun ω => ∑ i, readDetector o n det (fun j => counts j ω) (fun j => z j ω) i; P] = (if o.photonNoise then n else 0) + k * o.eReadNoise ^ 2 := by
  have e : (fun i => n * det i / ∑ j, det j) = image n det := by funext i; unfold image; ring
  have h' := h
  rw [e] at h'
  have := h.prob
  have mem : ∀ i, MemLp (fun ω => readDetector o n det (fun j => counts j ω) (fun j => z j ω) i) 2 P := by
    intro i
    simp only [read_eq]
    exact (light_memLp h' i).add ((normal_memLp (h.normal i)).const_mul _)
  have tot : ∑ i, n * det i / ∑ j, det j = n := by
    rw [← Finset.sum_div, ← Finset.mul_sum, mul_div_assoc, div_self hs, mul_one]
  constructor
  · rw [integral_finsetSum _ fun i _ => (mem i).integrable (by norm_num)]
    simp only [C122_mean o hn hd h]
    exact tot
  · have a := IndepFun.variance_sum (s := Finset.univ) (X := fun i ω => readDetector o n det (fun j => counts j ω) (fun j => z j ω) i) (μ := P) (fun i _ => mem i)
      (fun i _ j _ hij => (pixels_indep h').indepFun hij)
    have f : (∑ i, fun ω => readDetector o n det (fun j => counts j ω) (fun j => z j ω) i) = fun ω => ∑ i, readDetector o n det (fun j => counts j ω) (fun j => z j ω) i := by
      funext ω; simp
    rw [f] at a
    rw [a]
    simp only [C122_variance o hn hd h, Finset.sum_add_distrib, Finset.sum_const, Finset.card_univ, Fintype.card_fin, nsmul_eq_mul]
    cases o.photonNoise
    · simp
    · simp only [if_true]; rw [tot]

/-- **C122 (counts).** With photon noise only, every pixel is a whole number of photons and their total is Poisson distributed about the photons of the guide star. -/
theorem C122_counts (o : Options) (hp : o.photonNoise = true) (hr : o.eReadNoise = 0) {n : ℝ} (hn : 0 ≤ n) {det : Fin k → ℝ} (hd : ∀ i, 0 ≤ det i) (hs : ∑ j, det j ≠ 0)
    (h : Drawn P (fun i => n * det i / ∑ j, det j) counts z) :
    ∃ T : Ω → ℕ, HasLaw T (poissonMeasure n.toNNReal) P ∧ ∀ ω, ∑ i, readDetector o n det (fun j => counts j ω) (fun j => z j ω) i = T ω := by
  have := h.prob
  refine ⟨∑ i, counts i, ?_, fun ω => ?_⟩
  · have l := poisson_sum h.poisson (h.pixels.comp (fun _ (x : ℕ × ℝ) => x.1) fun _ => measurable_fst) Finset.univ
    have r : ∑ i, (n * det i / ∑ j, det j).toNNReal = n.toNNReal := by
      rw [← Real.toNNReal_sum_of_nonneg fun i _ => div_nonneg (mul_nonneg hn (hd i)) (Finset.sum_nonneg fun j _ => hd j)]
      rw [← Finset.sum_div, ← Finset.mul_sum, mul_div_assoc, div_self hs, mul_one]
    rw [r] at l
    exact l
  · simp [readDetector, hp, hr]

/-- A case the hypotheses allow: two pixels, one with three times the light of the other, a hundred photons. -/
example : ∃ (Ω : Type) (_ : MeasurableSpace Ω) (P : Measure Ω) (counts : Fin 2 → Ω → ℕ) (z : Fin 2 → Ω → ℝ),
    Drawn P (fun i => 100 * (![1, 3] : Fin 2 → ℝ) i / ∑ j, (![1, 3] : Fin 2 → ℝ) j) counts z ∧ ∑ j, (![1, 3] : Fin 2 → ℝ) j ≠ 0 :=
  ⟨_, _, _, _, _, drawn_exists _, by norm_num [Fin.sum_univ_two]⟩

/-- **C122 (pyramid).** The pyramid sensor's detector has no photon noise even if `photonNoise` is set: what is drawn has no effect, so that the variance of a pixel is not the light in it. -/
theorem C122_pyramid_violated : ∃ (o : Options) (plane : Fin 1 → ℝ) (Ω : Type) (_ : MeasurableSpace Ω) (P : Measure Ω) (counts : Fin 1 → Ω → ℕ) (z : Fin 1 → Ω → ℝ),
    Drawn P plane counts z ∧ o.photonNoise = true ∧ (∀ i, 0 < plane i) ∧ ∀ i, Var[fun ω => readPyramid o plane (fun j => counts j ω) (fun j => z j ω) i; P] = 0 := by
  have d := drawn_exists (fun _ : Fin 1 => (1 : ℝ))
  have := d.prob
  refine ⟨⟨true, 0, 0, 10, 5, false⟩, fun _ => 1, _, _, _, _, _, d, rfl, fun _ => one_pos, fun i => ?_⟩
  simp only [readPyramid, ne_eq, not_true_eq_false, if_false]
  exact var_const _

/-- **C122 (pyramid, what holds).** Read noise has no bias and the configured variance for the pyramid sensor too.  Missing: photon noise (`C122_pyramid_violated`). -/
theorem C122_pyramid_partial (o : Options) (plane rate : Fin k → ℝ) (h : Drawn P rate counts z) (i : Fin k) :
    ∫ ω, readPyramid o plane (fun j => counts j ω) (fun j => z j ω) i ∂P = plane i ∧ Var[fun ω => readPyramid o plane (fun j => counts j ω) (fun j => z j ω) i; P] = o.eReadNoise ^ 2 := by
  have := h.prob
  have e : ∀ ω, readPyramid o plane (fun j => counts j ω) (fun j => z j ω) i = o.eReadNoise * z i ω + plane i := by
    intro ω; unfold readPyramid
    by_cases hr : o.eReadNoise = 0
    · simp [hr]
    · simp only [ne_eq, hr, not_false_eq_true, if_true]; ring
  simp only [e]
  constructor
  · rw [integral_add (((normal_memLp (h.normal i)).integrable (by norm_num)).const_mul _) (integrable_const _), integral_const_mul, normal_mean (h.normal i)]
    simp
  · rw [variance_add_const (by have := (h.normal i).aemeasurable; fun_prop), variance_const_mul, normal_variance (h.normal i), mul_one]

/-! ### Noise added to measurements -/

private theorem scaled_law {X : Ω → ℝ} (h : HasLaw X (gaussianReal 0 1) P) (c w v : ℝ) (hv : v ^ 2 = w ^ 2) : HasLaw (fun ω => c + w * X ω) (gaussianReal c ⟨v ^ 2, sq_nonneg v⟩) P := by
  have a := gaussianReal_const_add (gaussianReal_const_mul h w) c
  simp only [mul_zero, zero_add, mul_one] at a
  have e : (⟨v ^ 2, sq_nonneg v⟩ : ℝ≥0) = NNReal.mk (w ^ 2) (sq_nonneg w) := Subtype.ext hv
  rw [e]
  exact a

/-- **C123 (Shack-Hartmann).** Outside interaction-matrix frames, a slope of the Shack-Hartmann sensor, as an angle (one pixel is `subapFOV / pxlsPerSubap` arc seconds), is normally distributed
about the slope without noise with a standard deviation of `angleEquivNoise` arc seconds. -/
theorem C123_sh (o : Options) (hp : 0 < o.pxlsPerSubap) (hF : o.subapFOV ≠ 0) (rate s : Fin k → ℝ) (h : Drawn P rate counts z) (i : Fin k) :
    HasLaw (fun ω => shSlopes o false s (fun j => z j ω) i * (o.subapFOV / o.pxlsPerSubap))
      (gaussianReal ((if o.removeTT then s i - (∑ j, s j) / k else s i) * (o.subapFOV / o.pxlsPerSubap)) ⟨o.angleEquivNoise ^ 2, sq_nonneg _⟩) P := by
  have hp' : (o.pxlsPerSubap : ℝ) ≠ 0 := by exact_mod_cast hp.ne'
  have e : (fun ω => shSlopes o false s (fun j => z j ω) i * (o.subapFOV / o.pxlsPerSubap)) =
      fun ω => (if o.removeTT then s i - (∑ j, s j) / k else s i) * (o.subapFOV / o.pxlsPerSubap) + o.angleEquivNoise * z i ω := by
    funext ω
    unfold shSlopes demean
    by_cases hz : o.angleEquivNoise = 0
    · cases o.removeTT <;> simp [hz]
    · cases o.removeTT <;> simp [hz] <;> field_simp
  rw [e]
  exact scaled_law (h.normal i) _ _ _ rfl

/-- **C123 (independence).** The noise of different slopes is independent. -/
theorem C123_independent (o : Options) (iMat : Bool) (rate s : Fin k → ℝ) (h : Drawn P rate counts z) : iIndepFun (fun i ω => shSlopes o iMat s (fun j => z j ω) i) P := by
  unfold shSlopes
  have m := h.pixels.comp (fun i (x : ℕ × ℝ) => if o.angleEquivNoise ≠ 0 ∧ iMat = false then (if o.removeTT then demean s else s) i + o.angleEquivNoise * (o.pxlsPerSubap : ℝ) / o.subapFOV * x.2 else (if o.removeTT then demean s else s) i)
    (fun i => by split_ifs <;> fun_prop)
  exact m

/-- **C123 (calibration).** Interaction-matrix frames have no such noise. -/
theorem C123_calibration {n s : ℕ} (o : Options) (sl z : Fin k → ℝ) (i : Fin k) (a : ℝ) (p : Fin n → Sensors.Sub s) (zx zy : Fin n → ℝ) :
    shSlopes o true sl z i = (if o.removeTT then sl i - (∑ j, sl j) / k else sl i) ∧ gradientSlopes o true a p zx zy = Sensors.gradSlopes a o.removeTT p := by
  constructor
  · unfold shSlopes demean; cases o.removeTT <;> simp
  · simp [gradientSlopes]

private theorem gradient_law {n s : ℕ} (o : Options) (a : ℝ) (p : Fin n → Sensors.Sub s) {counts : Fin n → Ω → ℕ} {zx zy : Fin n → Ω → ℝ} (rate : Fin n → ℝ) (hx : Drawn P rate counts zx)
    (hy : Drawn P rate counts zy) (i : Fin n) (v : ℝ) (hv : v ^ 2 = (o.angleEquivNoise * o.pxlsPerSubap / o.subapFOV) ^ 2) :
    HasLaw (fun ω => (gradientSlopes o false a p (fun j => zx j ω) (fun j => zy j ω)).1 i) (gaussianReal ((Sensors.gradSlopes a o.removeTT p).1 i) ⟨v ^ 2, sq_nonneg _⟩) P ∧
    HasLaw (fun ω => (gradientSlopes o false a p (fun j => zx j ω) (fun j => zy j ω)).2 i) (gaussianReal ((Sensors.gradSlopes a o.removeTT p).2 i) ⟨v ^ 2, sq_nonneg _⟩) P := by
  have e : ∀ ω, gradientSlopes o false a p (fun j => zx j ω) (fun j => zy j ω) =
      (fun i => (Sensors.gradSlopes a o.removeTT p).1 i + o.angleEquivNoise * o.pxlsPerSubap / o.subapFOV * zx i ω,
       fun i => (Sensors.gradSlopes a o.removeTT p).2 i + o.angleEquivNoise * o.pxlsPerSubap / o.subapFOV * zy i ω) := by
    intro ω
    unfold gradientSlopes
    by_cases hz : o.angleEquivNoise = 0
    · simp [hz]
    · simp [hz]
  simp only [e]
  exact ⟨scaled_law (hx.normal i) _ _ _ hv, scaled_law (hy.normal i) _ _ _ hv⟩

/-- **C123 (gradient, what holds).** For the gradient sensor, whose slopes are angles in arc seconds, the noise has a standard deviation of `angleEquivNoise` arc seconds if the pixels happen to
be one arc second large.  Missing: any other pixels (`C123_gradient_violated`). -/
theorem C123_gradient_partial {n s : ℕ} (o : Options) (hF : o.subapFOV ≠ 0) (hp : (o.pxlsPerSubap : ℝ) = o.subapFOV) (a : ℝ) (p : Fin n → Sensors.Sub s) {counts : Fin n → Ω → ℕ} {zx zy : Fin n → Ω → ℝ}
    (rate : Fin n → ℝ) (hx : Drawn P rate counts zx) (hy : Drawn P rate counts zy) (i : Fin n) :
    HasLaw (fun ω => (gradientSlopes o false a p (fun j => zx j ω) (fun j => zy j ω)).1 i) (gaussianReal ((Sensors.gradSlopes a o.removeTT p).1 i) ⟨o.angleEquivNoise ^ 2, sq_nonneg _⟩) P ∧
    HasLaw (fun ω => (gradientSlopes o false a p (fun j => zx j ω) (fun j => zy j ω)).2 i) (gaussianReal ((Sensors.gradSlopes a o.removeTT p).2 i) ⟨o.angleEquivNoise ^ 2, sq_nonneg _⟩) P :=
  gradient_law o a p rate hx hy i _ (by rw [hp, mul_div_assoc, div_self hF, mul_one])

/-- **C123 (gradient).** With the default `pxlsPerSubap` of 10 and `subapFOV` of 5 the gradient sensor's noise is twice as large as configured: a wavefront tilted by `θ` arc seconds, measured as
`-θ (N - 1) / N` (`C52_scale`), has a standard deviation of twice `angleEquivNoise` arc seconds. -/
theorem C123_gradient_violated {n s : ℕ} (hs : 2 ≤ s) (N : ℕ) (hN : 2 ≤ N) (amp θ σ : ℝ) (ha : amp ≠ 0) {counts : Fin n → Ω → ℕ} {zx zy : Fin n → Ω → ℝ} (rate : Fin n → ℝ) (hx : Drawn P rate counts zx)
    (hy : Drawn P rate counts zy) (i : Fin n) :
    HasLaw (fun ω => (gradientSlopes ⟨false, 0, σ, 10, 5, false⟩ false (amp / (N - 1)) (fun _ _ j => θ * amp / N * j : Fin n → Sensors.Sub s) (fun j => zx j ω) (fun j => zy j ω)).1 i)
      (gaussianReal (-θ * ((N - 1) / N)) ⟨(2 * σ) ^ 2, sq_nonneg _⟩) P := by
  have g := (gradient_law (s := s) ⟨false, 0, σ, 10, 5, false⟩ (amp / (N - 1)) (fun _ _ j => θ * amp / N * j) rate hx hy i (2 * σ) (by push_cast; ring)).1
  have c : (Sensors.gradSlopes (amp / ((N : ℝ) - 1)) false (fun _ _ j => θ * amp / N * j : Fin n → Sensors.Sub s)).1 i = -θ * ((N - 1) / N) := by
    simp only [Sensors.gradSlopes, Bool.false_eq_true, if_false]
    exact Sensors.C52_scale hs N hN amp θ ha
  simp only [c] at g
  exact g

/-- **C123 (pyramid).** The pyramid sensor ignores `angleEquivNoise`: whatever it is, the slopes have no variance.  They are the slopes of the image relative to those of a flat wavefront. -/
theorem C123_pyramid_violated (o : Options) (raw flat rate : Fin k → ℝ) (h : Drawn P rate counts z) (i : Fin k) :
    Var[fun ω => pyramidSlopes o false raw flat (fun j => z j ω) i; P] = 0 ∧ (∫ ω, pyramidSlopes o false raw flat (fun j => z j ω) i ∂P) + flat i = raw i := by
  have := h.prob
  unfold pyramidSlopes
  exact ⟨var_const _, by simp⟩

/-- **C123 (tilt).** With tip-tilt removal the average slope of the Shack-Hartmann sensor is 0 without noise but not with it, since the noise is added after the removal: the variance of the average
is that of a slope divided by the number of slopes. -/
theorem C123_tilt_violated (o : Options) (ht : o.removeTT = true) (hk : 0 < k) (rate s : Fin k → ℝ) (h : Drawn P rate counts z) :
    (∑ i, shSlopes { o with angleEquivNoise := 0 } false s 0 i) / k = 0 ∧
    Var[fun ω => (∑ i, shSlopes o false s (fun j => z j ω) i) / k; P] = (o.angleEquivNoise * o.pxlsPerSubap / o.subapFOV) ^ 2 / k := by
  have := h.prob
  have hk' : (k : ℝ) ≠ 0 := by exact_mod_cast hk.ne'
  have zero : ∑ i, demean s i = 0 := by
    unfold demean
    rw [Finset.sum_sub_distrib]
    simp [mul_div_cancel₀ _ hk']
  constructor
  · simp only [shSlopes, ht, if_true, ne_eq, not_true_eq_false, false_and, if_false]
    rw [zero, zero_div]
  · set w := o.angleEquivNoise * o.pxlsPerSubap / o.subapFOV with hw
    have e : ∀ ω, (∑ i, shSlopes o false s (fun j => z j ω) i) / k = (w / k) * ∑ i, z i ω := by
      intro ω
      have f : ∀ i, shSlopes o false s (fun j => z j ω) i = demean s i + w * z i ω := by
        intro i
        unfold shSlopes
        by_cases hz : o.angleEquivNoise = 0
        · simp [hz, ht, hw]
        · simp [hz, ht, hw]
      simp only [f, Finset.sum_add_distrib, zero, zero_add, ← Finset.mul_sum]
      ring
    simp only [e]
    rw [variance_const_mul]
    have a := IndepFun.variance_sum (s := Finset.univ) (X := z) (μ := P) (fun i _ => normal_memLp (h.normal i))
      (fun i _ j _ hij => (h.pixels.comp (fun _ (x : ℕ × ℝ) => x.2) fun _ => measurable_snd).indepFun hij)
    have f : (∑ i, z i) = fun ω => ∑ i, z i ω := by funext ω; simp
    rw [f] at a
    rw [a]
    simp only [normal_variance (h.normal _), Finset.sum_const, Finset.card_univ, Fintype.card_fin, nsmul_eq_mul, mul_one]
    field_simp

/-- A case the hypotheses allow: the default pixels, three slopes. -/
example : ∃ (Ω : Type) (_ : MeasurableSpace Ω) (P : Measure Ω) (counts : Fin 3 → Ω → ℕ) (z : Fin 3 → Ω → ℝ) (o : Options),
    Drawn P (fun _ => 1) counts z ∧ o.removeTT = true ∧ 0 < o.pxlsPerSubap ∧ o.subapFOV ≠ 0 ∧ o.angleEquivNoise ≠ 0 :=
  ⟨_, _, _, _, _, ⟨false, 0, 1, 10, 5, true⟩, drawn_exists _, rfl, by norm_num, by norm_num, by norm_num⟩

end Soapy.Props
