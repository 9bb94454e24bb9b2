/-
Property theorems C135: exposures of several frames with the gradient and the pyramid sensor.
-/
import Verif.Model.LastFrame
import Verif.Props.Sensors

namespace Soapy.Props

open Soapy.LastFrame

theorem run_last {S I O : Type} (frame : S → I → Bool → O × S) (one : I → O) (none : O) (h0 : ∀ s i, (frame s i false).1 = none) (h1 : ∀ s i, (frame s i true).1 = one i)
    (es : List (List I)) (hes : ∀ e ∈ es, e ≠ []) :
    ∀ s : S, run frame s (es.flatMap exposure) = es.flatMap fun e => List.replicate (e.length - 1) none ++ e.getLast?.toList.map one := by
  have unread : ∀ (k : List I) (s : S) (rest : List (I × Bool)), ∃ s', run frame s ((k.map fun a => (a, false)) ++ rest) = List.replicate k.length none ++ run frame s' rest := by
    intro k
    induction k with
    | nil => intro s rest; exact ⟨s, rfl⟩
    | cons a k ih =>
      intro s rest
      obtain ⟨s', h⟩ := ih (frame s a false).2 rest
      refine ⟨s', ?_⟩
      rw [List.map_cons, List.cons_append, run, h, h0]
      rfl
  induction es with
  | nil => intro s; rfl
  | cons e es ih =>
    intro s
    have hne := hes e List.mem_cons_self
    obtain ⟨k, a, rfl⟩ : ∃ k a, e = k ++ [a] := ⟨e.dropLast, e.getLast hne, (List.dropLast_append_getLast hne).symm⟩
    have hx : exposure (k ++ [a]) = (k.map fun b => (b, false)) ++ [(a, true)] := by
      unfold exposure
      simp
    obtain ⟨s', h⟩ := unread k s ([(a, true)] ++ es.flatMap exposure)
    rw [List.flatMap_cons, hx, List.append_assoc, h, List.singleton_append, run, h1, ih fun e' he' => hes e' (List.mem_cons_of_mem _ he'), List.flatMap_cons]
    simp

/-- **C135 (gradient sensor).** In exposures of any lengths the gradient sensor measures the last frame of each; the others have no influence. -/
theorem C135_gradient {n : ℕ} (s : ℕ) (g : Grad n) (mem : Fin n → Sensors.Sub s) (es : List (List (ℕ → ℕ → ℝ))) (hes : ∀ e ∈ es, e ≠ []) :
    run (gradFrame s g) mem (es.flatMap exposure) = es.flatMap fun e => List.replicate (e.length - 1) (fun _ => 0, fun _ => 0) ++ e.getLast?.toList.map (gradOne s g) :=
  run_last (gradFrame s g) (gradOne s g) (fun _ => 0, fun _ => 0) (fun _ _ => rfl) (fun _ _ => rfl) es hes mem

/-- **C135 (pyramid).** The same for the pyramid sensor. -/
theorem C135_pyramid (g : PyrSensor) (mem : ℕ → ℕ → ℝ) (es : List (List PyrIn)) (hes : ∀ e ∈ es, e ≠ []) :
    run (pyrFrame g) mem (es.flatMap exposure) = es.flatMap fun e => List.replicate (e.length - 1) (fun _ _ => (0, 0)) ++ e.getLast?.toList.map (pyrOne g) :=
  run_last (pyrFrame g) (pyrOne g) (fun _ _ => (0, 0)) (fun _ _ => rfl) (fun _ _ => rfl) es hes mem

/-- **C135 (steady wavefront).** As long as the wavefront does not change during the exposure both sensors measure what a single frame measures.  Missing: wavefronts that change, see `C135_violated`. -/
theorem C135_steady_partial (k : ℕ) :
    (∀ {n : ℕ} (s : ℕ) (g : Grad n) (mem : Fin n → Sensors.Sub s) (phase : ℕ → ℕ → ℝ),
      run (gradFrame s g) mem (exposure (List.replicate (k + 1) phase)) = List.replicate k (fun _ => 0, fun _ => 0) ++ run (gradFrame s g) mem (exposure [phase])) ∧
    ∀ (g : PyrSensor) (mem : ℕ → ℕ → ℝ) (i : PyrIn), run (pyrFrame g) mem (exposure (List.replicate (k + 1) i)) = List.replicate k (fun _ _ => (0, 0)) ++ run (pyrFrame g) mem (exposure [i]) := by
  constructor
  · intro n s g mem phase
    have h := C135_gradient s g mem [List.replicate (k + 1) phase] (by simp)
    have h' := C135_gradient s g mem [[phase]] (by simp)
    rw [List.flatMap_singleton, List.flatMap_singleton] at h h'
    rw [h, h', List.getLast?_replicate]
    simp
  · intro g mem i
    have h := C135_pyramid g mem [List.replicate (k + 1) i] (by simp)
    have h' := C135_pyramid g mem [[i]] (by simp)
    rw [List.flatMap_singleton, List.flatMap_singleton] at h h'
    rw [h, h', List.getLast?_replicate]
    simp

/-- What C135 asks of a sensor: an exposure of two frames ends with the mean of what the two frames give one by one. -/
def MeasuresMean {S I O : Type} [Add O] (frame : S → I → Bool → O × S) : Prop :=
  ∀ s i j u v w, run frame s (exposure [i]) = [u] → run frame s (exposure [j]) = [v] → (run frame s (exposure [i, j])).getLast? = some w → w + w = u + v

/-- A sensor that keeps only the last frame measures means only if it is blind: every wavefront gives the same. -/
theorem mean_blind {S I O : Type} [AddCommGroup O] (frame : S → I → Bool → O × S) (one : I → O) (none : O) (h0 : ∀ s i, (frame s i false).1 = none) (h1 : ∀ s i, (frame s i true).1 = one i) (s : S)
    (h : MeasuresMean frame) (i j : I) : one i = one j := by
  have hi := run_last frame one none h0 h1 [[i]] (by simp) s
  have hj := run_last frame one none h0 h1 [[j]] (by simp) s
  have hij := run_last frame one none h0 h1 [[i, j]] (by simp) s
  rw [List.flatMap_singleton, List.flatMap_singleton] at hi hj hij
  have := h s i j (one i) (one j) (one j) (by rw [hi]; rfl) (by rw [hj]; rfl) (by rw [hij]; simp)
  exact (add_right_cancel this).symm

/-- **C135 fails** for every pyramid sensor that does not measure the same whatever the wavefront ... -/
theorem C135_pyramid_violated (g : PyrSensor) (i j : PyrIn) (h : pyrOne g i ≠ pyrOne g j) : ¬ MeasuresMean (pyrFrame g) := fun hm =>
  h (mean_blind (pyrFrame g) (pyrOne g) (fun _ _ => (0, 0)) (fun _ _ => rfl) (fun _ _ => rfl) (fun _ _ => 0) hm i j)

/-- A pyramid sensor with one pixel per quadrant that is not blind. -/
example : ∃ (g : PyrSensor) (i j : PyrIn), pyrOne g i ≠ pyrOne g j := by
  let X : ℕ → ℕ → ℝ := Pyr.framePlane 4 1 1 1 1 (fun _ _ => 1) (fun _ _ => 0) (fun _ _ _ => 0) fun _ _ => 0
  have hX : ∀ (t : ℕ → ℕ → ℝ), (Pyr.framePlane 4 1 1 1 1 (fun _ _ => 1) (fun _ _ => 0) (fun _ _ _ => 0) fun r c => t r c - X r c) = t := by
    intro t
    funext r c
    simp only [X, Pyr.framePlane]
    ring
  refine ⟨⟨4, 1, 1, 1, 1, fun _ _ => 1, ⟨0, 1, 0, fun _ _ => 1⟩, fun _ _ => 0⟩, ⟨fun _ _ => 0, fun _ _ _ => 0, fun r c => (if r = 0 ∧ c = 0 then 1 else 0) - X r c⟩, ⟨fun _ _ => 0, fun _ _ _ => 0, fun r c => 0 - X r c⟩, ?_⟩
  unfold pyrOne
  dsimp only
  rw [hX fun r c => if r = 0 ∧ c = 0 then 1 else 0, hX fun _ _ => 0]
  intro h
  have h2 := congrArg Prod.fst (congrFun (congrFun h 0) 0)
  simp [Pyr.measured, Pyr.slopeY, Pyr.part, Pyr.pupilAt, Pyr.sumInt] at h2

/-- One sub-aperture of two by two pixels. -/
noncomputable def toyGrad : Grad 1 := ⟨1, false, fun _ _ => 1, fun _ => (0, 0)⟩

/-- ... and for the gradient sensor: an exposure of a tilted and a flat frame measures no tilt. -/
theorem C135_violated : ¬ MeasuresMean (gradFrame 2 toyGrad) := by
  intro hm
  have h := mean_blind (gradFrame 2 toyGrad) (gradOne 2 toyGrad) (fun _ => 0, fun _ => 0) (fun _ _ => rfl) (fun _ _ => rfl) (fun _ _ _ => 0) hm (fun _ j => j) (fun _ _ => 0)
  have h2 := congrFun (congrArg Prod.fst h) 0
  unfold gradOne toyGrad Sensors.gradSlopes Sensors.slopeX Sensors.smean Sensors.norm2 Sensors.coord Sensors.cut at h2
  simp [Fin.sum_univ_two] at h2
  norm_num at h2

example : gradOne 2 toyGrad (fun _ j => j) ≠ gradOne 2 toyGrad fun _ _ => 0 := by
  intro h
  have h2 := congrFun (congrArg Prod.fst h) 0
  unfold gradOne toyGrad Sensors.gradSlopes Sensors.slopeX Sensors.smean Sensors.norm2 Sensors.coord Sensors.cut at h2
  simp [Fin.sum_univ_two] at h2
  norm_num at h2

end Soapy.Props
