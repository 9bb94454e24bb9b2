/-
Property theorems C137: everything that looks in the same direction sees the same wavefront, whatever its wavelength.
-/
import Verif.Model.Science
import Verif.Props.Pointing
import Mathlib.Tactic.FieldSimp

namespace Soapy.Props

open Soapy.Mirror Soapy.Los Soapy.Pointing

/-- Two images are the same wavefront in units of `1/k` and `1/k'`. -/
def SameWave (k k' : ℚ) (a b : Arr2) : Prop := a.rows = b.rows ∧ a.cols = b.cols ∧ ∀ i j, a.px i j / k = b.px i j / k'

/-- Two lines of sight hold the same wavefront, in radians of their own wavelengths. -/
def SameSight (k k' : ℚ) (s t : State) : Prop :=
  s.phaseScreens = t.phaseScreens ∧ s.corrScreens = t.corrScreens ∧ SameWave k k' s.phase t.phase ∧ SameWave k k' s.efield t.efield

/-- The outcome of two frames: the same exception, or the same wavefront. -/
def SameOutcome (R : State → State → Prop) : Except PyErr State → Except PyErr State → Prop
  | .ok s, .ok t => R s t
  | .error e, .error e' => e = e'
  | _, _ => False

theorem same_zero (c : Cfg) (k' : ℚ) (s t : State) : SameSight c.k k' (zeroData c s) (zeroData { c with k := k' } t) := by
  refine ⟨rfl, rfl, ⟨rfl, rfl, fun i j => ?_⟩, ⟨rfl, rfl, fun i j => ?_⟩⟩ <;> simp [zeroData, zero2]

theorem same_correction (c : Cfg) (k' : ℚ) (hk : c.k ≠ 0) (hk' : k' ≠ 0) (s t : State) (h : SameSight c.k k' s t) (corr : List Arr2) :
    SameOutcome (fun s t => SameSight c.k k' s t ∧ s.residual = t.residual) (performCorrection c s corr) (performCorrection { c with k := k' } t corr) := by
  obtain ⟨h1, h2, ⟨_, _, hp⟩, ⟨_, _, he⟩⟩ := h
  unfold performCorrection
  rw [h2]
  simp only []
  cases fill c.dmCoords t.corrScreens corr with
  | error e => exact rfl
  | ok bufs =>
    refine ⟨⟨h1, rfl, ⟨rfl, rfl, fun i j => ?_⟩, ⟨rfl, rfl, fun i j => ?_⟩⟩, ?_⟩
    · have := hp i j
      simp only []
      field_simp at this ⊢
      linear_combination this
    · have := he i j
      simp only []
      field_simp at this ⊢
      linear_combination this
    · simp only [Arr2.mk.injEq, true_and]
      funext i j
      have := hp i j
      field_simp at this ⊢
      linear_combination this

theorem same_phase (c : Cfg) (k' : ℚ) (hk : c.k ≠ 0) (hk' : k' ≠ 0) (s t : State) (h : SameSight c.k k' s t) (scrns : List Arr2) :
    SameOutcome (SameSight c.k k') (makePhase c s scrns) (makePhase { c with k := k' } t scrns) := by
  obtain ⟨h1, h2, ⟨_, _, hp⟩, ⟨_, _, he⟩⟩ := h
  unfold makePhase
  rw [h1]
  simp only []
  cases fill c.layerCoords t.phaseScreens scrns with
  | error e => exact rfl
  | ok bufs =>
    refine ⟨rfl, h2, ⟨rfl, rfl, fun i j => ?_⟩, ⟨rfl, rfl, fun i j => ?_⟩⟩
    · have := hp i j
      simp only []
      field_simp at this ⊢
      linear_combination this
    · have := he i j
      simp only []
      field_simp at this ⊢
      linear_combination this

/-- What two frames have in common: phase and field as wavefronts; where a mirror corrects light that comes down, the residual too. -/
def SameSeen (k k' : ℚ) (nm : Bool) (s t : State) : Prop :=
  SameWave k k' s.phase t.phase ∧ SameWave k k' s.efield t.efield ∧ if nm then s.residual = t.residual else SameWave k k' s.residual t.residual

theorem same_frame (c : Cfg) (k' : ℚ) (hk : c.k ≠ 0) (hk' : k' ≠ 0) (s t : State) (scrns corr : Option (List Arr2)) :
    SameOutcome (SameSeen c.k k' (!c.up && corr.isSome)) (Los.frame c s scrns corr) (Los.frame { c with k := k' } t scrns corr) := by
  obtain ⟨up, nOut, lc, dc, k, scrn⟩ := c
  generalize hc : (⟨up, nOut, lc, dc, k, scrn⟩ : Cfg) = c at *
  have hl : c.layerCoords = lc := by rw [← hc]
  have hs : c.scrn = scrn := by rw [← hc]
  have hu : c.up = up := by rw [← hc]
  generalize hc' : ({ c with k := k' } : Cfg) = c'
  have hl' : c'.layerCoords = lc := by rw [← hc', ← hc]
  have hs' : c'.scrn = scrn := by rw [← hc', ← hc]
  have hu' : c'.up = up := by rw [← hc', ← hc]
  have h0 := same_zero c k' s t
  rw [hc'] at h0
  have hC := fun s t h corr => same_correction c k' hk hk' s t h corr
  have hP := fun s t h scr => same_phase c k' hk hk' s t h scr
  simp only [hc'] at hC hP
  unfold Los.frame
  simp only [hl, hl', hs, hs', hu, hu']
  generalize scrns.getD (lc.map fun _ => zero2 scrn) = scr
  have after : ∀ s' t' : State, SameSight c.k k' s' t' →
      SameOutcome (SameSeen c.k k' false) (match makePhase c s' scr with | .error e => .error e | .ok s => .ok { s with residual := s.phase })
        (match makePhase c' t' scr with | .error e => .error e | .ok s => .ok { s with residual := s.phase }) := by
    intro s' t' h
    have hm := hP s' t' h scr
    revert hm
    cases makePhase c s' scr <;> cases makePhase c' t' scr
    · exact id
    · exact False.elim
    · exact False.elim
    · intro hm
      exact ⟨hm.2.2.1, hm.2.2.2, hm.2.2.1⟩
  cases up with
  | true =>
    cases corr with
    | none => exact after _ _ h0
    | some corr =>
      have hcc := hC _ _ h0 corr
      revert hcc
      simp only []
      cases performCorrection c (zeroData c s) corr <;> cases performCorrection c' (zeroData c' t) corr
      · exact id
      · exact False.elim
      · exact False.elim
      · intro hcc
        exact after _ _ hcc.1
  | false =>
    cases corr with
    | none => exact after _ _ h0
    | some corr =>
      simp only []
      have hm := hP _ _ h0 scr
      revert hm
      cases makePhase c (zeroData c s) scr <;> cases makePhase c' (zeroData c' t) scr
      · exact id
      · exact False.elim
      · exact False.elim
      · rename_i s1 t1
        intro hm
        have hcc := hC { s1 with residual := s1.phase } { t1 with residual := t1.phase } hm corr
        revert hcc
        simp only []
        cases performCorrection c { s1 with residual := s1.phase } corr <;> cases performCorrection c' { t1 with residual := t1.phase } corr
        · exact id
        · exact False.elim
        · exact False.elim
        · intro hcc
          exact ⟨hcc.1.2.2.1, hcc.1.2.2.2, hcc.2⟩

/-- **C137 (same direction, same wavefront).** Two lines of sight of one simulation - a sensor and a science camera, say - with the same direction and height, whatever their wavelengths and whatever they did before: a frame fails for both
with the same exception, or gives both the same optical path in every pixel (phase over `2π/λ`), also as argument of the field; if mirrors correct light coming down, the residual is the same number. -/
theorem C137_view (u : Setup) (c c' : Star) (hp : c.position = c'.position) (hh : c.gsHeight = c'.gsHeight) (hw : c.wavelength ≠ 0) (hw' : c'.wavelength ≠ 0) (ht : u.tau ≠ 0)
    (sc : Option ℚ) (n : Option ℕ) (old old' : State) (scrns corr : Option (List Arr2)) :
    SameOutcome (SameSeen (u.tau / (c.wavelength * 10 ^ 9)) (u.tau / (c'.wavelength * 10 ^ 9)) (!u.up && corr.isSome))
      (Pointing.frame u (make u c sc n) old scrns corr) (Pointing.frame u (make u c' sc n) old' scrns corr) := by
  have hk : ∀ w : ℚ, w ≠ 0 → u.tau / (w * 10 ^ 9) ≠ 0 := fun w hw => div_ne_zero ht (mul_ne_zero hw (by norm_num))
  have := same_frame (frameCfg u (make u c sc n)) (u.tau / (c'.wavelength * 10 ^ 9)) (hk _ hw) (hk _ hw') old old' scrns corr
  have e : ({ frameCfg u (make u c sc n) with k := u.tau / (c'.wavelength * 10 ^ 9) } : Cfg) = frameCfg u (make u c' sc n) := by
    simp only [frameCfg, make, calcInit, hp, hh]
  rw [e] at this
  exact this

/-- **C137 (wavefront error).** So cameras of different wavelengths that look in the same direction report the same wavefront error in nm. -/
theorem C137_wfe (u : Setup) (c c' : Star) (hp : c.position = c'.position) (hh : c.gsHeight = c'.gsHeight) (hw : c.wavelength ≠ 0) (hw' : c'.wavelength ≠ 0) (ht : u.tau ≠ 0)
    (old old' s t : State) (scrns corr : Option (List Arr2)) (hs : Pointing.frame u (make u c none none) old scrns corr = .ok s) (h't : Pointing.frame u (make u c' none none) old' scrns corr = .ok t)
    (mask : Fin u.simSize × Fin u.simSize → ℝ) :
    Science.wfe mask (fun p => (s.phase.px p.1 p.2 : ℝ)) ((u.tau / (c.wavelength * 10 ^ 9) : ℚ) : ℝ) = Science.wfe mask (fun p => (t.phase.px p.1 p.2 : ℝ)) ((u.tau / (c'.wavelength * 10 ^ 9) : ℚ) : ℝ) := by
  have h := C137_view u c c' hp hh hw hw' ht none none old old' scrns corr
  rw [hs, h't] at h
  have hpx := h.1.2.2
  have key : (fun p : Fin u.simSize × Fin u.simSize => (s.phase.px p.1 p.2 : ℝ) * mask p / ((u.tau / (c.wavelength * 10 ^ 9) : ℚ) : ℝ)) =
      fun p => (t.phase.px p.1 p.2 : ℝ) * mask p / ((u.tau / (c'.wavelength * 10 ^ 9) : ℚ) : ℝ) := by
    funext p
    have := congrArg (fun q : ℚ => (q : ℝ) * mask p) (hpx p.1 p.2)
    simp only [Rat.cast_div] at this ⊢
    rw [mul_div_right_comm, this, mul_div_right_comm]
  have hf : Science.flattened mask (fun p => (s.phase.px p.1 p.2 : ℝ)) ((u.tau / (c.wavelength * 10 ^ 9) : ℚ) : ℝ) =
      Science.flattened mask (fun p => (t.phase.px p.1 p.2 : ℝ)) ((u.tau / (c'.wavelength * 10 ^ 9) : ℚ) : ℝ) := by
    unfold Science.flattened
    simp only [congrFun key]
  unfold Science.wfe
  rw [hf]

/-- A camera in the infrared looking where `pointStar` is. -/
def infrared : Star := { pointStar with wavelength := 2 / 1000000 }

/-- **C137 (violated: residual without mirrors).** `los.frame` returns the residual, in nm if a correction is given; without a correction, or when propagating up, it is in radians, so that two wavelengths disagree. -/
theorem C137_residual_violated : ¬ ∀ (u : Setup) (c c' : Star), c.position = c'.position → c.gsHeight = c'.gsHeight → ∀ (old : State) (scrns corr : Option (List Arr2)),
    (Pointing.frame u (make u c none none) old scrns corr).map (fun s => s.residual.px 0 0) = (Pointing.frame u (make u c' none none) old scrns corr).map fun s => s.residual.px 0 0 := by
  intro h
  have := h pointSetup pointStar infrared rfl rfl toyLosState (some [pointScreen]) none
  revert this
  decide +kernel

/-- A correction of 3 nm everywhere: both see the same residual, 5 nm at the edge (pixel 8 of the screen). -/
example :
    (Pointing.frame pointSetup (make pointSetup pointStar none none) toyLosState (some [pointScreen]) (some [⟨24, 24, fun _ _ => 3⟩])).map (fun s => s.residual.px 0 0) = .ok 5 ∧
    (Pointing.frame pointSetup (make pointSetup infrared none none) toyLosState (some [pointScreen]) (some [⟨24, 24, fun _ _ => 3⟩])).map (fun s => s.residual.px 0 0) = .ok 5 ∧
    infrared.position = pointStar.position ∧ infrared.gsHeight = pointStar.gsHeight ∧ infrared.wavelength ≠ 0 ∧ pointStar.wavelength ≠ 0 ∧ pointSetup.tau ≠ 0 := by
  refine ⟨by decide +kernel, by decide +kernel, rfl, rfl, by decide +kernel, by decide +kernel, by decide +kernel⟩

end Soapy.Props
