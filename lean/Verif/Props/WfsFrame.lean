/-
Property theorems C08, C09, C55: sensor frames and the measurement vector.
-/
import Verif.Model.WfsFrame
import Verif.Model.Layout
import Mathlib.Algebra.BigOperators.Group.Finset.Basic
import Mathlib.Algebra.BigOperators.Intervals
import Mathlib.Algebra.Order.Group.Nat
import Mathlib.Tactic.Linarith

namespace Soapy.Props

open Soapy.WfsFrame

/-- Frame `j` belongs to the exposure that is still open when frame `n` starts, or that ends with frame
`n`: there is no read-out in frames `j … n-1`. -/
def InExposure (read : ℕ → Bool) (j n : ℕ) : Prop := ∀ k, j ≤ k → k < n → read k = false

instance (read : ℕ → Bool) (j n : ℕ) : Decidable (InExposure read j n) :=
  decidable_of_iff (∀ k, k < n → j ≤ k → read k = false)
    ⟨fun h k h1 h2 => h k h2 h1, fun h k h1 h2 => h k h2 h1⟩

/-- Light collected in frames `0 … n-1` that has not been read out yet when frame `n` starts. -/
def pending {F : Type} [AddCommMonoid F] (read : ℕ → Bool) (light : ℕ → F) (n : ℕ) : F :=
  ∑ j ∈ (Finset.range n).filter (fun j => InExposure read j n), light j

/-- Light of the exposure ending with frame `n`: every frame since the last read-out before `n`, and `n`
itself, once. -/
def exposure {F : Type} [AddCommMonoid F] (read : ℕ → Bool) (light : ℕ → F) (n : ℕ) : F :=
  ∑ j ∈ (Finset.range (n + 1)).filter (fun j => InExposure read j n), light j

theorem exposure_eq {F : Type} [AddCommMonoid F] (read : ℕ → Bool) (light : ℕ → F) (n : ℕ) :
    exposure read light n = pending read light n + light n := by
  unfold exposure pending
  rw [Finset.range_add_one, Finset.filter_insert, if_pos, Finset.sum_insert, add_comm]
  · simp
  · intro k h1 h2; omega

theorem pending_succ {F : Type} [AddCommMonoid F] (read : ℕ → Bool) (light : ℕ → F) (n : ℕ) :
    pending read light (n + 1) = if read n then 0 else exposure read light n := by
  unfold pending exposure
  split_ifs with h
  · apply Finset.sum_eq_zero
    intro j hj
    simp only [Finset.mem_filter, Finset.mem_range] at hj
    have := hj.2 n (by omega) (by omega)
    simp [h] at this
  · apply Finset.sum_congr _ (fun _ _ => rfl)
    ext j
    simp only [Finset.mem_filter, Finset.mem_range]
    refine and_congr_right fun hj => ⟨fun hh k h1 h2 => hh k h1 (by omega), fun hh k h1 h2 => ?_⟩
    rcases Nat.lt_succ_iff_lt_or_eq.mp h2 with h3 | h3
    · exact hh k h1 h3
    · subst h3; simpa using h

section C08

variable {F D S Ω : Type} [AddCommMonoid F] [AddCommMonoid D]

theorem foldl_add {F : Type} [AddCommMonoid F] (ls : List F) (a : F) :
    ls.foldl (· + ·) a = a + ls.sum := by
  induction ls generalizing a with
  | nil => simp
  | cons l ls ih => rw [List.foldl_cons, ih, List.sum_cons, add_assoc]

theorem frame_read (w : Sensor F D S Ω) (hup : w.uplink = none) (s : State F D S) (i : FrameIn F Ω)
    (ls : List F) (hl : i.lights = .ok ls) (hi : i.iMatFrame = false) :
    frame w s i =
      if i.read then
        ({ s with
            fp := 0
            det := readDetector w s.settings i.noise (w.place (s.fp + ls.sum))
            slopes := calcSlopes w s.settings i.noise
              (readDetector w s.settings i.noise (w.place (s.fp + ls.sum))) },
          .ok (calcSlopes w s.settings i.noise
              (readDetector w s.settings i.noise (w.place (s.fp + ls.sum)))))
      else
        ({ s with fp := s.fp + ls.sum, det := s.det + w.place (s.fp + ls.sum) }, .ok w.noData) := by
  have hsum : ls.foldl (· + ·) s.fp = s.fp + ls.sum := by
    exact foldl_add ls s.fp
  unfold frame
  cases hr : i.read <;> simp [hl, hi, hup, convolve, hsum]

/-- **C08.** For a sensor without uplink, started with an empty focal plane and running normal frames with
arbitrary read flags: a frame that is read produces the image of exactly the light of all frames since the
last read-out, each counted once, exposed and centroided with the configured settings; a frame that is not
read returns the all-zero measurements. -/
theorem C08_exposure_sum (w : Sensor F D S Ω) (hup : w.uplink = none) (s₀ : State F D S)
    (h0 : s₀.fp = 0) (ins : ℕ → FrameIn F Ω) (light : ℕ → List F)
    (hl : ∀ i, (ins i).lights = .ok (light i)) (hi : ∀ i, (ins i).iMatFrame = false) (n : ℕ) :
    let read := fun i => (ins i).read
    let image := readDetector w s₀.settings (ins n).noise
      (w.place (exposure read (fun j => (light j).sum) n))
    (read n = true →
      out w s₀ ins n = .ok (calcSlopes w s₀.settings (ins n).noise image) ∧
      (before w s₀ ins (n + 1)).det = image) ∧
    (read n = false → out w s₀ ins n = .ok w.noData) := by
  have inv : ∀ m, (before w s₀ ins m).fp = pending (fun i => (ins i).read) (fun j => (light j).sum) m ∧
      (before w s₀ ins m).settings = s₀.settings := by
    intro m
    induction m with
    | zero => simp [before, h0, pending]
    | succ m ih =>
      rw [before, frame_read w hup _ _ _ (hl m) (hi m), pending_succ, exposure_eq]
      cases hr : (ins m).read <;> simp [ih.1, ih.2]
  obtain ⟨h1, h2⟩ := inv n
  intro read image
  constructor
  · intro hr
    have hr' : (ins n).read = true := hr
    have e : frame w (before w s₀ ins n) (ins n) = _ := frame_read w hup _ _ _ (hl n) (hi n)
    rw [if_pos hr', h1, h2, ← exposure_eq] at e
    exact ⟨by rw [out, e], by rw [before, e]⟩
  · intro hr
    have hr' : (ins n).read = false := hr
    rw [out, frame_read w hup _ _ _ (hl n) (hi n)]
    simp [hr']

/-- **C08 (no light is lost or counted twice).** Every frame up to frame `n` is part of exactly one of: the exposures
read out before frame `n`, and the exposure that is still open. -/
theorem C08_each_frame_once (read : ℕ → Bool) (n j : ℕ) :
    (InExposure read j n ∧ ∀ i, i < n → j ≤ i → ¬ (read i = true ∧ InExposure read j i)) ∨
    (¬ InExposure read j n ∧ ∃! i, (i < n ∧ j ≤ i) ∧ read i = true ∧ InExposure read j i) := by
  by_cases h : InExposure read j n
  · left
    refine ⟨h, fun i hi hji hh => ?_⟩
    have := h i hji hi
    simp [hh.1] at this
  · right
    refine ⟨h, ?_⟩
    have hex : ∃ k, j ≤ k ∧ k < n ∧ read k = true := by
      unfold InExposure at h
      push Not at h
      obtain ⟨k, h1, h2, h3⟩ := h
      exact ⟨k, h1, h2, by simpa using h3⟩
    classical
    refine ⟨Nat.find hex, ⟨⟨(Nat.find_spec hex).2.1, (Nat.find_spec hex).1⟩, (Nat.find_spec hex).2.2, ?_⟩, ?_⟩
    · intro k h1 h2
      have := Nat.find_min hex h2
      by_contra hc
      exact this ⟨h1, by have := (Nat.find_spec hex).2.1; omega, by simpa using hc⟩
    · rintro i ⟨⟨hi, hji⟩, hri, hin⟩
      apply le_antisymm
      · by_contra hlt
        have := hin (Nat.find hex) (Nat.find_spec hex).1 (by omega)
        simp [(Nat.find_spec hex).2.2] at this
      · exact Nat.find_min' hex ⟨hji, hi, hri⟩

/-- **C08 (conservation).** The light of all frames is the light of all exposures read plus the
light still pending. -/
theorem C08_conservation {F : Type} [AddCommMonoid F] (read : ℕ → Bool) (light : ℕ → F) (n : ℕ) :
    (∑ i ∈ (Finset.range n).filter (fun i => read i = true), exposure read light i) +
      pending read light n = ∑ j ∈ Finset.range n, light j := by
  induction n with
  | zero => simp [pending]
  | succ n ih =>
    rw [Finset.sum_range_succ, ← ih, pending_succ, Finset.range_add_one, Finset.filter_insert]
    cases h : read n
    · simp [exposure_eq, add_assoc]
    · simp [exposure_eq, add_assoc, add_comm, add_left_comm]

/-- A concrete sensor: intensities, images and measurements are numbers. -/
def toySensor (up : Option (ℚ → ℚ → ℚ)) : Sensor ℚ ℚ ℚ ℚ where
  place := fun f => 2 * f
  uplink := up
  scale := fun d => d
  poisson := fun ω d => d + ω
  readNoise := fun r ω d => d + r * ω
  centroid := fun d => d + 1
  detilt := fun _ => 0
  angleNoise := some fun ω s => s + ω
  noData := 0

/-- Frames with intensity `n+1`; every second frame is read. -/
def toyIn (n : ℕ) : FrameIn ℚ ℚ := ⟨.ok [(n : ℚ), 1], 10, n % 2 == 1, false⟩

def toyState : State ℚ ℚ ℚ := ⟨0, 7, 0, ⟨false, true, 1 / 2, false⟩⟩

-- the frames 2 and 3 (intensities 3 and 4) make up the exposure read in frame 3
example : out (toySensor none) toyState toyIn 3 = .ok (2 * (3 + 4) + 10 + 5 + 1 + 10) := by
  decide +kernel
example : exposure (fun i => (toyIn i).read) (fun j => ([(j : ℚ), 1] : List ℚ).sum) 3 = 7 := by
  decide +kernel

end C08

section C55

variable {F D S Ω : Type} [AddCommMonoid F] [AddCommMonoid D]

/-- **C55.** An interaction-matrix frame that completes returns the noise-free response: photon noise, read noise, angle
noise, tip-tilt removal and the laser uplink are off, whatever the settings and whatever the random numbers; the
light is what was pending plus the poke.  Afterwards all settings are as before. -/
theorem C55_imat_frame_quiet (w : Sensor F D S Ω) (s : State F D S) (i : FrameIn F Ω) (ls : List F)
    (hl : i.lights = .ok ls) (hi : i.iMatFrame = true) (hr : i.read = true)
    (hs : s.settings.iMat = false) :
    (frame w s i).2 = .ok (w.centroid (w.scale (w.place (s.fp + ls.sum)))) ∧
    (frame w s i).1.settings = s.settings ∧ (frame w s i).1.fp = 0 := by
  have hsum : ls.foldl (· + ·) s.fp = s.fp + ls.sum := by
    exact foldl_add ls s.fp
  have hc : ∀ (ω : Ω) (f : F), convolve w (quiet s.settings) ω f = f := by
    intro ω f; unfold convolve; cases w.uplink <;> simp [quiet]
  have hsl : ∀ (ω : Ω) (d : D), calcSlopes w (quiet s.settings) ω d = w.centroid d := by
    intro ω d; unfold calcSlopes; cases w.angleNoise <;> simp [quiet]
  refine ⟨?_, ?_, ?_⟩
  · simp [frame, hl, hi, hr, hsum, hc, hsl]
    simp [readDetector, quiet]
  · simp [frame, hl, hi, hr, quiet, restore]
    cases hss : s.settings; simp_all
  · simp [frame, hl, hi, hr]

/-- **C55 (simple_frame).** The same for `simple_frame`, which also forgets any pending light. -/
theorem C55_simple_frame_quiet (w : Sensor F D S Ω) (s : State F D S) (l : F) (ω : Ω)
    (hs : s.settings.iMat = false) :
    (simpleFrame w s (.ok l) ω true).2 = .ok (w.centroid (w.scale (w.place l))) ∧
    (simpleFrame w s (.ok l) ω true).1.settings = s.settings := by
  have hc : ∀ (ω : Ω) (f : F), convolve w (quiet s.settings) ω f = f := by
    intro ω f; unfold convolve; cases w.uplink <;> simp [quiet]
  have hsl : ∀ (ω : Ω) (d : D), calcSlopes w (quiet s.settings) ω d = w.centroid d := by
    intro ω d; unfold calcSlopes; cases w.angleNoise <;> simp [quiet]
  refine ⟨?_, ?_⟩
  · simp [simpleFrame, hc, hsl]
    simp [readDetector, quiet]
  · simp [simpleFrame, quiet, restore]
    cases hss : s.settings; simp_all

/-- **C55 is not exception safe.** If the line of sight fails during an interaction-matrix frame, the sensor is left with
noise and tip-tilt removal switched off and in interaction-matrix mode. -/
theorem C55_exception_leaves_quiet (w : Sensor F D S Ω) (s : State F D S) (i : FrameIn F Ω) (e : PyErr)
    (hl : i.lights = .error e) (hi : i.iMatFrame = true) :
    (frame w s i).2 = .error e ∧
    (frame w s i).1.settings = ⟨false, false, 0, true⟩ := by
  simp [frame, hl, hi, quiet]

example : (frame (toySensor (some fun _ f => f / 2)) toyState ⟨.ok [3], 10, true, true⟩).2 = .ok 7 := by
  decide +kernel
example : (frame (toySensor none) toyState ⟨.error .valueError, 10, true, true⟩).1.settings ≠
    toyState.settings := by decide

end C55

section C09

open Soapy.Layout Soapy.Vec

/-- **C09 (offsets).** Sensor `k`'s block starts right after the blocks of the sensors before it, and the blocks
end at the total. -/
theorem C09_offsets (sizes : List ℕ) :
    (dataStarts sizes 0).1.length = sizes.length ∧ (dataStarts sizes 0).2 = sizes.sum ∧
    ∀ k : ℕ, k < sizes.length → (dataStarts sizes 0).1[k]? = some (sizes.take k).sum := by
  have gen : ∀ (sizes : List ℕ) (t : ℕ), (dataStarts sizes t).1.length = sizes.length ∧
      (dataStarts sizes t).2 = t + sizes.sum ∧
      ∀ k : ℕ, k < sizes.length → (dataStarts sizes t).1[k]? = some (t + (sizes.take k).sum) := by
    intro sizes
    induction sizes with
    | nil => intro t; simp [dataStarts]
    | cons n ns ih =>
      intro t
      obtain ⟨h1, h2, h3⟩ := ih (t + n)
      refine ⟨by simp [dataStarts, h1], by simp [dataStarts, h2]; omega, ?_⟩
      intro k hk
      cases k with
      | zero => simp [dataStarts]
      | succ k =>
        simp at hk
        simp [dataStarts, h3 k hk]; omega
  simpa using gen sizes 0

example : dataStarts [4, 0, 3] 0 = ([0, 4, 4], 7) := rfl

theorem fill_blocks (wfss : List Wfs) (ks : List ℕ) (ws : List Wfs)
    (hk : ks.mapM (fun k => wfss[k]?) = some ws) (hw : ∀ w ∈ ws, w.output.length = w.nMeas)
    (pre : List ℚ) :
    fill wfss ks pre.length (pre ++ zeros (ws.map Wfs.nMeas).sum) =
      .ok (pre ++ (ws.map Wfs.output).flatten) := by
  induction ks generalizing ws pre with
  | nil => simp at hk; subst hk; simp [fill, zeros]
  | cons k ks ih =>
    rw [List.mapM_cons] at hk
    cases hwk : wfss[k]? with
    | none => simp [hwk] at hk
    | some w =>
      cases hrest : ks.mapM (fun k => wfss[k]?) with
      | none => simp [hwk, hrest] at hk
      | some ws' =>
        simp [hwk, hrest] at hk
        subst hk
        have hlen := hw w (by simp)
        have hz : zeros (((w :: ws').map Wfs.nMeas).sum) = zeros w.nMeas ++ zeros (ws'.map Wfs.nMeas).sum := by
          simp [zeros, List.replicate_append_replicate]
        rw [fill, hwk, hz]
        have ha := assign_append pre (zeros w.nMeas) (zeros (ws'.map Wfs.nMeas).sum) w.output
          (by simp [zeros, hlen])
        rw [List.append_assoc] at ha
        rw [show (zeros w.nMeas).length = w.nMeas by simp [zeros]] at ha
        dsimp only
        rw [ha]
        dsimp only
        have := ih ws' hrest (fun w hw' => hw w (by simp [hw'])) (pre ++ w.output)
        rw [List.length_append, hlen] at this
        rw [this]
        simp

/-- **C09 (all sensors).** If every sensor returns as many values as it announces, the vector is
the concatenation of the sensors' values; entry `j` of sensor `k` is found at `dataStart_k + j`; the size is
the total. -/
theorem C09_vector_layout (wfss : List Wfs) (hw : ∀ w ∈ wfss, w.output.length = w.nMeas) :
    ∃ v, runWfs wfss none = .ok v ∧ v.length = (dataStarts (wfss.map Wfs.nMeas) 0).2 ∧
      ∀ (k : ℕ) (w : Wfs) (start : ℕ), wfss[k]? = some w →
        (dataStarts (wfss.map Wfs.nMeas) 0).1[k]? = some start →
        ∀ j : ℕ, j < w.nMeas → v[start + j]? = w.output[j]? := by
  have hm : (List.range wfss.length).mapM (fun k => wfss[k]?) = some wfss := by
    have gen : ∀ (pre suf : List Wfs),
        (List.range' pre.length suf.length).mapM (fun k => (pre ++ suf)[k]?) = some suf := by
      intro pre suf
      induction suf generalizing pre with
      | nil => simp
      | cons x xs ih =>
        have := ih (pre ++ [x])
        simp only [List.append_assoc, List.singleton_append, List.length_append, List.length_singleton] at this
        rw [List.length_cons, List.range'_succ, List.mapM_cons, this]
        simp
    have := gen [] wfss
    simpa [List.range_eq_range'] using this
  refine ⟨(wfss.map Wfs.output).flatten, ?_, ?_, ?_⟩
  · unfold runWfs
    simp only [Option.getD_none]
    rw [hm]
    have := fill_blocks wfss _ wfss hm hw []
    simpa using this
  · rw [(C09_offsets _).2.1, List.length_flatten, List.map_map]
    congr 1
    apply List.map_congr_left
    intro w hw'; simp [hw w hw']
  · intro k w start hk hstart j hj
    have hlt : k < wfss.length := by
      by_contra hc
      rw [List.getElem?_eq_none (by omega)] at hk; simp at hk
    rw [(C09_offsets _).2.2 k (by simpa using hlt)] at hstart
    simp only [Option.some.injEq] at hstart
    subst hstart
    clear hm
    induction wfss generalizing k with
    | nil => simp at hk
    | cons x xs ih =>
      cases k with
      | zero =>
        simp at hk; subst hk
        have := hw x (by simp)
        simp only [List.take_zero, List.sum_nil, Nat.zero_add, List.map_cons, List.flatten_cons]
        rw [List.getElem?_append_left (by omega)]
      | succ k =>
        simp at hk
        have hx := hw x (by simp)
        have := ih (fun w hw' => hw w (by simp [hw'])) k hk (by simpa using hlt)
        rw [← this]
        simp only [List.map_cons, List.take_succ_cons, List.sum_cons, List.flatten_cons]
        rw [List.getElem?_append_right (by omega)]
        congr 1; omega

/-- **C09 (a subset of sensors).** With an explicit sensor list the result is the concatenation in the order of
that list; an unknown sensor number is an error. -/
theorem C09_sensor_list (wfss : List Wfs) (ks : List ℕ) (hw : ∀ w ∈ wfss, w.output.length = w.nMeas) :
    (∀ ws, ks.mapM (fun k => wfss[k]?) = some ws →
      runWfs wfss (some ks) = .ok (ws.map Wfs.output).flatten) ∧
    ((∃ k ∈ ks, wfss.length ≤ k) → runWfs wfss (some ks) = .error .keyError) := by
  have mem : ∀ (ks : List ℕ) (ws : List Wfs), ks.mapM (fun k => wfss[k]?) = some ws →
      (∀ w ∈ ws, w ∈ wfss) ∧ ∀ k ∈ ks, k < wfss.length := by
    intro ks
    induction ks with
    | nil => intro ws h; simp at h; subst h; simp
    | cons k ks ih =>
      intro ws h
      rw [List.mapM_cons] at h
      cases hwk : wfss[k]? with
      | none => simp [hwk] at h
      | some w =>
        cases hrest : ks.mapM (fun k => wfss[k]?) with
        | none => simp [hwk, hrest] at h
        | some ws' =>
          simp [hwk, hrest] at h
          subst h
          obtain ⟨h1, h2⟩ := ih ws' hrest
          have hk : k < wfss.length := by
            by_contra hc
            rw [List.getElem?_eq_none (by omega)] at hwk; simp at hwk
          refine ⟨?_, ?_⟩
          · intro w' hw'
            rcases List.mem_cons.mp hw' with rfl | h'
            · exact List.mem_of_getElem? hwk
            · exact h1 w' h'
          · intro k' hk'
            rcases List.mem_cons.mp hk' with rfl | h'
            · exact hk
            · exact h2 k' h'
  constructor
  · intro ws hws
    unfold runWfs
    simp only [Option.getD_some]
    rw [hws]
    have := fill_blocks wfss ks ws hws (fun w h => hw w ((mem ks ws hws).1 w h)) []
    simpa using this
  · rintro ⟨k, hk, hlt⟩
    unfold runWfs
    simp only [Option.getD_some]
    cases h : ks.mapM (fun k => wfss[k]?) with
    | none => rfl
    | some ws => have := (mem ks ws h).2 k hk; omega

example : runWfs [⟨2, [1, 2]⟩, ⟨1, [3]⟩, ⟨3, [4, 5, 6]⟩] none = .ok [1, 2, 3, 4, 5, 6] := by decide +kernel
example : runWfs [⟨2, [1, 2]⟩, ⟨1, [3]⟩, ⟨3, [4, 5, 6]⟩] (some [2, 0]) = .ok [4, 5, 6, 1, 2] := by
  decide +kernel

end C09

end Soapy.Props
