/-
Property theorems C71–C73: laser uplink over several frames, pokes and earlier light, noise in the interaction matrix.
-/
import Verif.Props.WfsFrame
import Mathlib.Algebra.Group.Hom.Defs
import Mathlib.Algebra.BigOperators.Group.Finset.Basic
import Mathlib.Tactic.NormNum

namespace Soapy.Props

open Soapy.WfsFrame

variable {F D S Ω : Type} [AddCommMonoid F] [AddCommMonoid D]

theorem frame_uplink (w : Sensor F D S Ω) (g : Ω → F → F) (hup : w.uplink = some g) (s : State F D S) (i : FrameIn F Ω)
    (ls : List F) (hl : i.lights = .ok ls) (hi : i.iMatFrame = false) (hs : s.settings.iMat = false) :
    let fp := g i.noise (s.fp + ls.sum)
    frame w s i =
      if i.read then
        ({ s with
            fp := 0
            det := readDetector w s.settings i.noise (w.place fp)
            slopes := calcSlopes w s.settings i.noise (readDetector w s.settings i.noise (w.place fp)) },
          .ok (calcSlopes w s.settings i.noise (readDetector w s.settings i.noise (w.place fp))))
      else ({ s with fp := fp, det := s.det + w.place fp }, .ok w.noData) := by
  have hsum : ls.foldl (· + ·) s.fp = s.fp + ls.sum := foldl_add ls s.fp
  intro fp
  unfold frame
  cases hr : i.read <;> simp [hl, hi, hup, convolve, hsum, hs, fp]

/-- The spots of frames `j, j+1, …, n` applied one after the other. -/
def spots (g : ℕ → F →+ F) (j n : ℕ) (x : F) : F := (List.range' j (n + 1 - j)).foldl (fun y i => g i y) x

omit [AddCommMonoid D] in
theorem spots_succ (g : ℕ → F →+ F) (j n : ℕ) (h : j ≤ n) (x : F) : spots g j (n + 1) x = g (n + 1) (spots g j n x) := by
  unfold spots
  rw [show n + 1 + 1 - j = n + 1 - j + 1 by omega, List.range'_concat, List.foldl_append]
  simp only [List.foldl_cons, List.foldl_nil, one_mul]
  rw [show j + (n + 1 - j) = n + 1 by omega]

omit [AddCommMonoid D] in
theorem spots_self (g : ℕ → F →+ F) (n : ℕ) (x : F) : spots g n n x = g n x := by
  unfold spots
  rw [show n + 1 - n = 1 by omega]
  rfl

/-- **C71 (what the code does).** A laser-guide-star sensor with uplink, started with an empty focal plane: the image of a read frame is made of the light of all frames `j` since the last read-out, but the light of frame `j` has been blurred by the spots of *all* frames
from `j` up to the read-out. -/
theorem C71_repeated_blur (w : Sensor F D S Ω) (g : Ω → F →+ F) (hup : w.uplink = some fun ω x => g ω x) (s₀ : State F D S)
    (h0 : s₀.fp = 0) (hm : s₀.settings.iMat = false) (ins : ℕ → FrameIn F Ω) (light : ℕ → List F)
    (hl : ∀ i, (ins i).lights = .ok (light i)) (hi : ∀ i, (ins i).iMatFrame = false) (n : ℕ)
    (hr : (ins n).read = true) :
    (before w s₀ ins (n + 1)).det = readDetector w s₀.settings (ins n).noise
      (w.place (exposure (fun i => (ins i).read)
        (fun j => spots (fun i => g (ins i).noise) j n ((light j).sum)) n)) := by
  set read := fun i => (ins i).read
  set G := fun i => g (ins i).noise
  set L := fun j => (light j).sum
  have key : ∀ m, (before w s₀ ins m).settings = s₀.settings ∧
      G m ((before w s₀ ins m).fp + L m) = exposure read (fun j => spots G j m (L j)) m := by
    intro m
    induction m with
    | zero =>
      refine ⟨rfl, ?_⟩
      rw [exposure_eq]
      simp only [before, h0, zero_add]
      rw [spots_self]
      simp [pending]
    | succ m ih =>
      obtain ⟨ih1, ih2⟩ := ih
      have hset : (before w s₀ ins m).settings.iMat = false := by rw [ih1]; exact hm
      have hf := frame_uplink w (fun ω x => g ω x) hup (before w s₀ ins m) (ins m) (light m) (hl m) (hi m) hset
      have hb : before w s₀ ins (m + 1) = (frame w (before w s₀ ins m) (ins m)).1 := rfl
      simp only at hf
      rw [hb, hf]
      cases hrm : (ins m).read with
      | true =>
        refine ⟨by simp [ih1], ?_⟩
        simp only [if_true, zero_add]
        rw [exposure_eq, pending_succ, if_pos (show read m = true from hrm), zero_add, spots_self]
      | false =>
        refine ⟨by simp [ih1], ?_⟩
        simp only [Bool.false_eq_true, if_false]
        have hgm : g (ins m).noise ((before w s₀ ins m).fp + (light m).sum) =
            G m ((before w s₀ ins m).fp + L m) := rfl
        rw [hgm, ih2, map_add, exposure_eq (n := m + 1), pending_succ,
          if_neg (show ¬ read m = true by simp [read, hrm]), spots_self]
        congr 1
        unfold exposure
        rw [map_sum]
        refine Finset.sum_congr rfl fun j hj => ?_
        simp only [Finset.mem_filter, Finset.mem_range] at hj
        exact (spots_succ G j m (by omega) (L j)).symm
  obtain ⟨h1, h2⟩ := key n
  have hset : (before w s₀ ins n).settings.iMat = false := by rw [h1]; exact hm
  have hf := frame_uplink w (fun ω x => g ω x) hup (before w s₀ ins n) (ins n) (light n) (hl n) (hi n) hset
  have hb : before w s₀ ins (n + 1) = (frame w (before w s₀ ins n) (ins n)).1 := rfl
  simp only at hf
  rw [hb, hf, if_pos hr]
  simp only
  rw [h1]
  congr 2

/-- **C71 (partial: read-out in every frame).** If the frame before was read (or there is none), the image is the light of this frame blurred once by the spot of this frame.
Missing: exposures over several frames (`C71_violated`). -/
theorem C71_single_frame_partial (w : Sensor F D S Ω) (g : Ω → F →+ F) (hup : w.uplink = some fun ω x => g ω x) (s₀ : State F D S)
    (h0 : s₀.fp = 0) (hm : s₀.settings.iMat = false) (ins : ℕ → FrameIn F Ω) (light : ℕ → List F)
    (hl : ∀ i, (ins i).lights = .ok (light i)) (hi : ∀ i, (ins i).iMatFrame = false)
    (hr : ∀ i, (ins i).read = true) (n : ℕ) :
    (before w s₀ ins (n + 1)).det = readDetector w s₀.settings (ins n).noise (w.place (g (ins n).noise (light n).sum)) := by
  rw [C71_repeated_blur w g hup s₀ h0 hm ins light hl hi n (hr n), exposure_eq, spots_self]
  congr 2
  cases n with
  | zero => simp [pending]
  | succ n => rw [pending_succ, if_pos (hr n), zero_add]

/-- **C71 is violated by exposures over two frames**: the spot halves what it gets; the light 8 of the first frame is halved twice, so the image holds 2 + 4 instead of 4 + 4. -/
theorem C71_violated :
    let w : Sensor ℚ ℚ ℚ ℚ := { toySensor (some fun _ f => f / 2) with place := fun f => f }
    let ins : ℕ → FrameIn ℚ ℚ := fun n => ⟨.ok [8], 0, n % 2 == 1, false⟩
    let s₀ : State ℚ ℚ ℚ := ⟨0, 0, 0, ⟨false, false, 0, false⟩⟩
    (before w s₀ ins 2).det = 2 + 4 ∧ exposure (fun i => (ins i).read) (fun _ => (8 / 2 : ℚ)) 1 = 4 + 4 := by
  decide +kernel

/-! ### C72 -/

/-- The focal plane is empty and the sensor in normal mode after every completed read-out. -/
theorem frame_clears (w : Sensor F D S Ω) (s : State F D S) (i : FrameIn F Ω) (ls : List F) (hl : i.lights = .ok ls)
    (hr : i.read = true) (hs : s.settings.iMat = false) :
    (frame w s i).1.fp = 0 ∧ (frame w s i).1.settings.iMat = false := by
  cases hi : i.iMatFrame <;> simp [frame, hl, hr, hi, restore, hs]

theorem frame_mode (w : Sensor F D S Ω) (s : State F D S) (i : FrameIn F Ω) (ls : List F) (hl : i.lights = .ok ls)
    (hs : s.settings.iMat = false) : (frame w s i).1.settings.iMat = false := by
  cases hi : i.iMatFrame <;> cases hr : i.read <;> simp [frame, hl, hr, hi, restore, hs]

/-- **C72 (partial: the last frame was read out).** Let a sensor run any completed frames, normal or pokes, read or not, with or without uplink; if the last of them was read, the response to a poke is the noise-free image of the poke's light alone, and is the same for all such histories.
Missing: pokes after a frame that was not read (`C72_violated`). -/
theorem C72_history_partial (w : Sensor F D S Ω) (s₀ : State F D S) (hm : s₀.settings.iMat = false)
    (ins : ℕ → FrameIn F Ω) (light : ℕ → List F) (hl : ∀ i, (ins i).lights = .ok (light i)) (n : ℕ)
    (hr : (ins n).read = true) (poke : List F) (ω : Ω) :
    (frame w (before w s₀ ins (n + 1)) ⟨.ok poke, ω, true, true⟩).2 =
      .ok (w.centroid (w.scale (w.place poke.sum))) := by
  have hmode : ∀ m, (before w s₀ ins m).settings.iMat = false := by
    intro m
    induction m with
    | zero => exact hm
    | succ m ih => exact frame_mode w _ _ _ (hl m) ih
  obtain ⟨h1, h2⟩ := frame_clears w (before w s₀ ins n) (ins n) (light n) (hl n) hr (hmode n)
  have := (C55_imat_frame_quiet w (before w s₀ ins (n + 1)) ⟨.ok poke, ω, true, true⟩ poke rfl rfl rfl h2).1
  rw [this]
  have hb : (before w s₀ ins (n + 1)).fp = 0 := h1
  rw [hb, zero_add]

/-- **C72 is violated after a frame without read-out**: its light is added to the first poke. -/
theorem C72_violated :
    let s : State ℚ ℚ ℚ := ⟨0, 0, 0, ⟨false, false, 0, false⟩⟩
    let ins : ℕ → FrameIn ℚ ℚ := fun _ => ⟨.ok [100], 0, false, false⟩
    (frame (toySensor none) (before (toySensor none) s ins 0) ⟨.ok [3], 0, true, true⟩).2 = .ok 7 ∧
    (frame (toySensor none) (before (toySensor none) s ins 1) ⟨.ok [3], 0, true, true⟩).2 = .ok 207 := by
  decide +kernel

example : (frame (toySensor (some fun _ f => f / 2)) (before (toySensor (some fun _ f => f / 2)) toyState toyIn 4)
    ⟨.ok [3], 10, true, true⟩).2 = .ok 7 := by decide +kernel

/-! ### C73 -/

/-- **C73 (noise off; settings).** With or without `imat_noise`, a completed poke leaves all settings of the sensor as they were. -/
theorem C73_settings (w : Sensor F D S Ω) (imatNoise : Bool) (s : State F D S) (ls : List F) (ω : Ω)
    (hs : s.settings.iMat = false) : (pokeSensor w imatNoise s (.ok ls) ω).1.settings = s.settings := by
  unfold pokeSensor
  cases imatNoise <;> simp [frame, quiet, restore] <;> cases hc : s.settings <;> simp_all

/-- **C73 (partial: option off).** Without `imat_noise` the response does not depend on the random numbers.
Missing: with the option on, noise should enter and does not (`C73_violated`). -/
theorem C73_noise_off_partial (w : Sensor F D S Ω) (s : State F D S) (ls : List F) (ω ω' : Ω)
    (hs : s.settings.iMat = false) :
    (pokeSensor w false s (.ok ls) ω).2 = (pokeSensor w false s (.ok ls) ω').2 := by
  have key : ∀ ω, (pokeSensor w false s (.ok ls) ω).2 = .ok (w.centroid (w.scale (w.place (s.fp + ls.sum)))) := by
    intro ω
    have h := (C55_imat_frame_quiet w { s with settings := { s.settings with photonNoise := false, eReadNoise := 0 } }
      ⟨.ok ls, ω, true, true⟩ ls rfl rfl rfl hs).1
    unfold pokeSensor
    simp only [if_true]
    cases hf : frame w { s with settings := { s.settings with photonNoise := false, eReadNoise := 0 } }
      ⟨.ok ls, ω, true, true⟩ with
    | mk s' r =>
      rw [hf] at h
      simp only at h
      subst h
      rfl
  rw [key ω, key ω']

/-- **C73 is violated**: switching `imat_noise` on changes nothing, for any sensor, state, light and random numbers. -/
theorem C73_violated (w : Sensor F D S Ω) (s : State F D S) (ls : List F) (ω ω' : Ω) (hs : s.settings.iMat = false) :
    (pokeSensor w true s (.ok ls) ω).2 = (pokeSensor w false s (.ok ls) ω').2 := by
  have key : ∀ b ω, (pokeSensor w b s (.ok ls) ω).2 = .ok (w.centroid (w.scale (w.place (s.fp + ls.sum)))) := by
    intro b ω
    unfold pokeSensor
    cases b with
    | false =>
      have h := (C55_imat_frame_quiet w { s with settings := { s.settings with photonNoise := false, eReadNoise := 0 } }
        ⟨.ok ls, ω, true, true⟩ ls rfl rfl rfl hs).1
      simp only [if_true]
      cases hf : frame w { s with settings := { s.settings with photonNoise := false, eReadNoise := 0 } }
        ⟨.ok ls, ω, true, true⟩ with
      | mk s' r =>
        rw [hf] at h
        simp only at h
        subst h
        rfl
    | true =>
      have h := (C55_imat_frame_quiet w s ⟨.ok ls, ω, true, true⟩ ls rfl rfl rfl hs).1
      simp only [Bool.true_eq_false, if_false]
      cases hf : frame w s ⟨.ok ls, ω, true, true⟩ with
      | mk s' r =>
        rw [hf] at h
        simp only at h
        subst h
        rfl
  rw [key true ω, key false ω']

example : (pokeSensor (toySensor none) true toyState (.ok [3]) 10).2 = .ok 7 ∧
    (pokeSensor (toySensor none) true toyState (.ok [3]) 10).1.settings = ⟨false, true, 1 / 2, false⟩ := by decide +kernel

end Soapy.Props
