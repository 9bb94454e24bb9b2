/-
Property theorems C45, C46, C60: science exposures, wavefront error, array sizes of the science camera.
-/
import Verif.Model.Science
import Verif.Lemmas.Py
import Mathlib.Tactic.Linarith
import Mathlib.Tactic.FieldSimp
import Mathlib.Tactic.Positivity
import Mathlib.Analysis.InnerProductSpace.PiL2

namespace Soapy.Props

open Soapy.Science

/-! ### C45 -/

/-- The frames since the last reset. -/
def since {n : ℕ} : List (Ev n) → List (Img n) → List (Img n)
  | [], acc => acc
  | .frame r :: es, acc => since es (acc ++ [r])
  | .reset :: es, _ => since es []

/-- **C45.** Whatever happened before, the camera only depends on the frames since the last reset: accumulated intensity is their sum, the long exposure that sum with unit flux, and the detector the
last frame with unit flux. -/
theorem C45_sum_since_reset {n : ℕ} (ideal : Img n) (evs : List (Ev n)) :
    let s := runCam (init ideal) evs
    let fs := since evs []
    s.acc = (fun i => (fs.map fun f => f i).sum) ∧
    s.long = (if fs = [] then some (fun _ => 0) else unit fun i => (fs.map fun f => f i).sum) ∧
    s.det = (match fs.getLast? with | none => some (fun _ => 0) | some f => unit f) := by
  have main : ∀ (evs : List (Ev n)) (s : Cam n) (fs : List (Img n)),
      s.acc = (fun i => (fs.map fun f => f i).sum) →
      s.long = (if fs = [] then some (fun _ => 0) else unit fun i => (fs.map fun f => f i).sum) →
      s.det = (match fs.getLast? with | none => some (fun _ => 0) | some f => unit f) →
      (runCam s evs).acc = (fun i => ((since evs fs).map fun f => f i).sum) ∧
      (runCam s evs).long = (if since evs fs = [] then some (fun _ => 0) else unit fun i => ((since evs fs).map fun f => f i).sum) ∧
      (runCam s evs).det = (match (since evs fs).getLast? with | none => some (fun _ => 0) | some f => unit f) := by
    intro evs
    induction evs with
    | nil => intro s fs h1 h2 h3; exact ⟨h1, h2, h3⟩
    | cons e es ih =>
      intro s fs h1 h2 h3
      cases e with
      | frame r =>
        have hacc : (step s (.frame r)).acc = fun i => ((fs ++ [r]).map fun f => f i).sum := by
          funext i; simp [step, h1]
        refine ih (step s (.frame r)) (fs ++ [r]) hacc ?_ ?_
        · rw [if_neg (by simp), ← hacc]; rfl
        · simp [step]
      | reset => exact ih blank [] rfl rfl rfl
  exact main evs (init ideal) [] rfl rfl rfl

/-- **C45 (unit flux).** Instantaneous and long exposure images have unit flux whenever they saw light. -/
theorem C45_unit_flux {n : ℕ} (a : Img n) (h : ∑ i, a i ≠ 0) : ∃ u, unit a = some u ∧ ∑ i, u i = 1 ∧ ∀ i, u i * ∑ j, a j = a i := by
  refine ⟨_, if_neg h, ?_, ?_⟩
  · rw [← Finset.sum_div]; exact div_self h
  · intro i; field_simp

/-- **C45 (reset).** A reset forgets everything: afterwards the camera is the same as a new one. -/
theorem C45_reset_forgets {n : ℕ} (ideal : Img n) (before after : List (Ev n)) :
    runCam (init ideal) (before ++ .reset :: after) = runCam (init ideal) after := by
  unfold runCam
  rw [List.foldl_append, List.foldl_cons]
  rfl

/-- **C45 (weights).** If all frames contain the same light, the long exposure is the plain average of the unit-flux images. -/
theorem C45_average {n : ℕ} (fs : List (Img n)) (F : ℚ) (hF : F ≠ 0) (hne : fs ≠ []) (hf : ∀ f ∈ fs, ∑ i, f i = F) :
    unit (fun i => (fs.map fun f => f i).sum) = some fun i => (fs.map fun f => f i / F).sum / fs.length := by
  have tot : ∀ fs : List (Img n), (∀ f ∈ fs, ∑ i, f i = F) → ∑ i, (fs.map fun f => f i).sum = fs.length * F := by
    intro fs
    induction fs with
    | nil => intro _; simp
    | cons f fs ih =>
      intro h
      simp only [List.map_cons, List.sum_cons, Finset.sum_add_distrib, h f (by simp), ih (fun g hg => h g (by simp [hg])), List.length_cons]
      push_cast; ring
  have hl : (fs.length : ℚ) ≠ 0 := by
    have : fs.length ≠ 0 := by simpa using hne
    exact_mod_cast this
  unfold unit
  rw [tot fs hf, if_neg (mul_ne_zero hl hF)]
  congr 1
  funext i
  have : (fs.map fun f => f i / F) = (fs.map fun f => f i).map fun a => a * F⁻¹ := by
    rw [List.map_map]; rfl
  rw [this, List.sum_map_mul_right, List.map_id']
  field_simp

/-- **C45 (finding).** Frames are added before they are normalised, so frames with different amounts of light on the detector are not weighted equally. -/
theorem C45_unequal_weights : ∃ a b : Img 2, (∀ i, 0 ≤ a i ∧ 0 ≤ b i) ∧
    (runCam (init fun _ => 1) [.frame a, .frame b]).long = some ![4 / 5, 1 / 5] ∧ unit a = some ![1, 0] ∧ unit b = some ![0, 1] := by
  refine ⟨![4, 0], ![0, 1], by decide +kernel, ?_, ?_, ?_⟩
  · have : ∀ x : Option (Img 2), x = some ![4 / 5, 1 / 5] ↔ x.isSome ∧ ∀ i, (x.getD 0) i = ![4 / 5, 1 / 5] i := by
      intro x
      cases x with
      | none => simp
      | some v => simp [funext_iff]
    rw [this]; decide +kernel
  · unfold unit
    rw [if_neg (by decide +kernel)]
    congr 1; funext i; revert i; decide +kernel
  · unfold unit
    rw [if_neg (by decide +kernel)]
    congr 1; funext i; revert i; decide +kernel

/-- **C45 (Strehl).** A perfect wavefront has Strehl ratio one, instantaneously and over any number of frames; with tip-tilt included the ratio is at most one. -/
theorem C45_strehl_ideal {n : ℕ} (ideal : Img (n + 1)) (hpos : ∀ i, 0 ≤ ideal i) (hsum : ∑ i, ideal i ≠ 0) (k : ℕ) (c : Fin (n + 1)) :
    let s := runCam (init ideal) (List.replicate (k + 1) (.frame ideal))
    strehl ideal s.det = some 1 ∧ strehl ideal s.long = some 1 ∧ ∃ r, strehlTT ideal c s.long = some r ∧ 0 ≤ r ∧ r ≤ 1 := by
  have hS : 0 < ∑ i, ideal i := lt_of_le_of_ne (Finset.sum_nonneg fun i _ => hpos i) (Ne.symm hsum)
  have hu : unit ideal = some fun i => ideal i / ∑ j, ideal j := if_neg hsum
  have hs : ∀ m : ℕ, ∀ fs, since (List.replicate m (Ev.frame ideal)) fs = fs ++ List.replicate m ideal := by
    intro m
    induction m with
    | zero => intro fs; simp [since]
    | succ m ih => intro fs; rw [List.replicate_succ, since, ih, List.replicate_succ]; simp
  obtain ⟨_, h2, h3⟩ := C45_sum_since_reset ideal (List.replicate (k + 1) (.frame ideal))
  rw [hs, List.nil_append] at h2 h3
  have hlong : unit (fun i => ((List.replicate (k + 1) ideal).map fun f => f i).sum) = unit ideal := by
    rw [C45_average (List.replicate (k + 1) ideal) (∑ i, ideal i) hsum (by simp) (by intro f hf; rw [List.eq_of_mem_replicate hf]), hu]
    congr 1
    funext i
    simp only [List.map_replicate, List.sum_replicate, List.length_replicate, nsmul_eq_mul]
    have : ((k + 1 : ℕ) : ℚ) ≠ 0 := by positivity
    field_simp
  rw [if_neg (by simp), hlong] at h2
  have h3' : (runCam (init ideal) (List.replicate (k + 1) (.frame ideal))).det = unit ideal := by
    rw [h3, List.getLast?_replicate]; simp
  have hpk : 0 < peak (fun i => ideal i / ∑ j, ideal j) := by
    have : ∃ i, ideal i ≠ 0 := by
      by_contra hh
      push Not at hh
      exact hsum (Finset.sum_eq_zero fun i _ => hh i)
    obtain ⟨i, hi⟩ := this
    have hi' : 0 < ideal i := lt_of_le_of_ne (hpos i) (Ne.symm hi)
    exact lt_of_lt_of_le (div_pos hi' hS) (Finset.le_sup' (fun i => ideal i / ∑ j, ideal j) (Finset.mem_univ i))
  have hle : ideal c / ∑ j, ideal j ≤ peak (fun i => ideal i / ∑ j, ideal j) := Finset.le_sup' (fun i => ideal i / ∑ j, ideal j) (Finset.mem_univ c)
  dsimp only
  rw [h2, h3', hu]
  unfold strehl strehlTT
  rw [hu]
  dsimp only
  rw [if_neg hpk.ne', if_neg hpk.ne']
  refine ⟨by rw [div_self hpk.ne'], by rw [div_self hpk.ne'], _, rfl, ?_, ?_⟩
  · exact div_nonneg (div_nonneg (hpos c) hS.le) hpk.le
  · rw [div_le_one hpk]; exact hle

example : (runCam (init fun _ => 1) [.frame ![9, 9], .reset, .frame ![1, 3], .frame ![3, 1], .frame ![2, 2]] : Cam 2).acc = ![6, 6] := by
  funext i; revert i; decide +kernel

/-! ### C46 -/

section
variable {ι : Type} [Fintype ι]

theorem flattened_eq (mask phase : ι → ℝ) (c : ℝ) (i : ι) :
    flattened mask phase c i = mask i * (phase i / c - (∑ j, phase j * mask j / c) / ∑ j, mask j) := by
  unfold flattened; ring

/-- **C46 (sign).** Never negative. -/
theorem C46_nonneg (mask phase : ι → ℝ) (c : ℝ) : 0 ≤ wfe mask phase c := Real.sqrt_nonneg _

/-- **C46 (piston).** Adding a constant phase changes nothing. -/
theorem C46_piston (mask phase : ι → ℝ) (c k : ℝ) (hM : ∑ i, mask i ≠ 0) : wfe mask (fun i => phase i + k) c = wfe mask phase c := by
  have : flattened mask (fun i => phase i + k) c = flattened mask phase c := by
    funext i
    rw [flattened_eq, flattened_eq]
    have e : ∑ j, (phase j + k) * mask j / c = ∑ j, phase j * mask j / c + k / c * ∑ j, mask j := by
      rw [Finset.mul_sum, ← Finset.sum_add_distrib]
      apply Finset.sum_congr rfl; intro j _; ring
    rw [e, add_div (∑ j, phase j * mask j / c), mul_div_assoc, div_self hM]; ring
  unfold wfe; rw [this]

/-- **C46 (scaling).** Proportional to the residual. -/
theorem C46_homogeneous (mask phase : ι → ℝ) (c k : ℝ) : wfe mask (fun i => k * phase i) c = |k| * wfe mask phase c := by
  have : ∀ i, flattened mask (fun i => k * phase i) c i = k * flattened mask phase c i := by
    intro i
    rw [flattened_eq, flattened_eq]
    have e : ∑ j, k * phase j * mask j / c = k * ∑ j, phase j * mask j / c := by
      rw [Finset.mul_sum]; apply Finset.sum_congr rfl; intro j _; ring
    rw [e]; ring
  unfold wfe
  simp only [this, mul_pow, ← Finset.mul_sum]
  rw [mul_div_assoc, Real.sqrt_mul (sq_nonneg k), Real.sqrt_sq_eq_abs]

/-- **C46 (zero).** Zero exactly if the phase is constant where the aperture is open. -/
theorem C46_zero_iff (mask phase : ι → ℝ) (c : ℝ) (hc : c ≠ 0) (hM : 0 < ∑ i, mask i) :
    wfe mask phase c = 0 ↔ ∃ k, ∀ i, mask i ≠ 0 → phase i = k := by
  unfold wfe
  rw [Real.sqrt_eq_zero (div_nonneg (Finset.sum_nonneg fun i _ => sq_nonneg _) hM.le), div_eq_zero_iff, or_iff_left hM.ne',
    Finset.sum_eq_zero_iff_of_nonneg (fun i _ => sq_nonneg _)]
  constructor
  · intro h
    refine ⟨(∑ j, phase j * mask j / c) / (∑ j, mask j) * c, fun i hi => ?_⟩
    have := pow_eq_zero_iff (two_ne_zero) |>.mp (h i (Finset.mem_univ i))
    rw [flattened_eq, mul_eq_zero, or_iff_right hi] at this
    have h2 : phase i / c = (∑ j, phase j * mask j / c) / ∑ j, mask j := by linarith
    rw [← h2]; field_simp
  · rintro ⟨k, hk⟩ i _
    rw [flattened_eq]
    have e : ∑ j, phase j * mask j / c = k / c * ∑ j, mask j := by
      rw [Finset.mul_sum]
      apply Finset.sum_congr rfl
      intro j _
      by_cases hj : mask j = 0
      · rw [hj]; ring
      · rw [hk j hj]; ring
    rw [e, mul_div_assoc, div_self hM.ne']
    by_cases hi : mask i = 0
    · rw [hi]; ring
    · rw [hk i hi]; ring

/-- **C46 (triangle inequality).** The error of a sum of residuals is at most the sum of the errors. -/
theorem C46_triangle (mask phase psi : ι → ℝ) (c : ℝ) :
    wfe mask (fun i => phase i + psi i) c ≤ wfe mask phase c + wfe mask psi c := by
  have hadd : flattened mask (fun i => phase i + psi i) c = fun i => flattened mask phase c i + flattened mask psi c i := by
    funext i
    rw [flattened_eq, flattened_eq, flattened_eq]
    have e : ∑ j, (phase j + psi j) * mask j / c = ∑ j, phase j * mask j / c + ∑ j, psi j * mask j / c := by
      rw [← Finset.sum_add_distrib]; apply Finset.sum_congr rfl; intro j _; ring
    rw [e]; ring
  have nrm : ∀ v : ι → ℝ, Real.sqrt ((∑ i, v i ^ 2) / ∑ i, mask i) = ‖(WithLp.toLp 2 v : EuclideanSpace ℝ ι)‖ / Real.sqrt (∑ i, mask i) := by
    intro v
    rw [EuclideanSpace.norm_eq, Real.sqrt_div (Finset.sum_nonneg fun i _ => sq_nonneg _)]
    simp [sq_abs]
  unfold wfe
  rw [hadd, nrm, nrm, nrm, ← add_div]
  apply div_le_div_of_nonneg_right _ (Real.sqrt_nonneg _)
  exact norm_add_le (WithLp.toLp 2 (flattened mask phase c) : EuclideanSpace ℝ ι) (WithLp.toLp 2 (flattened mask psi c))

/-- **C46 (nothing more than piston is removed).** For an open/closed aperture, the reported error is the smallest root-mean-square over all choices of a constant. -/
theorem C46_least_squares (mask phase : ι → ℝ) (c k : ℝ) (h01 : ∀ i, mask i = 0 ∨ mask i = 1) (hM : 0 < ∑ i, mask i) :
    wfe mask phase c ≤ Real.sqrt ((∑ i, mask i * (phase i / c - k) ^ 2) / ∑ i, mask i) := by
  unfold wfe
  apply Real.sqrt_le_sqrt
  apply div_le_div_of_nonneg_right _ hM.le
  set p := (∑ j, phase j * mask j / c) / ∑ j, mask j with hp
  have e1 : ∀ i, flattened mask phase c i ^ 2 = mask i * (phase i / c - p) ^ 2 := by
    intro i
    rw [flattened_eq, ← hp]
    rcases h01 i with h | h <;> rw [h] <;> ring
  have e2 : ∑ i, mask i * (phase i / c - p) = 0 := by
    have : ∑ i, mask i * (phase i / c - p) = ∑ j, phase j * mask j / c - p * ∑ j, mask j := by
      rw [Finset.mul_sum, ← Finset.sum_sub_distrib]
      apply Finset.sum_congr rfl; intro j _; ring
    rw [this, hp, div_mul_cancel₀ _ hM.ne', sub_self]
  have e3 : ∑ i, mask i * (phase i / c - k) ^ 2 = ∑ i, mask i * (phase i / c - p) ^ 2 + (p - k) ^ 2 * ∑ i, mask i := by
    have : ∑ i, mask i * (phase i / c - k) ^ 2 =
        ∑ i, (mask i * (phase i / c - p) ^ 2 + 2 * (p - k) * (mask i * (phase i / c - p)) + (p - k) ^ 2 * mask i) := by
      apply Finset.sum_congr rfl; intro i _; ring
    rw [this, Finset.sum_add_distrib, Finset.sum_add_distrib, ← Finset.mul_sum, ← Finset.mul_sum, e2]; ring
  simp only [e1]
  rw [e3]
  have : 0 ≤ (p - k) ^ 2 * ∑ i, mask i := mul_nonneg (sq_nonneg _) hM.le
  linarith

end

example : wfe (ι := Fin 3) ![1, 1, 0] ![3, 5, 100] 1 = 1 := by
  unfold wfe
  have : ∀ i, flattened (ι := Fin 3) ![1, 1, 0] ![3, 5, 100] 1 i = ![-1, 1, 0] i := by
    intro i
    rw [flattened_eq]
    fin_cases i <;> simp [Fin.sum_univ_three] <;> norm_num
  simp only [this, Fin.sum_univ_three]
  simp

/-! ### C60 -/

/-- **C60 (partial: even cropping).** If the part of the focal plane to be cropped is an even number of elements and the padding search has ended, a science frame never fails on array sizes: the field fits into the FFT array, the crop has
exactly the size of the focal-plane array, and binning uses every element of it. Missing: odd cropping, see `C60_odd_crop_fails`. -/
theorem C60_sizes_partial (k pupil px f : ℕ) (hk : 1 ≤ k) (hsearch : k * (1 + pupil / k) ≤ px * f) (heven : px * f * (pupil / k) % 2 = 0) :
    ∃ s, sizes k pupil px f = .ok s ∧ focalPlane s px f = .ok () ∧ s.focus = px * f ∧ pupil < s.fov := by
  refine ⟨_, if_neg (by omega), ?_, ?_, ?_⟩
  · set c := 1 + pupil / k with hc
    have hcpos : 0 < c := Nat.add_pos_left Nat.one_pos _
    have hn : px * f * c / c = px * f := Nat.mul_div_cancel _ hcpos
    have hfov : k * c ≤ px * f * c := le_trans hsearch (Nat.le_mul_of_pos_right _ hcpos)
    have hfov1 : 1 ≤ k * c := Nat.mul_pos hk hcpos
    have hcrop : px * f * c - px * f = px * f * (pupil / k) := by rw [hc, Nat.mul_add, Nat.mul_one]; omega
    have hexp : px * f * c = px * f + px * f * (pupil / k) := by rw [hc]; ring
    unfold focalPlane
    dsimp only
    rw [if_neg, if_neg, if_neg]
    · rw [hn]; omega
    · rw [hn]
      unfold focalSize
      dsimp only
      rw [hcrop, hexp]
      generalize px * f * (pupil / k) = e at *
      unfold sliceLen sliceBound
      split_ifs <;> omega
    · generalize px * f * c = N at *
      generalize k * c = F at *
      unfold sliceLen sliceBound
      split_ifs <;> omega
  · dsimp only
    rw [Nat.mul_div_cancel _ (Nat.add_pos_left Nat.one_pos _)]
  · dsimp only
    rw [Nat.mul_add, Nat.mul_one]
    have := Nat.div_add_mod pupil k
    have := Nat.mod_lt pupil hk
    omega

/-- **C60 (violated).** If an odd number of elements has to be cropped (odd pixel count, odd oversampling, even crop factor), every science frame, already the calibration frame, raises. -/
theorem C60_odd_crop_fails (k pupil px f : ℕ) (hk : 1 ≤ k) (hsearch : k * (1 + pupil / k) ≤ px * f) (hodd : px * f * (pupil / k) % 2 = 1) (hf : 1 < px * f * (pupil / k)) :
    ∃ s, sizes k pupil px f = .ok s ∧ focalPlane s px f = .error .valueError := by
  refine ⟨_, if_neg (by omega), ?_⟩
  set c := 1 + pupil / k with hc
  have hcpos : 0 < c := Nat.add_pos_left Nat.one_pos _
  have hn : px * f * c / c = px * f := Nat.mul_div_cancel _ hcpos
  have hfov : k * c ≤ px * f * c := le_trans hsearch (Nat.le_mul_of_pos_right _ hcpos)
  have hcrop : px * f * c - px * f = px * f * (pupil / k) := by rw [hc, Nat.mul_add, Nat.mul_one]; omega
  have hexp : px * f * c = px * f + px * f * (pupil / k) := by rw [hc]; ring
  unfold focalPlane
  dsimp only
  split_ifs with h1 h2 h3
  · rfl
  · rfl
  all_goals
    exfalso
    apply h2
    rw [hn]
    unfold focalSize
    dsimp only
    rw [hcrop, hexp]
    generalize px * f * (pupil / k) = e at *
    unfold sliceLen sliceBound
    split_ifs <;> omega

example : (sizes 6 8 5 3).bind (fun s => focalPlane s 5 3) = .error .valueError ∧ (sizes 6 8 5 4).bind (fun s => focalPlane s 5 4) = .ok () := by decide

/-- **C60 (physical propagation).** With at least one pixel of simulation padding, cropping the propagated field leaves exactly the aperture. -/
theorem C60_physical (k pupil pad : ℕ) (hk : 1 ≤ k) (hp : 1 ≤ pupil) (hpad : 1 ≤ pad) :
    physSize (k * (1 + pupil / k)) (pupil + 2 * pad) pupil = k * (1 + pupil / k) := by
  have hfov : pupil < k * (1 + pupil / k) := by
    rw [Nat.mul_add, Nat.mul_one]
    have := Nat.div_add_mod pupil k
    have := Nat.mod_lt pupil hk
    omega
  generalize k * (1 + pupil / k) = F at *
  have hge : (F : ℤ) + 2 ≤ pyRound ((F : ℚ) * ((pupil + 2 * pad : ℕ) : ℚ) / pupil) := by
    have h1 : ((F + 2 : ℤ) : ℚ) ≤ (F : ℚ) * ((pupil + 2 * pad : ℕ) : ℚ) / pupil := by
      have hp' : (0 : ℚ) < pupil := by exact_mod_cast hp
      rw [le_div_iff₀ hp']
      push_cast
      have a1 : (pupil : ℚ) ≤ F := by exact_mod_cast hfov.le
      have a2 : (1 : ℚ) ≤ pad := by exact_mod_cast hpad
      nlinarith
    have := pyRound_mono h1
    rw [pyRound_int] at this
    exact this
  unfold physSize physPad
  dsimp only
  generalize pyRound ((F : ℚ) * ((pupil + 2 * pad : ℕ) : ℚ) / pupil) = r at *
  obtain ⟨m, rfl⟩ : ∃ m : ℕ, r = m := ⟨r.toNat, by omega⟩
  rw [Int.toNat_natCast]
  unfold sliceLen sliceBound
  split_ifs <;> omega

/-- **C60 (no padding).** Without simulation padding the crop is empty: `[0:-0]`. -/
theorem C60_no_padding (F pupil : ℕ) (hp : 1 ≤ pupil) : physSize F pupil pupil = 0 := by
  have : pyRound ((F : ℚ) * pupil / pupil) = F := by
    have hp' : (pupil : ℚ) ≠ 0 := by positivity
    rw [mul_div_cancel_right₀ _ hp']
    exact_mod_cast pyRound_int F
  unfold physSize physPad
  dsimp only
  rw [this, Int.toNat_natCast, if_neg (by simp)]
  simp [sliceLen, sliceBound]

example : physSize 12 10 8 = 12 ∧ physSize 12 8 8 = 0 := by decide +kernel

end Soapy.Props
