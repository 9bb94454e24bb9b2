/-
Property theorems C110 and C111, continued: steady drift, and the whole simulation, for all gains for which the loop is stable.
-/
import Verif.Props.Whole
import Verif.Props.Response

namespace Soapy.Props

open Soapy.Mirror Soapy.Interp Soapy.Los Soapy.Whole Soapy.Loop Soapy.Control

/-! ### Steady drift and scale -/

private theorem sum_leftOver (d : ℕ) (g : ℚ) (hg : g ≠ 0) (m : ℕ) : ∑ t ∈ Finset.range m, leftOver d g 1 t = (1 - leftOver d g 1 (m + d)) / g := by
  rw [leftOver_sum d g 1 (m + d), Nat.add_sub_cancel, ← Finset.mul_sum]
  field_simp
  ring

/-- **C110 (steady drift, exact).** For any delay and any gain other than 0, an aberration that grows by `v` in every frame and is measured with the constant error `β`: what is left in frame `n`, for all `n`. -/
theorem C110_ramp_exact (d : ℕ) (g a₀ v β : ℚ) (hg : g ≠ 0) (n : ℕ) (hn : d ≤ n) :
    lag d g (fun k => a₀ + k * v) (fun _ => β) n = v / g - β + (a₀ + β) * leftOver d g 1 n - v / g * leftOver d g 1 (n + d) := by
  rw [C110_response]
  have e1 : ∑ k ∈ Finset.range n, leftOver d g 1 (n - 1 - k) * ((a₀ + ((k + 1 : ℕ) : ℚ) * v) - (a₀ + (k : ℚ) * v)) = v * ((1 - leftOver d g 1 (n + d)) / g) := by
    rw [← sum_leftOver d g hg, ← Finset.sum_range_reflect (fun t => leftOver d g 1 t) n, Finset.mul_sum]
    refine Finset.sum_congr rfl fun k _ => ?_
    push_cast
    ring
  have e2 : ∑ k ∈ Finset.range (n - d), leftOver d g 1 (n - d - 1 - k) * β = (1 - leftOver d g 1 n) / g * β := by
    rw [← Finset.sum_mul, Finset.sum_range_reflect (fun t => leftOver d g 1 t) (n - d), sum_leftOver d g hg, Nat.sub_add_cancel hn]
  rw [e1, e2]
  push_cast
  field_simp
  ring

/-- **C110 (steady drift, limit).** It tends to `v / g - β` for all gains for which the loop is stable. -/
theorem C110_ramp_stable (d : ℕ) (g a₀ v β : ℚ) (h0 : 0 < g) (hs : (g : ℝ) < 2 * Real.sin (Real.pi / (2 * (2 * d + 1)))) :
    Settles fun n => lag d g (fun k => a₀ + k * v) (fun _ => β) n - (v / g - β) := by
  have hst := (C79_exact d g 1 one_ne_zero).mpr ⟨h0, hs⟩
  intro ε hε
  obtain ⟨N, hN⟩ := hst (ε / (|a₀ + β| + |v / g| + 1)) (by positivity)
  refine ⟨N + d, fun n hn => ?_⟩
  dsimp only
  rw [C110_ramp_exact d g a₀ v β (ne_of_gt h0) n (by omega)]
  have h1 := hN n (by omega)
  have h2 := hN (n + d) (by omega)
  generalize leftOver d g 1 n = x at h1 ⊢
  generalize leftOver d g 1 (n + d) = y at h2 ⊢
  have hp : 0 < |a₀ + β| + |v / g| + 1 := by positivity
  rw [lt_div_iff₀ hp] at h1 h2
  calc |v / g - β + (a₀ + β) * x - v / g * y - (v / g - β)| = |(a₀ + β) * x - v / g * y| := by congr 1; ring
    _ ≤ |(a₀ + β) * x| + |v / g * y| := abs_sub _ _
    _ = |a₀ + β| * |x| + |v / g| * |y| := by rw [abs_mul, abs_mul]
    _ < ε := by
      by_cases hxy : |x| ≤ |y|
      · have : |a₀ + β| * |x| ≤ |a₀ + β| * |y| := mul_le_mul_of_nonneg_left hxy (abs_nonneg _)
        nlinarith [abs_nonneg y]
      · have : |v / g| * |y| ≤ |v / g| * |x| := mul_le_mul_of_nonneg_left (le_of_lt (not_le.mp hxy)) (abs_nonneg _)
        nlinarith [abs_nonneg x]

/-- The default gain with two frames of delay, outside the range of `C110_ramp`. -/
example : Settles fun n => lag 2 (3 / 5) (fun k => 1 + k * 3) (fun _ => 0) n - 5 := by
  have h := (C79_exact 2 (3 / 5) 1 one_ne_zero).mp ((C79_default_gain 2 1 one_ne_zero).mpr (le_refl 2))
  have := C110_ramp_stable 2 (3 / 5) 1 3 0 h.1 h.2
  norm_num at this ⊢
  exact this

private theorem lag_scale (d : ℕ) (g s : ℚ) (a b : ℕ → ℚ) (n : ℕ) : lag d g (fun k => s * a k) (fun k => s * b k) n = s * lag d g a b n := by
  have e1 : ∑ k ∈ Finset.range n, leftOver d g 1 (n - 1 - k) * (s * a (k + 1) - s * a k) = s * ∑ k ∈ Finset.range n, leftOver d g 1 (n - 1 - k) * (a (k + 1) - a k) := by
    rw [Finset.mul_sum]
    exact Finset.sum_congr rfl fun k _ => by ring
  have e2 : ∑ k ∈ Finset.range (n - d), leftOver d g 1 (n - d - 1 - k) * (s * b k) = s * ∑ k ∈ Finset.range (n - d), leftOver d g 1 (n - d - 1 - k) * b k := by
    rw [Finset.mul_sum]
    exact Finset.sum_congr rfl fun k _ => by ring
  rw [C110_response, C110_response, e1, e2]
  ring

/-- Bounds grow with the disturbances. -/
theorem StaysBelow.scaled {d : ℕ} {g K : ℚ} (h : StaysBelow d g K) (δ : ℚ) (hδ : 0 < δ) (a b : ℕ → ℚ) (h0 : |a 0| ≤ δ) (ha : ∀ n, |a (n + 1) - a n| ≤ δ) (hb : ∀ n, |b n| ≤ δ) (n : ℕ) : |lag d g a b n| ≤ K * δ := by
  have one : ∀ x, |x| ≤ δ → |δ⁻¹ * x| ≤ 1 := fun x hx => by
    rw [abs_mul, abs_of_pos (inv_pos.mpr hδ), ← div_eq_inv_mul, div_le_one hδ]
    exact hx
  have := h (fun k => δ⁻¹ * a k) (fun k => δ⁻¹ * b k) (one _ h0) (fun n => by rw [← mul_sub]; exact one _ (ha n)) (fun n => one _ (hb n)) n
  rw [lag_scale, abs_mul, abs_of_pos (inv_pos.mpr hδ), ← div_eq_inv_mul, div_le_iff₀ hδ] at this
  exact this

/-! ### The whole simulation -/

/-- The gains for which a loop with a delay of `d` frames is stable. -/
def StableGain (d : ℕ) (g : ℚ) : Prop := 0 < g ∧ (g : ℝ) < 2 * Real.sin (Real.pi / (2 * (2 * d + 1)))

private theorem stable_settles (d : ℕ) (g a : ℚ) (h : StableGain d g) : Settles (leftOver d g a) := by
  by_cases ha : a = 0
  · subst ha
    have z : ∀ m, leftOver d g 0 m = 0 := by
      intro m
      induction m using Nat.strong_induction_on with
      | _ m ih =>
        cases m with
        | zero => rw [leftOver]
        | succ n =>
          rw [leftOver, ih n (by omega), ih (n - d) (by omega)]
          simp
    intro ε hε
    refine ⟨0, fun n _ => ?_⟩
    rw [z n, abs_zero]
    exact hε
  · exact (C79_exact d g a ha).mpr h

variable (o : Optics) (ho : Optics.Sound o) (totalActs : ℕ) (dms dms' : List Persist.Dm) (M : List (List ℚ)) (hcal : o.calibrate totalActs dms = .ok (dms', M))
    (hne : dms ≠ []) (hdms : ∀ d ∈ dms, d.shapes.length = d.nActs ∧ (o.scrn + d.nElem) % 2 = 0) (hkept : ∀ d ∈ dms', d.shapes ≠ [])
    (P : List (List ℚ)) (hrows : P.length = o.totalMeas) (hcols : ∀ r ∈ P, r.length = M.length) (hinv : Undoes P M)
    (gains : List ℚ) (hg : gains.length = dms.length) (d nIters nActs : ℕ) (hN : 1 ≤ nIters) (saveSlopes saveDm : Bool) (hstore : saveDm = true → nActs = M.length)

include ho hcal hne hdms hkept hrows hcols hinv hg hN hstore

/-- **C111 (nulls, exact).** As `C111_nulls`, for all gains for which the loop is stable. -/
theorem C111_nulls_exact (hgains : ∀ g ∈ gains, StableGain d g) (still : ℕ → ℕ → ℕ → ℚ) (c : ℕ → ℚ)
    (hc : ∀ m, m < o.totalMeas → (o.uncorrected still).getD m 0 = ∑ p ∈ Finset.range M.length, c p * (M.getD p []).getD m 0) (ε : ℚ) (hε : 0 < ε) :
    ∃ K, ∀ n, ∃ s' ts, runLoop (o.sys dms' P d nIters saveSlopes saveDm) (o.plant fun _ => still) (initial (o.sys dms' P d nIters saveSlopes saveDm) (controls dms' gains) o.totalMeas nActs ()) (List.replicate n (controls dms' gains)) = .ok (s', ts) ∧
      ts.length = n ∧ ∀ (i : ℕ) (t : Trace Stack), K ≤ i → ts[i]? = some t →
        (∀ p, p < M.length → ∃ x, t.cmds[p]? = some x ∧ |x - c p| < ε) ∧ t.slopes.length = o.totalMeas ∧ ∀ x ∈ t.slopes, |x| < ε :=
  C111_nulls_of o ho totalActs dms dms' M hcal hne hdms hkept P hrows hcols hinv gains hg d nIters nActs hN saveSlopes saveDm hstore (fun g h a => stable_settles d g a (hgains g h)) still c hc ε hε

/-- **C111 (nulls, only then).** If the atmosphere stands still and the control matrix reconstructs something other than zero for actuator `p`, then the command of `p` comes and stays as close to it as one likes only if the loop is stable with the gain of its mirror. -/
theorem C111_nulls_only (still : ℕ → ℕ → ℕ → ℚ) (p : ℕ) (hp : p < M.length) (hne0 : reconstructed P (o.uncorrected still) p ≠ 0)
    (h : ∀ ε : ℚ, 0 < ε → ∃ K, ∀ n s' ts, runLoop (o.sys dms' P d nIters saveSlopes saveDm) (o.plant fun _ => still) (initial (o.sys dms' P d nIters saveSlopes saveDm) (controls dms' gains) o.totalMeas nActs ()) (List.replicate n (controls dms' gains)) = .ok (s', ts) →
      ∀ (i : ℕ) (t : Trace Stack), K ≤ i → ts[i]? = some t → ∃ x, t.cmds[p]? = some x ∧ |x - reconstructed P (o.uncorrected still) p| < ε) :
    StableGain d (gainOf (controls dms' gains) p) := by
  refine (C79_exact d _ _ hne0).mp fun ε hε => ?_
  obtain ⟨K, hK⟩ := h ε hε
  refine ⟨K, fun n hn => ?_⟩
  obtain ⟨s', ts, hrun, hlen, hts⟩ := C111_whole o ho totalActs dms dms' M hcal hne hdms hkept P hrows hcols hinv gains hg d nIters nActs (n + 1) hN saveSlopes saveDm hstore fun _ => still
  obtain ⟨t, ht⟩ : ∃ t, ts[n]? = some t := ⟨ts[n]'(by omega), List.getElem?_eq_getElem (by omega)⟩
  obtain ⟨x, hx, hlt⟩ := hK (n + 1) s' ts hrun n t hn ht
  rw [(hts n t ht).1 p hp, lag_static, Option.some.injEq] at hx
  rw [← hx, sub_sub_cancel_left, abs_neg] at hlt
  exact hlt

/-- **C111 (follows, exact).** For all gains for which the loop is stable there is a constant, which does not depend on the turbulence or the number of frames: if what the control matrix reconstructs from the uncorrected measurements starts within `δ` and changes by at most `δ`
per frame, every command stays within this constant times `δ` of it, in all frames. -/
theorem C111_follows_exact (hgains : ∀ g ∈ gains, StableGain d g) : ∃ K : ℚ, ∀ (turb : ℕ → ℕ → ℕ → ℕ → ℚ) (δ : ℚ), 0 < δ →
    (∀ p, p < M.length → |reconstructed P (o.uncorrected (turb 0)) p| ≤ δ) → (∀ p k, p < M.length → |reconstructed P (o.uncorrected (turb (k + 1))) p - reconstructed P (o.uncorrected (turb k)) p| ≤ δ) → ∀ n,
    ∃ s' ts, runLoop (o.sys dms' P d nIters saveSlopes saveDm) (o.plant turb) (initial (o.sys dms' P d nIters saveSlopes saveDm) (controls dms' gains) o.totalMeas nActs ()) (List.replicate n (controls dms' gains)) = .ok (s', ts) ∧
      ts.length = n ∧ ∀ (i : ℕ) (t : Trace Stack), ts[i]? = some t → ∀ p, p < M.length → ∃ x, t.cmds[p]? = some x ∧ |reconstructed P (o.uncorrected (turb i)) p - x| ≤ K * δ := by
  obtain ⟨K, hK⟩ : ∃ K : ℚ, ∀ g ∈ gains, StaysBelow d g K := by
    clear hg
    induction gains with
    | nil => exact ⟨0, by simp⟩
    | cons g gs ih =>
      obtain ⟨K1, h1⟩ := ih fun g hg => hgains g (by simp [hg])
      obtain ⟨K2, h2⟩ := (C110_exact d g).mpr (hgains g (by simp))
      refine ⟨max K1 K2, fun g' hg' => ?_⟩
      rcases List.mem_cons.mp hg' with rfl | hg'
      · exact fun a b x y z n => le_trans (h2 a b x y z n) (le_max_right _ _)
      · exact fun a b x y z n => le_trans (h1 g' hg' a b x y z n) (le_max_left _ _)
  refine ⟨K, fun turb δ hδ h0 h1 n => ?_⟩
  obtain ⟨s', ts, r1, r2, r3⟩ := C111_whole o ho totalActs dms dms' M hcal hne hdms hkept P hrows hcols hinv gains hg d nIters nActs n hN saveSlopes saveDm hstore turb
  refine ⟨s', ts, r1, r2, fun i t ht p hp => ⟨_, (r3 i t ht).1 p hp, ?_⟩⟩
  rw [sub_sub_cancel]
  refine StaysBelow.scaled (hK _ ?_) δ hδ (fun k => reconstructed P (o.uncorrected (turb k)) p) (fun _ => 0) (h0 p hp) (fun k => h1 p k hp) (fun _ => by simpa using le_of_lt hδ) i
  exact gainOf_mem o ho totalActs dms dms' M hcal hdms gains hg p hp

omit ho hcal hne hdms hkept hrows hcols hinv hg hN hstore

private theorem default_stable : ∀ g ∈ [(3 / 5 : ℚ), 3 / 5], StableGain 2 g := by
  intro g hg
  have : g = 3 / 5 := by simpa using hg
  subst this
  exact (C79_exact 2 (3 / 5) 1 one_ne_zero).mp ((C79_default_gain 2 1 one_ne_zero).mpr (le_refl 2))

/-- The simulation of the example of C111 with the default gain and a delay of two frames. -/
example (ε : ℚ) (hε : 0 < ε) : ∃ dms', wholeOptics.calibrate 4 wholeDms = .ok (dms', wholeImat) ∧ ∃ K, ∀ n, ∃ s' ts,
    runLoop (wholeOptics.sys dms' wholeCmat 2 100 true false) (wholeOptics.plant fun _ l i _ => if l = 0 then 3 * i else 0) (initial (wholeOptics.sys dms' wholeCmat 2 100 true false) (controls dms' [3 / 5, 3 / 5]) 4 4 ())
      (List.replicate n (controls dms' [3 / 5, 3 / 5])) = .ok (s', ts) ∧ ts.length = n ∧ ∀ (i : ℕ) (t : Trace Stack), K ≤ i → ts[i]? = some t → ∀ x ∈ t.slopes, |x| < ε := by
  obtain ⟨dms', h1, h2⟩ := whole_ok
  obtain ⟨K, hK⟩ := C111_nulls_exact wholeOptics whole_sound 4 wholeDms dms' wholeImat h1 (by simp [wholeDms])
    (by intro d hd; simp only [wholeDms, List.mem_cons, List.not_mem_nil, or_false] at hd; rcases hd with rfl | rfl <;> exact ⟨rfl, rfl⟩) h2 wholeCmat rfl (by decide) whole_undoes
    [3 / 5, 3 / 5] rfl 2 100 4 (by norm_num) true false (fun h => nomatch h) default_stable
    (fun l i _ => if l = 0 then 3 * i else 0) (fun p => if p = 0 then 3 else 0)
    (by
      intro m hm
      have hm4 : m < 4 := hm
      interval_cases m <;> decide +kernel) ε hε
  refine ⟨dms', h1, K, fun n => ?_⟩
  obtain ⟨s', ts, r1, r2, r3⟩ := hK n
  exact ⟨s', ts, r1, r2, fun i t hi ht => (r3 i t hi ht).2.2⟩

/-- The same with a gain of one and a delay of one frame: the command of the first actuator does not come to rest at what it should be. -/
example : ∃ dms', wholeOptics.calibrate 4 wholeDms = .ok (dms', wholeImat) ∧ ∃ ε : ℚ, 0 < ε ∧ ∀ K, ∃ n s' ts,
    runLoop (wholeOptics.sys dms' wholeCmat 1 100 true false) (wholeOptics.plant fun _ l i _ => if l = 0 then 3 * i else 0) (initial (wholeOptics.sys dms' wholeCmat 1 100 true false) (controls dms' [1, 1]) 4 4 ())
      (List.replicate n (controls dms' [1, 1])) = .ok (s', ts) ∧ ∃ (i : ℕ) (t : Trace Stack), K ≤ i ∧ ts[i]? = some t ∧ ∀ x, t.cmds[0]? = some x → ε ≤ |x - 3| := by
  obtain ⟨dms', h1, h2⟩ := whole_ok
  have hd : ∀ d ∈ wholeDms, d.shapes.length = d.nActs ∧ (wholeOptics.scrn + d.nElem) % 2 = 0 := by
    intro d hd; simp only [wholeDms, List.mem_cons, List.not_mem_nil, or_false] at hd; rcases hd with rfl | rfl <;> exact ⟨rfl, rfl⟩
  have e : reconstructed wholeCmat (wholeOptics.uncorrected fun l i _ => if l = 0 then 3 * i else 0) 0 = 3 := by decide +kernel
  have hmem : gainOf (controls dms' [1, 1]) 0 ∈ [(1 : ℚ), 1] := gainOf_mem wholeOptics whole_sound 4 wholeDms dms' wholeImat h1 hd [1, 1] rfl 0 (by decide)
  refine ⟨dms', h1, ?_⟩
  by_contra hcon
  push Not at hcon
  have := C111_nulls_only wholeOptics whole_sound 4 wholeDms dms' wholeImat h1 (by simp [wholeDms]) hd h2 wholeCmat rfl (by decide) whole_undoes
    [1, 1] rfl 1 100 4 (by norm_num) true false (fun h => nomatch h) (fun l i _ => if l = 0 then 3 * i else 0) 0 (by decide) (by rw [e]; norm_num) (by
      intro ε hε
      rw [e]
      obtain ⟨K, hK⟩ := hcon ε hε
      exact ⟨K, fun n s' ts hr i t hi ht => hK n s' ts hr i t hi ht⟩)
  have e1 : gainOf (controls dms' [1, 1]) 0 = 1 := by simpa using hmem
  rw [e1] at this
  have h := this.2
  rw [show Real.pi / (2 * (2 * ((1 : ℕ) : ℝ) + 1)) = Real.pi / 6 by push_cast; ring, Real.sin_pi_div_six] at h
  norm_num at h

end Soapy.Props
