/-
Property theorems C156: what a whole simulation leaves for the science cameras of any turbulence; and long exposures (C155).
-/
import Verif.Props.WholeSci

namespace Soapy.Props

open Soapy.Mirror Soapy.Interp Soapy.Los Soapy.Whole Soapy.Loop Soapy.Control Soapy.Vec

theorem reconstructed_lin (o : Optics) (ho : Optics.Sound o) (P : List (List ℚ)) (hrows : P.length = o.totalMeas) (a : ℚ) (t u : ℕ → ℕ → ℕ → ℚ) (p : ℕ) :
    reconstructed P (o.uncorrected fun l i j => a * t l i j + u l i j) p = a * reconstructed P (o.uncorrected t) p + reconstructed P (o.uncorrected u) p := by
  have e : ((fun l i j => a * t l i j + u l i j, 0) : Stack) = a • ((t, 0) : Stack) + (u, 0) := by
    refine Prod.ext ?_ ?_
    · funext l i j
      simp
    · simp
  unfold reconstructed
  rw [Finset.mul_sum, ← Finset.sum_add_distrib]
  refine Finset.sum_congr rfl fun m hm => ?_
  rw [Finset.mem_range, hrows] at hm
  have get : ∀ v, (o.uncorrected v).getD m 0 = senses o (v, 0) m := fun v => by
    rw [uncorrected_get o ho, List.getD_eq_getElem?_getD, List.getElem?_map, List.getElem?_range hm]
    rfl
  rw [get, get, get, e, map_add, map_smul, Pi.add_apply, Pi.smul_apply, smul_eq_mul]
  ring

/-- **C156 (error budget).** For every camera there are numbers `R`, one for every actuator and pixel, and a part `rest` of all turbulence, such that in every run, with any turbulence and any noise in the measurements, with any gains and delay, the camera sees `rest` of the
turbulence of the frame plus the lags of the commands times their numbers. `rest` is linear and nothing for turbulence that the mirrors can make; without mirrors the camera sees `rest` and the commands that the control matrix reconstructs, times their numbers.
So what the camera sees splits in a part that gains, delay and noise do not change (what the mirrors cannot make, and what of it is mistaken for what they can make) and a part that depends on the course of the reconstructed commands only. -/
theorem C156_budget (o : Optics) (ho : Optics.Sound o) (totalActs : ℕ) (dms dms' : List Persist.Dm) (M : List (List ℚ)) (hcal : o.calibrate totalActs dms = .ok (dms', M))
    (hne : dms ≠ []) (hdms : ∀ d ∈ dms, d.shapes.length = d.nActs ∧ (o.scrn + d.nElem) % 2 = 0) (hkept : ∀ d ∈ dms', d.shapes ≠ [])
    (P : List (List ℚ)) (hrows : P.length = o.totalMeas) (hcols : ∀ r ∈ P, r.length = M.length) (hinv : Undoes P M) (lam : ℕ → ℕ) (hconj : Conjugate o dms'.length lam) (g : Geom) (hgs : g.scrn = o.scrn) (k : ℚ) (hk : k ≠ 0) :
    ∃ (R : ℕ → ℕ → ℕ → ℚ) (rest : (ℕ → ℕ → ℕ → ℚ) → ℕ → ℕ → ℚ),
      (∀ (a : ℚ) (t u : ℕ → ℕ → ℕ → ℚ) (x y : ℕ), rest (fun l i j => a * t l i j + u l i j) x y = a * rest t x y + rest u x y) ∧
      (∀ c t, Makes o dms' lam c t → ∀ x y, rest t x y = 0) ∧
      (∀ t, ∃ st, o.look g k t [] = .ok st ∧ ∀ x y, x < g.nOut → y < g.nOut → st.phase.px x y = rest t x y + ∑ p ∈ Finset.range M.length, reconstructed P (o.uncorrected t) p * R p x y) ∧
      ∀ (gains : List ℚ) (d nIters nActs n : ℕ) (saveSlopes saveDm : Bool), gains.length = dms.length → 1 ≤ nIters → (saveDm = true → nActs = M.length) → ∀ (turb : ℕ → ℕ → ℕ → ℕ → ℚ) (err : ℕ → ℕ → ℚ),
        ∃ s' ts, runLoop (o.sys dms' P d nIters saveSlopes saveDm) (o.noisyPlant turb err) (initial (o.sys dms' P d nIters saveSlopes saveDm) (controls dms' gains) o.totalMeas nActs ()) (List.replicate n (controls dms' gains)) = .ok (s', ts) ∧
          ts.length = n ∧ ∀ (i : ℕ) (t : Trace Stack), ts[i]? = some t → ∃ st, o.look g k (turb i) t.seenBySci = .ok st ∧ st.phase.rows = g.nOut ∧ st.phase.cols = g.nOut ∧
            ∀ x y, x < g.nOut → y < g.nOut → st.phase.px x y = rest (turb i) x y + ∑ p ∈ Finset.range M.length,
              lag d (gainOf (controls dms' gains) p) (fun q => reconstructed P (o.uncorrected (turb q)) p) (fun q => ∑ m ∈ Finset.range o.totalMeas, (P.getD m []).getD p 0 * err q m) i * R p x y := by
  set w : LinWfs := ⟨g, k, 0, fun _ _ _ => 0⟩ with hw
  obtain ⟨hl, hML, hrow⟩ := calibrate_rows o ho totalActs dms dms' M hcal hdms
  have z : ∀ x y, view o w 0 x y = 0 := fun x y => by
    have := view_lin o w 1 0 0 x y
    simp only [smul_zero, add_zero, one_mul] at this
    linarith
  have sc : ∀ (a : ℚ) v x y, view o w (a • v) x y = a * view o w v x y := fun a v x y => by
    have := view_lin o w a v 0 x y
    rwa [add_zero, z, add_zero] at this
  refine ⟨fun p x y => view o w (shapeAt o 0 dms' p) x y, fun t x y => view o w (t, 0) x y - ∑ p ∈ Finset.range M.length, reconstructed P (o.uncorrected t) p * view o w (shapeAt o 0 dms' p) x y, ?_, ?_, ?_, ?_⟩
  · intro a t u x y
    have e : ((fun l i j => a * t l i j + u l i j, 0) : Stack) = a • ((t, 0) : Stack) + (u, 0) := by
      refine Prod.ext ?_ ?_
      · funext l i j
        simp
      · simp
    dsimp only
    rw [e, view_lin]
    simp only [reconstructed_lin o ho P hrows, add_mul, mul_assoc, Finset.sum_add_distrib, ← Finset.mul_sum]
    ring
  · intro c t hm x y
    dsimp only
    rw [makes_view o dms' (fun k d h => (hrow k d h).1) hkept lam hconj c t hm w, ← hML, ← Finset.sum_sub_distrib]
    refine Finset.sum_eq_zero fun p hp => ?_
    rw [(C155_finds o ho totalActs dms dms' M hcal hdms hkept P hrows hinv (List.replicate dms.length 0) (by simp) lam hconj c t hm p (Finset.mem_range.mp hp)).1, sub_self]
  · intro t
    obtain ⟨st, b1, _, _, b4⟩ := look_eq o ho.1 g hgs k hk t [] w rfl rfl
    refine ⟨st, b1, fun x y hx hy => ?_⟩
    rw [b4 x y hx hy, List.sum_nil, sub_zero, sub_add_cancel]
  · intro gains d nIters nActs n saveSlopes saveDm hg hN hstore turb err
    obtain ⟨s', ts, h1, h2, h3⟩ := whole_any o ho totalActs dms dms' M hcal hne hdms hkept P hrows hcols hinv gains hg d nIters nActs n hN saveSlopes saveDm hstore turb (o.noisyPlant turb err) err (noisy_sense o ho turb err)
    refine ⟨s', ts, h1, h2, fun i t ht => ?_⟩
    obtain ⟨a1, _, a3, a4⟩ := h3 i t ht
    obtain ⟨st, b1, b2, b3, b4⟩ := look_eq o ho.1 g hgs k hk (turb i) t.seenBySci w rfl rfl
    refine ⟨st, b1, b2, b3, fun x y hx hy => ?_⟩
    have hv : view o w ((turb i, 0) - t.seenBySci.sum) x y = view o w (turb i, 0) x y - view o w t.seenBySci.sum x y := by
      have := view_lin o w (-1) t.seenBySci.sum (turb i, 0) x y
      rw [neg_one_smul, neg_one_mul, neg_add_eq_sub, neg_add_eq_sub] at this
      exact this
    rw [b4 x y hx hy, hv, a4, a3, view_sum, sub_add, ← Finset.sum_sub_distrib]
    congr 1
    refine Finset.sum_congr rfl fun p hp => ?_
    rw [Finset.mem_range] at hp
    rw [sc, show t.cmds.getD p 0 = _ by rw [List.getD_eq_getElem?_getD, a1 p hp, Option.getD_some]]
    ring

/-- **C156 (in the end).** If the layers stand still, what a camera sees comes and stays as close as one likes to a part of the turbulence that is linear in it, the same for all stable gains and delays, and nothing for turbulence that the mirrors can make;
and so the wavefront error that the camera reports comes and stays close to that of this part. -/
theorem C156_end (o : Optics) (ho : Optics.Sound o) (totalActs : ℕ) (dms dms' : List Persist.Dm) (M : List (List ℚ)) (hcal : o.calibrate totalActs dms = .ok (dms', M))
    (hne : dms ≠ []) (hdms : ∀ d ∈ dms, d.shapes.length = d.nActs ∧ (o.scrn + d.nElem) % 2 = 0) (hkept : ∀ d ∈ dms', d.shapes ≠ [])
    (P : List (List ℚ)) (hrows : P.length = o.totalMeas) (hcols : ∀ r ∈ P, r.length = M.length) (hinv : Undoes P M) (lam : ℕ → ℕ) (hconj : Conjugate o dms'.length lam) (g : Geom) (hgs : g.scrn = o.scrn) (k : ℚ) (hk : k ≠ 0) :
    ∃ rest : (ℕ → ℕ → ℕ → ℚ) → ℕ → ℕ → ℚ, (∀ (a : ℚ) (t u : ℕ → ℕ → ℕ → ℚ) (x y : ℕ), rest (fun l i j => a * t l i j + u l i j) x y = a * rest t x y + rest u x y) ∧
      (∀ c t, Makes o dms' lam c t → ∀ x y, rest t x y = 0) ∧
      ∀ (gains : List ℚ) (d nIters nActs : ℕ) (saveSlopes saveDm : Bool), gains.length = dms.length → 1 ≤ nIters → (saveDm = true → nActs = M.length) → (∀ g ∈ gains, StableGain d g) → ∀ (still : ℕ → ℕ → ℕ → ℚ) (ε : ℚ), 0 < ε →
      ∃ K, ∀ n, ∃ s' ts, runLoop (o.sys dms' P d nIters saveSlopes saveDm) (o.plant fun _ => still) (initial (o.sys dms' P d nIters saveSlopes saveDm) (controls dms' gains) o.totalMeas nActs ()) (List.replicate n (controls dms' gains)) = .ok (s', ts) ∧
        ts.length = n ∧ ∀ (i : ℕ) (t : Trace Stack), K ≤ i → ts[i]? = some t → ∃ st, o.look g k still t.seenBySci = .ok st ∧ (∀ x y, x < g.nOut → y < g.nOut → |st.phase.px x y - rest still x y| < ε) ∧
          ∀ (m : ℕ → ℕ → ℝ) (ρ : ℝ), (∀ i j, m i j = 0 ∨ m i j = 1) → 0 < ∑ i ∈ Finset.range g.nOut, ∑ j ∈ Finset.range g.nOut, m i j → ρ ≠ 0 →
            |Report.gridWfe g.nOut m (fun i j => 2 * Real.pi * (st.phase.px i j : ℝ)) ρ - Report.gridWfe g.nOut m (fun i j => 2 * Real.pi * (rest still i j : ℝ)) ρ| ≤ 2 * Real.pi * ε / |ρ| := by
  obtain ⟨R, rest, r1, r2, _, r4⟩ := C156_budget o ho totalActs dms dms' M hcal hne hdms hkept P hrows hcols hinv lam hconj g hgs k hk
  refine ⟨rest, r1, r2, fun gains d nIters nActs saveSlopes saveDm hg hN hstore hgains still ε hε => ?_⟩
  have hset : ∀ p, p < M.length → Settles (leftOver d (gainOf (controls dms' gains) p) (reconstructed P (o.uncorrected still) p)) := fun p hp => by
    by_cases h0 : reconstructed P (o.uncorrected still) p = 0
    · rw [h0]
      intro ε hε
      refine ⟨0, fun n _ => ?_⟩
      rw [leftOver_zero_start, abs_zero]
      exact hε
    · exact (C79_exact d _ _ h0).mpr (hgains _ (gainOf_mem o ho totalActs dms dms' M hcal hdms gains hg p hp))
  obtain ⟨K, hK⟩ := settles_all (g.nOut * g.nOut) (fun q i => ∑ p ∈ Finset.range M.length, leftOver d (gainOf (controls dms' gains) p) (reconstructed P (o.uncorrected still) p) i * R p (q / g.nOut) (q % g.nOut))
    (fun q _ => settles_sum M.length (fun p => leftOver d (gainOf (controls dms' gains) p) (reconstructed P (o.uncorrected still) p)) (fun p => R p (q / g.nOut) (q % g.nOut)) hset) ε hε
  refine ⟨K, fun n => ?_⟩
  obtain ⟨s', ts, h1, h2, h3⟩ := r4 gains d nIters nActs n saveSlopes saveDm hg hN hstore (fun _ => still) (fun _ _ => 0)
  rw [noisy_zero] at h1
  refine ⟨s', ts, h1, h2, fun i t hi ht => ?_⟩
  obtain ⟨st, b1, _, _, b4⟩ := h3 i t ht
  have key : ∀ x y, x < g.nOut → y < g.nOut → |st.phase.px x y - rest still x y| < ε := by
    intro x y hx hy
    rw [b4 x y hx hy, add_sub_cancel_left]
    have hq : x * g.nOut + y < g.nOut * g.nOut := by nlinarith
    have := hK i hi (x * g.nOut + y) hq
    have hpos : 0 < g.nOut := by omega
    rw [Nat.mul_comm x, Nat.mul_add_div hpos, Nat.div_eq_of_lt hy, Nat.mul_add_mod, Nat.mod_eq_of_lt hy, Nat.add_zero] at this
    simp only [mul_zero, Finset.sum_const_zero, lag_static]
    exact this
  refine ⟨st, b1, key, fun m ρ h01 hpos hρ => ?_⟩
  have hπ := Real.pi_pos
  have hε' : (0 : ℝ) < ε := by exact_mod_cast hε
  have small : ∀ s : ℝ, |s| = 1 → Report.gridWfe g.nOut m (fun i j => s * (2 * Real.pi * ((st.phase.px i j - rest still i j : ℚ) : ℝ))) ρ ≤ 2 * Real.pi * ε / |ρ| := fun s hs =>
    gridWfe_small g.nOut m _ ρ (2 * Real.pi * ε) (by positivity) h01 hpos hρ fun x y hx hy => by
      rw [abs_mul, hs, one_mul, abs_mul, abs_of_pos (by positivity : 0 < 2 * Real.pi)]
      refine mul_le_mul_of_nonneg_left ?_ (by positivity)
      have h : ((|st.phase.px x y - rest still x y| : ℚ) : ℝ) ≤ ε := by exact_mod_cast (key x y hx hy).le
      rwa [Rat.cast_abs] at h
  have tri : ∀ a b : ℕ → ℕ → ℝ, Report.gridWfe g.nOut m (fun i j => a i j + b i j) ρ ≤ Report.gridWfe g.nOut m a ρ + Report.gridWfe g.nOut m b ρ := fun a b =>
    C46_triangle (fun p : Fin g.nOut × Fin g.nOut => m p.1 p.2) (fun p => a p.1 p.2) (fun p => b p.1 p.2) ρ
  have t1 := tri (fun i j => 2 * Real.pi * (rest still i j : ℝ)) (fun i j => 1 * (2 * Real.pi * ((st.phase.px i j - rest still i j : ℚ) : ℝ)))
  have t2 := tri (fun i j => 2 * Real.pi * (st.phase.px i j : ℝ)) (fun i j => (-1) * (2 * Real.pi * ((st.phase.px i j - rest still i j : ℚ) : ℝ)))
  have e1 : (fun i j => 2 * Real.pi * (rest still i j : ℝ) + 1 * (2 * Real.pi * ((st.phase.px i j - rest still i j : ℚ) : ℝ))) = fun i j => 2 * Real.pi * (st.phase.px i j : ℝ) := by
    funext i j
    push_cast
    ring
  have e2 : (fun i j => 2 * Real.pi * (st.phase.px i j : ℝ) + (-1) * (2 * Real.pi * ((st.phase.px i j - rest still i j : ℚ) : ℝ))) = fun i j => 2 * Real.pi * (rest still i j : ℝ) := by
    funext i j
    push_cast
    ring
  rw [e1] at t1
  rw [e2] at t2
  rw [abs_sub_le_iff]
  constructor
  · linarith [small 1 (by norm_num)]
  · linarith [small (-1) (by norm_num)]

/-- **C156 (what the mirrors can make does not matter in the end).** Two still atmospheres that differ by something the mirrors can make leave the same, for all stable gains and delays. -/
theorem C156_same (o : Optics) (ho : Optics.Sound o) (totalActs : ℕ) (dms dms' : List Persist.Dm) (M : List (List ℚ)) (hcal : o.calibrate totalActs dms = .ok (dms', M))
    (hne : dms ≠ []) (hdms : ∀ d ∈ dms, d.shapes.length = d.nActs ∧ (o.scrn + d.nElem) % 2 = 0) (hkept : ∀ d ∈ dms', d.shapes ≠ [])
    (P : List (List ℚ)) (hrows : P.length = o.totalMeas) (hcols : ∀ r ∈ P, r.length = M.length) (hinv : Undoes P M) (lam : ℕ → ℕ) (hconj : Conjugate o dms'.length lam) (g : Geom) (hgs : g.scrn = o.scrn) (k : ℚ) (hk : k ≠ 0) (gains : List ℚ) (d nIters nActs : ℕ) (saveSlopes saveDm : Bool) (hg : gains.length = dms.length) (hN : 1 ≤ nIters) (hstore : saveDm = true → nActs = M.length) (hgains : ∀ g ∈ gains, StableGain d g)
    (still still' : ℕ → ℕ → ℕ → ℚ) (c : List ℚ) (hm : Makes o dms' lam c fun l i j => still' l i j - still l i j) (ε : ℚ) (hε : 0 < ε) :
    ∃ K, ∀ n, ∃ s' ts u' us, runLoop (o.sys dms' P d nIters saveSlopes saveDm) (o.plant fun _ => still) (initial (o.sys dms' P d nIters saveSlopes saveDm) (controls dms' gains) o.totalMeas nActs ()) (List.replicate n (controls dms' gains)) = .ok (s', ts) ∧ runLoop (o.sys dms' P d nIters saveSlopes saveDm) (o.plant fun _ => still') (initial (o.sys dms' P d nIters saveSlopes saveDm) (controls dms' gains) o.totalMeas nActs ()) (List.replicate n (controls dms' gains)) = .ok (u', us) ∧ ts.length = n ∧ us.length = n ∧
      ∀ (i : ℕ) (t u : Trace Stack), K ≤ i → ts[i]? = some t → us[i]? = some u → ∃ st su, o.look g k still t.seenBySci = .ok st ∧ o.look g k still' u.seenBySci = .ok su ∧
        ∀ x y, x < g.nOut → y < g.nOut → |st.phase.px x y - su.phase.px x y| < ε := by
  obtain ⟨rest, r1, r2, r3⟩ := C156_end o ho totalActs dms dms' M hcal hne hdms hkept P hrows hcols hinv lam hconj g hgs k hk
  have same : ∀ x y, rest still' x y = rest still x y := fun x y => by
    have a := r1 1 (fun l i j => still' l i j - still l i j) still x y
    rw [r2 c _ hm x y, mul_zero, zero_add] at a
    rw [← a]
    congr 1
    funext l i j
    ring
  obtain ⟨K1, h1⟩ := r3 gains d nIters nActs saveSlopes saveDm hg hN hstore hgains still (ε / 2) (half_pos hε)
  obtain ⟨K2, h2⟩ := r3 gains d nIters nActs saveSlopes saveDm hg hN hstore hgains still' (ε / 2) (half_pos hε)
  refine ⟨max K1 K2, fun n => ?_⟩
  obtain ⟨s', ts, a1, a2, a3⟩ := h1 n
  obtain ⟨u', us, b1, b2, b3⟩ := h2 n
  refine ⟨s', ts, u', us, a1, b1, a2, b2, fun i t u hi ht hu => ?_⟩
  obtain ⟨st, c1, c2, _⟩ := a3 i t (le_trans (le_max_left _ _) hi) ht
  obtain ⟨su, e1, e2, _⟩ := b3 i u (le_trans (le_max_right _ _) hi) hu
  refine ⟨st, su, c1, e1, fun x y hx hy => ?_⟩
  have f1 := abs_lt.mp (c2 x y hx hy)
  have f2 := abs_lt.mp (e2 x y hx hy)
  rw [same] at f2
  rw [abs_lt]
  constructor <;> linarith [f1.1, f1.2, f2.1, f2.2]

/-- The simulation of the example of C111, with any turbulence in its two layers: what a camera sees in the end. -/
example : ∃ dms', wholeOptics.calibrate 4 wholeDms = .ok (dms', wholeImat) ∧ ∃ rest : (ℕ → ℕ → ℕ → ℚ) → ℕ → ℕ → ℚ, ∀ (still : ℕ → ℕ → ℕ → ℚ) (ε : ℚ), 0 < ε → ∃ K, ∀ n, ∃ s' ts,
    runLoop (wholeOptics.sys dms' wholeCmat 2 100 true false) (wholeOptics.plant fun _ => still) (initial (wholeOptics.sys dms' wholeCmat 2 100 true false) (controls dms' [3 / 5, 3 / 5]) 4 4 ())
      (List.replicate n (controls dms' [3 / 5, 3 / 5])) = .ok (s', ts) ∧ ts.length = n ∧ ∀ (i : ℕ) (t : Trace Stack), K ≤ i → ts[i]? = some t → ∃ st, wholeOptics.look (wholeWfs (1 / 5000)).geom 2 still t.seenBySci = .ok st ∧
        ∀ x y, x < 2 → y < 2 → |st.phase.px x y - rest still x y| < ε := by
  obtain ⟨dms', h1, h2⟩ := whole_ok
  have hd : ∀ d ∈ wholeDms, d.shapes.length = d.nActs ∧ (wholeOptics.scrn + d.nElem) % 2 = 0 := by
    intro d hd; simp only [wholeDms, List.mem_cons, List.not_mem_nil, or_false] at hd; rcases hd with rfl | rfl <;> exact ⟨rfl, rfl⟩
  obtain ⟨hl, _, _⟩ := calibrate_rows wholeOptics whole_sound 4 wholeDms dms' wholeImat h1 hd
  have hl2 : dms'.length = 2 := hl
  have hconj : Conjugate wholeOptics dms'.length id := by
    intro k hk
    rw [hl2] at hk
    interval_cases k <;> exact ⟨by decide, by decide, rfl⟩
  obtain ⟨rest, _, _, r3⟩ := C156_end wholeOptics whole_sound 4 wholeDms dms' wholeImat h1 (by simp [wholeDms]) hd h2 wholeCmat rfl (by decide) whole_undoes id hconj (wholeWfs (1 / 5000)).geom rfl 2 two_ne_zero
  refine ⟨dms', h1, rest, fun still ε hε => ?_⟩
  obtain ⟨K, hK⟩ := r3 [3 / 5, 3 / 5] 2 100 4 true false rfl (by norm_num) (fun h => nomatch h) camera_default still ε hε
  refine ⟨K, fun n => ?_⟩
  obtain ⟨s', ts, r1, r2, r3⟩ := hK n
  refine ⟨s', ts, r1, r2, fun i t hi ht => ?_⟩
  obtain ⟨st, b1, b4, _⟩ := r3 i t hi ht
  exact ⟨st, b1, b4⟩

/-! ### Long exposures -/

private theorem mean_small (n K : ℕ) (A e : ℝ) (hA : 0 ≤ A) (h : ℕ → ℝ) (h1 : ∀ i, i < n → h i ≤ A + e) (h2 : ∀ i, i < n → K ≤ i → h i ≤ e) : ∑ i ∈ Finset.range n, h i ≤ K * A + n * e := by
  have : ∀ i ∈ Finset.range n, h i ≤ (if i < K then A else 0) + e := by
    intro i hi
    rw [Finset.mem_range] at hi
    split_ifs with hk
    · exact h1 i hi
    · rw [zero_add]
      exact h2 i hi (by omega)
  refine le_trans (Finset.sum_le_sum this) ?_
  rw [Finset.sum_add_distrib, Finset.sum_const, Finset.card_range, nsmul_eq_mul, Finset.sum_ite, Finset.sum_const_zero, add_zero, Finset.sum_const, nsmul_eq_mul]
  have hc : (((Finset.range n).filter fun i => i < K).card : ℝ) ≤ K := by
    have : ((Finset.range n).filter fun i => i < K) ⊆ Finset.range K := fun i hi => Finset.mem_range.mpr (Finset.mem_filter.mp hi).2
    have := Finset.card_le_card this
    rw [Finset.card_range] at this
    exact_mod_cast this
  nlinarith

variable (o : Optics) (ho : Optics.Sound o) (totalActs : ℕ) (dms dms' : List Persist.Dm) (M : List (List ℚ)) (hcal : o.calibrate totalActs dms = .ok (dms', M))
    (hne : dms ≠ []) (hdms : ∀ d ∈ dms, d.shapes.length = d.nActs ∧ (o.scrn + d.nElem) % 2 = 0) (hkept : ∀ d ∈ dms', d.shapes ≠ [])
    (P : List (List ℚ)) (hrows : P.length = o.totalMeas) (hcols : ∀ r ∈ P, r.length = M.length) (hinv : Undoes P M)
    (gains : List ℚ) (hg : gains.length = dms.length) (d nIters nActs : ℕ) (hN : 1 ≤ nIters) (saveSlopes saveDm : Bool) (hstore : saveDm = true → nActs = M.length)

include ho hcal hne hdms hkept hrows hcols hinv hg hN hstore

/-- **C155 (long exposures).** With a still atmosphere that the mirrors could make, also the Strehl ratio of the long exposure from the first frame on comes and stays as close to one as one likes: `phis` are the phases, in radians on the elements of the camera, of all frames of the run. -/
theorem C155_long (hgains : ∀ g ∈ gains, StableGain d g) (lam : ℕ → ℕ) (hconj : Conjugate o dms'.length lam) (c : List ℚ) (still : ℕ → ℕ → ℕ → ℚ) (hm : Makes o dms' lam c still) (g : Geom) (hgs : g.scrn = o.scrn) (hn : 2 ≤ g.nOut) (k : ℚ) (hk : k ≠ 0)
    (Pn pad F px : ℕ) (hpx : 0 < px) (hF : F ≤ px) (m' : ℕ → ℕ → ℝ) (h01' : ∀ i j, m' i j = 0 ∨ m' i j = 1) (hpos' : 0 < ∑ i ∈ Finset.range F, ∑ j ∈ Finset.range F, m' i j) (ε : ℝ) (hε : 0 < ε) :
    ∃ N, ∀ n, N ≤ n → ∃ s' ts phis, runLoop (o.sys dms' P d nIters saveSlopes saveDm) (o.plant fun _ => still) (initial (o.sys dms' P d nIters saveSlopes saveDm) (controls dms' gains) o.totalMeas nActs ()) (List.replicate n (controls dms' gains)) = .ok (s', ts) ∧
      ts.length = n ∧ phis.length = n ∧ (∀ (i : ℕ) (t : Trace Stack), ts[i]? = some t → ∃ st waves, o.look g k still t.seenBySci = .ok st ∧ Plate.interpPhase st.phase Pn pad F = .ok waves ∧
        phis[i]? = some fun i j => 2 * Real.pi * (((waves.getD i []).getD j 0 : ℚ) : ℝ)) ∧
      1 - ε < Report.longStrehlTT px F 0 1 px hpx m' phis ∧ Report.longStrehlTT px F 0 1 px hpx m' phis ≤ Psf.longStrehl px F 0 1 px hpx m' phis := by
  have hπ := Real.pi_pos
  obtain ⟨e, he0, he⟩ : ∃ e : ℚ, 0 < e ∧ (e : ℝ) < min 1 (ε / 2) / (2 * Real.pi) := by
    obtain ⟨e, h1, h2⟩ := exists_rat_btwn (show (0 : ℝ) < min 1 (ε / 2) / (2 * Real.pi) by
      have : 0 < min 1 (ε / 2) := lt_min one_pos (half_pos hε)
      positivity)
    exact ⟨e, by exact_mod_cast h1, h2⟩
  rw [lt_div_iff₀ (by positivity)] at he
  have he0' : (0 : ℝ) < e := by exact_mod_cast he0
  have hsq : (2 * Real.pi * e) ^ 2 < ε / 2 := by
    have a := min_le_left 1 (ε / 2)
    have b := min_le_right 1 (ε / 2)
    have : 0 < 2 * Real.pi * e := by positivity
    nlinarith
  obtain ⟨K, hK⟩ := C155_nulls o ho totalActs dms dms' M hcal hne hdms hkept P hrows hcols hinv gains hg d nIters nActs hN saveSlopes saveDm hstore hgains lam hconj c still hm g hgs k hk e he0
  obtain ⟨B', hB'⟩ := C155_follows o ho totalActs dms dms' M hcal hne hdms hkept P hrows hcols hinv gains hg d nIters nActs hN saveSlopes saveDm hstore hgains lam hconj g hgs k hk
  set δ : ℚ := 1 + ∑ p ∈ Finset.range M.length, |c.getD p 0| with hδ
  have hδ0 : 0 < δ := by
    have : 0 ≤ ∑ p ∈ Finset.range M.length, |c.getD p 0| := Finset.sum_nonneg fun _ _ => abs_nonneg _
    linarith
  have hB := hB' (fun _ => still) (fun _ => c) δ hδ0 (fun _ => hm) (fun p hp => by
    have := Finset.single_le_sum (f := fun p => |c.getD p 0|) (fun _ _ => abs_nonneg _) (Finset.mem_range.mpr hp)
    linarith) (fun p i hp => by rw [sub_self, abs_zero]; exact hδ0.le)
  set B : ℚ := |B' * δ| with hBd
  have hB0 : (0 : ℝ) ≤ (B : ℝ) := by exact_mod_cast abs_nonneg _
  obtain ⟨N, hNn⟩ := exists_nat_gt ((K * (2 * Real.pi * B) ^ 2) / (ε / 2))
  refine ⟨max N 1, fun n hnN => ?_⟩
  have hn1 : 1 ≤ n := le_trans (le_max_right _ _) hnN
  have hnN' : K * (2 * Real.pi * B) ^ 2 < n * (ε / 2) := by
    rw [div_lt_iff₀ (half_pos hε)] at hNn
    have : (N : ℝ) ≤ n := by exact_mod_cast le_trans (le_max_left _ _) hnN
    nlinarith
  obtain ⟨s', ts, h1, h2, h3⟩ := hK n
  obtain ⟨u', us, q1, _, q3⟩ := hB n
  rw [h1] at q1
  obtain ⟨rfl, rfl⟩ := Prod.mk.inj (Except.ok.inj q1)
  have frames : ∀ i, ∃ f : ℕ → ℕ → ℝ, i < n → (∀ t, ts[i]? = some t → ∃ st waves, o.look g k still t.seenBySci = .ok st ∧ Plate.interpPhase st.phase Pn pad F = .ok waves ∧ f = fun i j => 2 * Real.pi * (((waves.getD i []).getD j 0 : ℚ) : ℝ)) ∧
      (∀ x y, |f x y| ≤ 2 * Real.pi * B) ∧ (K ≤ i → ∀ x y, |f x y| ≤ 2 * Real.pi * e) := by
    intro i
    by_cases hi : i < n
    · obtain ⟨t, ht⟩ : ∃ t, ts[i]? = some t := ⟨_, List.getElem?_eq_getElem (by omega)⟩
      obtain ⟨st, b1, b4⟩ := q3 i t ht
      have hsz : st.phase.rows = g.nOut ∧ st.phase.cols = g.nOut := by
        obtain ⟨st', c1, c2, c3, _⟩ := look_eq o ho.1 g hgs k hk still t.seenBySci ⟨g, k, 0, fun _ _ _ => 0⟩ rfl rfl
        rw [b1, Except.ok.injEq] at c1
        rw [c1]
        exact ⟨c2, c3⟩
      have scale : ∀ (e : ℚ) (waves : List (List ℚ)), (∀ i j, |(waves.getD i []).getD j 0| ≤ e) → ∀ x y, |2 * Real.pi * (((waves.getD x []).getD y 0 : ℚ) : ℝ)| ≤ 2 * Real.pi * e := by
        intro e waves w2 x y
        rw [abs_mul, abs_of_pos (by positivity : 0 < 2 * Real.pi)]
        refine mul_le_mul_of_nonneg_left ?_ (by positivity)
        have h : ((|(waves.getD x []).getD y 0| : ℚ) : ℝ) ≤ e := by exact_mod_cast w2 x y
        rwa [Rat.cast_abs] at h
      obtain ⟨waves, w1, w2⟩ := interpPhase_small st.phase Pn pad F B (abs_nonneg _) (by omega) (by omega) fun x y hx hy => le_trans (b4 x y (by omega) (by omega)) (le_abs_self _)
      refine ⟨fun i j => 2 * Real.pi * (((waves.getD i []).getD j 0 : ℚ) : ℝ), fun _ => ⟨fun t' ht' => ?_, scale B waves w2, fun hKi => ?_⟩⟩
      · rw [ht, Option.some.injEq] at ht'
        rw [← ht']
        exact ⟨st, waves, b1, w1, rfl⟩
      · obtain ⟨st', c1, _, _, c4⟩ := h3 i t hKi ht
        rw [b1, Except.ok.injEq] at c1
        obtain ⟨waves', w1', w2'⟩ := interpPhase_small st.phase Pn pad F e he0.le (by omega) (by omega) fun x y hx hy => by rw [c1]; exact (c4 x y (by omega) (by omega)).le
        rw [w1, Except.ok.injEq] at w1'
        rw [w1']
        exact scale e waves' w2'
    · exact ⟨fun _ _ => 0, fun h => absurd h hi⟩
  choose f hf using frames
  refine ⟨s', ts, (List.range n).map f, h1, h2, by simp, fun i t ht => ?_, ?_⟩
  · have hi : i < n := by rw [← h2]; exact (List.getElem?_eq_some_iff.mp ht).1
    obtain ⟨st, waves, a1, a2, a3⟩ := (hf i hi).1 t ht
    exact ⟨st, waves, a1, a2, by rw [List.getElem?_map, List.getElem?_range hi, Option.map_some, a3]⟩
  · obtain ⟨l1, l2⟩ := C119_long_lower_partial F px hpx hF m' h01' hpos' 1 one_ne_zero ((List.range n).map f) (by simp; omega)
    refine ⟨lt_of_lt_of_le ?_ l1, l2⟩
    have wsq : ∀ i b, 0 ≤ b → (∀ x y, |f i x y| ≤ b) → (1 * Report.gridWfe F m' (f i) 1) ^ 2 ≤ b ^ 2 := by
      intro i b hb h
      have hw := gridWfe_small F m' (f i) 1 b hb h01' hpos' one_ne_zero fun x y _ _ => h x y
      rw [abs_one, div_one] at hw
      have h0 : 0 ≤ Report.gridWfe F m' (f i) 1 := Real.sqrt_nonneg _
      rw [one_mul]
      exact pow_le_pow_left₀ h0 hw 2
    have tot := mean_small n K ((2 * Real.pi * B) ^ 2) ((2 * Real.pi * e) ^ 2) (sq_nonneg _) (fun i => (1 * Report.gridWfe F m' (f i) 1) ^ 2)
      (fun i hi => le_trans (wsq i _ (by positivity) (hf i hi).2.1) (le_add_of_nonneg_right (sq_nonneg _))) (fun i hi hKi => wsq i _ (by positivity) ((hf i hi).2.2 hKi))
    have hn0 : (0 : ℝ) < n := by exact_mod_cast hn1
    have e1 : (((List.range n).map f).map fun phi => (1 * Report.gridWfe F m' phi 1) ^ 2).sum = ∑ i ∈ Finset.range n, (1 * Report.gridWfe F m' (f i) 1) ^ 2 := by
      rw [List.map_map]
      rfl
    rw [e1, List.length_map, List.length_range, sub_lt_sub_iff_left, div_lt_iff₀ hn0]
    nlinarith

omit ho hcal hne hdms hkept hrows hcols hinv hg hN hstore

/-- The same simulation, with turbulence that its mirrors could make: the long exposures and the frames of a camera with 3 elements and 4 pixels. -/
example (c : List ℚ) (hc : c.length = 3) (ε : ℝ) (hε : 0 < ε) : ∃ dms' still, wholeOptics.calibrate 4 wholeDms = .ok (dms', wholeImat) ∧ Makes wholeOptics dms' id c still ∧ (∃ N, ∀ n, N ≤ n → ∃ s' ts phis,
    runLoop (wholeOptics.sys dms' wholeCmat 2 100 true false) (wholeOptics.plant fun _ => still) (initial (wholeOptics.sys dms' wholeCmat 2 100 true false) (controls dms' [3 / 5, 3 / 5]) 4 4 ())
      (List.replicate n (controls dms' [3 / 5, 3 / 5])) = .ok (s', ts) ∧ phis.length = n ∧ 1 - ε < Report.longStrehlTT 4 3 0 1 4 (by norm_num) (fun _ _ => 1) phis) ∧
    ∃ K, ∀ n, ∃ s' ts, runLoop (wholeOptics.sys dms' wholeCmat 2 100 true false) (wholeOptics.plant fun _ => still) (initial (wholeOptics.sys dms' wholeCmat 2 100 true false) (controls dms' [3 / 5, 3 / 5]) 4 4 ())
      (List.replicate n (controls dms' [3 / 5, 3 / 5])) = .ok (s', ts) ∧ ∀ (i : ℕ) (t : Trace Stack), K ≤ i → ts[i]? = some t → ∃ st, wholeOptics.look (wholeWfs (1 / 5000)).geom 2 still t.seenBySci = .ok st ∧
        Report.gridWfe 2 (fun _ _ => 1) (fun i j => 2 * Real.pi * (st.phase.px i j : ℝ)) 3 < ε := by
  obtain ⟨dms', h1, h2⟩ := whole_ok
  have hd : ∀ d ∈ wholeDms, d.shapes.length = d.nActs ∧ (wholeOptics.scrn + d.nElem) % 2 = 0 := by
    intro d hd; simp only [wholeDms, List.mem_cons, List.not_mem_nil, or_false] at hd; rcases hd with rfl | rfl <;> exact ⟨rfl, rfl⟩
  obtain ⟨hl, hML, hrow⟩ := calibrate_rows wholeOptics whole_sound 4 wholeDms dms' wholeImat h1 hd
  have hl2 : dms'.length = 2 := hl
  obtain ⟨still, hstill⟩ := Makes.exists wholeOptics dms' (fun k d h => (hrow k d h).1) h2 id c (by rw [hc, ← hML]; rfl)
  have hconj : Conjugate wholeOptics dms'.length id := by
    intro k hk
    rw [hl2] at hk
    interval_cases k <;> exact ⟨by decide, by decide, rfl⟩
  have p3 : 0 < ∑ i ∈ Finset.range 3, ∑ j ∈ Finset.range 3, (fun _ _ => (1 : ℝ)) i j := by norm_num
  have p2 : 0 < ∑ i ∈ Finset.range 2, ∑ j ∈ Finset.range 2, (fun _ _ => (1 : ℝ)) i j := by norm_num
  obtain ⟨N, hN⟩ := C155_long wholeOptics whole_sound 4 wholeDms dms' wholeImat h1 (by simp [wholeDms]) hd h2 wholeCmat rfl (by decide) whole_undoes
    [3 / 5, 3 / 5] rfl 2 100 4 (by norm_num) true false (fun h => nomatch h) camera_default id hconj c still hstill (wholeWfs (1 / 5000)).geom rfl (le_refl 2) 2 two_ne_zero 2 0 3 4 (by norm_num) (by norm_num) (fun _ _ => 1) (fun _ _ => Or.inr rfl) p3 ε hε
  obtain ⟨K, hK⟩ := C155_reports wholeOptics whole_sound 4 wholeDms dms' wholeImat h1 (by simp [wholeDms]) hd h2 wholeCmat rfl (by decide) whole_undoes
    [3 / 5, 3 / 5] rfl 2 100 4 (by norm_num) true false (fun h => nomatch h) camera_default id hconj c still hstill (wholeWfs (1 / 5000)).geom rfl (le_refl 2) 2 two_ne_zero 2 0 3 4 (by norm_num) (by norm_num) (fun _ _ => 1) (fun _ _ => 1) (fun _ _ => Or.inr rfl) (fun _ _ => Or.inr rfl)
    p2 p3 3 (by norm_num) ε hε
  refine ⟨dms', still, h1, hstill, ⟨N, fun n hn => ?_⟩, ⟨K, fun n => ?_⟩⟩
  · obtain ⟨s', ts, phis, r1, _, r3, _, r5, _⟩ := hN n hn
    exact ⟨s', ts, phis, r1, r3, r5⟩
  · obtain ⟨s', ts, r1, _, r3⟩ := hK n
    refine ⟨s', ts, r1, fun i t hi ht => ?_⟩
    obtain ⟨st, _, b1, _, b3, _⟩ := r3 i t hi ht
    exact ⟨st, b1, b3⟩

end Soapy.Props
