/-
Property theorems C159 for the whole simulation: sensors with an exposure time of several frames.
-/
import Verif.Props.Slow
import Verif.Props.WholeExact

namespace Soapy.Props

open Soapy.Mirror Soapy.Los Soapy.Whole Soapy.Loop Soapy.Control Soapy.Vec Soapy.Slow

/-- What the sensors measure of a stack, measurement by measurement. -/
def sensesOf (o : Optics) : Stack →ₗ[ℚ] (ℕ → ℚ) where
  toFun := fun v m => if m < o.totalMeas then senses o v m else 0
  map_add' := fun u v => by
    funext m
    simp only [map_add, Pi.add_apply]
    split_ifs
    · rfl
    · simp
  map_smul' := fun r u => by
    funext m
    simp only [map_smul, Pi.smul_apply, smul_eq_mul, RingHom.id_apply]
    split_ifs
    · rfl
    · simp

theorem sensesOf_lt (o : Optics) (v : Stack) (m : ℕ) (hm : m < o.totalMeas) : sensesOf o v m = senses o v m := by
  simp [sensesOf, hm]

theorem slow_eq (o : Optics) (ho : Optics.Sound o) (e : ℕ) (w : ℕ → ℚ) (turb : ℕ → ℕ → ℕ → ℕ → ℚ) (noise : ℕ → ℕ → ℚ) :
    o.slow e w turb noise = slowPlant e o.totalMeas w (fun i corr => sensesOf o ((turb i, 0) - corr.sum)) noise := by
  unfold Optics.slow
  congr 1
  funext i corr m
  rw [sense_eq o ho]
  dsimp only
  rw [List.getD_eq_getElem?_getD, List.getElem?_map]
  by_cases hm : m < o.totalMeas
  · rw [List.getElem?_range hm, sensesOf_lt o _ m hm]
    rfl
  · rw [List.getElem?_eq_none (by simpa using hm)]
    simp [sensesOf, hm]

/-- **C159 (whole).** As `C111_whole`, with sensors that expose `e` frames: every command is the staircase `hold` of what the control matrix reconstructs from the measurements that would be made without mirrors. -/
theorem C159_whole (o : Optics) (ho : Optics.Sound o) (totalActs : ℕ) (dms dms' : List Persist.Dm) (M : List (List ℚ)) (hcal : o.calibrate totalActs dms = .ok (dms', M))
    (hne : dms ≠ []) (hdms : ∀ d ∈ dms, d.shapes.length = d.nActs ∧ (o.scrn + d.nElem) % 2 = 0) (hkept : ∀ d ∈ dms', d.shapes ≠ [])
    (P : List (List ℚ)) (hrows : P.length = o.totalMeas) (hcols : ∀ r ∈ P, r.length = M.length) (hinv : Undoes P M)
    (gains : List ℚ) (hg : gains.length = dms.length) (d nIters nActs n : ℕ) (hN : 1 ≤ nIters) (saveSlopes saveDm : Bool) (hstore : saveDm = true → nActs = M.length) (turb : ℕ → ℕ → ℕ → ℕ → ℚ) (e : ℕ) (he : 0 < e) (w : ℕ → ℚ) (noise : ℕ → ℕ → ℚ) :
    ∃ s' ts, runLoop (o.sys dms' P d nIters saveSlopes saveDm) (o.slow e w turb noise) (initial (o.sys dms' P d nIters saveSlopes saveDm) (controls dms' gains) o.totalMeas nActs fun _ => 0) (List.replicate n (controls dms' gains)) = .ok (s', ts) ∧
      ts.length = n ∧ ∀ (i : ℕ) (t : Trace Stack), ts[i]? = some t →
        (∀ p, p < M.length → t.cmds[p]? =
          some (hold e d (gainOf (controls dms' gains) p) w (fun k => reconstructed P (o.uncorrected (turb k)) p) (fun k => ∑ m ∈ Finset.range o.totalMeas, (P.getD m []).getD p 0 * noise (k * e + (e - 1)) m) ((i - d) / e))) ∧
        t.seenByWfs.sum = ∑ p ∈ Finset.range M.length, t.cmds.getD p 0 • shapeAt o 0 dms' p ∧ t.seenBySci = t.seenByWfs := by
  rw [slow_eq o ho]
  obtain ⟨hl, hML, hrow⟩ := calibrate_rows o ho totalActs dms dms' M hcal hdms
  have hg' : gains.length = dms'.length := by omega
  have hval := controls_valid dms' gains hg'
  have hnC : nCommands (controls dms' gains) = M.length := by rw [nCommands, hval, hML]
  have hfirst : ∀ k, firstCommand (controls dms' gains) k = ((dms'.take k).map fun d => d.shapes.length).sum := by
    intro k
    rw [firstCommand, List.map_take, List.map_take, hval]
  have hsh : ∀ p, p < M.length → ∀ m, m < o.totalMeas → senses o (shapeAt o 0 dms' p) m = (M.getD p []).getD m 0 := by
    intro p hp m hm
    obtain ⟨⟨k, j⟩, ⟨c, hk, hj, hpe⟩, _⟩ := C11_blocks_partition (controls dms' gains) p (by omega)
    dsimp only at hk hj hpe
    obtain ⟨d', hd', hv, _, _⟩ := controls_get dms' gains hg' k c hk
    rw [hpe, hfirst, shapeAt_get o dms' 0 k d' j hd' (by omega), (hrow k d' hd').2 j (by omega) m hm, Nat.zero_add]
  have hunc : ∀ i m, m < o.totalMeas → (o.uncorrected (turb i)).getD m 0 = senses o (turb i, 0) m := by
    intro i m hm
    rw [uncorrected_get o ho, List.getD_eq_getElem?_getD, List.getElem?_map, List.getElem?_range hm]
    rfl
  set a : ℕ → ℕ → ℚ := fun i p => reconstructed P (o.uncorrected (turb i)) p with ha
  set ψ : ℕ → Stack := fun i => (turb i, 0) - ∑ p ∈ Finset.range M.length, a i p • shapeAt o 0 dms' p with hψ
  -- what the mirrors cannot make is not reconstructed
  have hSψ : ∀ i m, m < o.totalMeas → senses o (ψ i) m = (o.uncorrected (turb i)).getD m 0 - ∑ p ∈ Finset.range M.length, a i p * (M.getD p []).getD m 0 := by
    intro i m hm
    rw [hψ]
    dsimp only
    rw [map_sub, Pi.sub_apply, map_sum, Finset.sum_apply, hunc i m hm]
    congr 1
    refine Finset.sum_congr rfl fun p hp => ?_
    rw [map_smul, Pi.smul_apply, smul_eq_mul, hsh p (Finset.mem_range.mp hp) m hm]
  have hb : ∀ i p, p < M.length → ∑ m ∈ Finset.range o.totalMeas, (P.getD m []).getD p 0 * senses o (ψ i) m = 0 := by
    intro i p hp
    rw [Finset.sum_congr rfl fun m hm => by rw [hSψ i m (Finset.mem_range.mp hm), mul_sub, Finset.mul_sum], Finset.sum_sub_distrib, Finset.sum_comm]
    have : ∀ q ∈ Finset.range M.length, ∑ m ∈ Finset.range o.totalMeas, (P.getD m []).getD p 0 * (a i q * (M.getD q []).getD m 0) = if q = p then a i p else 0 := by
      intro q hq
      have := hinv q p (Finset.mem_range.mp hq) hp
      rw [hrows] at this
      rw [Finset.sum_congr rfl fun m _ => show (P.getD m []).getD p 0 * (a i q * (M.getD q []).getD m 0) = a i q * ((M.getD q []).getD m 0 * (P.getD m []).getD p 0) by ring, ← Finset.mul_sum, this]
      split_ifs with h
      · rw [h, mul_one]
      · rw [mul_zero]
    rw [Finset.sum_congr rfl this, Finset.sum_ite_eq' (Finset.range M.length) p, if_pos (Finset.mem_range.mpr hp), ha]
    dsimp only
    rw [reconstructed, hrows, sub_self]
  obtain ⟨s', ts, hrun, hlen, hts⟩ := C159_loop (o.sys dms' P d nIters saveSlopes saveDm) (controls dms' gains)
    (by
      intro hcon
      have h1 : (controls dms' gains).length = 0 := by rw [hcon]; rfl
      have h2 : dms.length ≠ 0 := by simpa using hne
      rw [show (controls dms' gains).length = min dms'.length gains.length by simp [controls]] at h1
      omega)
    (by
      intro c hc
      obtain ⟨k, hk⟩ := List.mem_iff_getElem?.mp hc
      obtain ⟨_, _, _, h, _⟩ := controls_get dms' gains hg' k c hk
      exact h)
    o.totalMeas nActs d n e he rfl hN (by intro h; rw [hnC]; exact hstore h) (shapeAt o 0 dms') (sensesOf o) (fun i => (turb i, 0)) ψ a noise (gainOf (controls dms' gains)) w
    (by
      intro k c hk cmd hc
      obtain ⟨d', hd', hv, _, _⟩ := controls_get dms' gains hg' k c hk
      obtain ⟨x, x1, x2⟩ := surface_ok o k d' (hrow k d' hd').1 (hkept d' (List.mem_of_getElem? hd')) cmd (by omega)
      simp only [Optics.sys, hd', x1, x2, hv]
      congr 1
      refine Finset.sum_congr rfl fun j hj => ?_
      rw [hfirst, shapeAt_get o dms' 0 k d' j hd' (Finset.mem_range.mp hj), Nat.zero_add])
    (gainOf_get _)
    P hrows (by rw [hnC]; exact hcols)
    (by simp only [Optics.sys]; rw [hnC, hML])
    (by
      intro p q hp hq
      rw [hnC] at hp hq
      rw [← hinv p q hp hq, hrows]
      refine Finset.sum_congr rfl fun m hm => ?_
      rw [zero_sub, map_neg, Pi.neg_apply, neg_neg, sensesOf_lt o _ m (Finset.mem_range.mp hm), hsh p hp m (Finset.mem_range.mp hm)])
    (by intro i; rw [hnC, hψ]; simp)
  refine ⟨s', ts, hrun, hlen, ?_⟩
  intro i t ht
  obtain ⟨g1, g2⟩ := hts i t ht
  rw [hnC] at g1 g2
  refine ⟨fun p hp => ?_, g2, ?_⟩
  · rw [g1 p hp]
    congr 2
    funext k
    simp only [mul_add, Finset.sum_add_distrib]
    have h0 : ∑ m ∈ Finset.range o.totalMeas, (P.getD m []).getD p 0 * ∑ j ∈ Finset.range e, w j * sensesOf o (ψ (k * e + j)) m = 0 := by
      simp only [Finset.mul_sum]
      rw [Finset.sum_comm]
      refine Finset.sum_eq_zero fun j _ => ?_
      have := hb (k * e + j) p hp
      rw [Finset.sum_congr rfl fun m hm => show (P.getD m []).getD p 0 * (w j * sensesOf o (ψ (k * e + j)) m) = w j * ((P.getD m []).getD p 0 * senses o (ψ (k * e + j)) m) by
        rw [sensesOf_lt o _ m (Finset.mem_range.mp hm)]; ring, ← Finset.mul_sum, this, mul_zero]
    rw [h0, zero_add]
  · obtain ⟨_, hsees⟩ := C16_who_sees_what _ _ _ _ _ _ _ _ _ hrun
    obtain ⟨l1, l2, l3⟩ := hsees i t ht
    refine List.ext_getElem? fun k => ?_
    by_cases hk : k < (controls dms' gains).length
    · obtain ⟨x, _, x2, x3⟩ := l3 k _ (List.getElem?_eq_getElem hk)
      obtain ⟨_, _, _, hcl, _⟩ := controls_get dms' gains hg' k _ (List.getElem?_eq_getElem hk)
      rw [x2, x3, hcl, if_pos rfl]
    · rw [List.getElem?_eq_none (by omega), List.getElem?_eq_none (by omega)]

/-- **C159 (whole, still).** If the atmosphere stands still and the gains are such that single components settle, then all commands come and stay as close to what the control matrix reconstructs from the measurements without mirrors as one likes,
in one number of frames for all, whatever the length of the run: what `C111_nulls` shows for sensors that are read in every frame. -/
theorem C159_still (o : Optics) (ho : Optics.Sound o) (totalActs : ℕ) (dms dms' : List Persist.Dm) (M : List (List ℚ)) (hcal : o.calibrate totalActs dms = .ok (dms', M))
    (hne : dms ≠ []) (hdms : ∀ d ∈ dms, d.shapes.length = d.nActs ∧ (o.scrn + d.nElem) % 2 = 0) (hkept : ∀ d ∈ dms', d.shapes ≠ [])
    (P : List (List ℚ)) (hrows : P.length = o.totalMeas) (hcols : ∀ r ∈ P, r.length = M.length) (hinv : Undoes P M)
    (gains : List ℚ) (hg : gains.length = dms.length) (d nIters nActs : ℕ) (hN : 1 ≤ nIters) (saveSlopes saveDm : Bool) (hstore : saveDm = true → nActs = M.length) (e : ℕ) (he : 0 < e) (w : ℕ → ℚ)
    (hgains : ∀ g ∈ gains, ∀ a, Settles fun k => a - hold e d g w (fun _ => a) (fun _ => 0) k) (still : ℕ → ℕ → ℕ → ℚ) (ε : ℚ) (hε : 0 < ε) :
    ∃ K, ∀ n, ∃ s' ts, runLoop (o.sys dms' P d nIters saveSlopes saveDm) (o.slow e w (fun _ => still) fun _ _ => 0) (initial (o.sys dms' P d nIters saveSlopes saveDm) (controls dms' gains) o.totalMeas nActs fun _ => 0) (List.replicate n (controls dms' gains)) = .ok (s', ts) ∧
      ts.length = n ∧ ∀ (i : ℕ) (t : Trace Stack), K ≤ i → ts[i]? = some t →
        ∀ p, p < M.length → ∃ x, t.cmds[p]? = some x ∧ |x - reconstructed P (o.uncorrected still) p| < ε := by
  obtain ⟨K, hK⟩ := settles_all M.length (fun p k => reconstructed P (o.uncorrected still) p - hold e d (gainOf (controls dms' gains) p) w (fun _ => reconstructed P (o.uncorrected still) p) (fun _ => 0) k)
    (fun p hp => hgains _ (gainOf_mem o ho totalActs dms dms' M hcal hdms gains hg p hp) _) ε hε
  refine ⟨K * e + d, fun n => ?_⟩
  obtain ⟨s', ts, h1, h2, h3⟩ := C159_whole o ho totalActs dms dms' M hcal hne hdms hkept P hrows hcols hinv gains hg d nIters nActs n hN saveSlopes saveDm hstore (fun _ => still) e he w fun _ _ => 0
  refine ⟨s', ts, h1, h2, fun i t hi ht p hp => ⟨_, (h3 i t ht).1 p hp, ?_⟩⟩
  have := hK ((i - d) / e) ((Nat.le_div_iff_mul_le he).mpr (by omega)) p hp
  rw [abs_sub_comm]
  simpa only [mul_zero, Finset.sum_const_zero] using this

/-- **C159 (whole, still, averaging sensors).** With sensors that average exposures at least as long as the delay, this holds for all gains between 0 and 1. -/
theorem C159_still_mean (o : Optics) (ho : Optics.Sound o) (totalActs : ℕ) (dms dms' : List Persist.Dm) (M : List (List ℚ)) (hcal : o.calibrate totalActs dms = .ok (dms', M))
    (hne : dms ≠ []) (hdms : ∀ d ∈ dms, d.shapes.length = d.nActs ∧ (o.scrn + d.nElem) % 2 = 0) (hkept : ∀ d ∈ dms', d.shapes ≠ [])
    (P : List (List ℚ)) (hrows : P.length = o.totalMeas) (hcols : ∀ r ∈ P, r.length = M.length) (hinv : Undoes P M)
    (gains : List ℚ) (hg : gains.length = dms.length) (d nIters nActs : ℕ) (hN : 1 ≤ nIters) (saveSlopes saveDm : Bool) (hstore : saveDm = true → nActs = M.length) (e : ℕ) (he : 0 < e) (hde : d ≤ e)
    (hgains : ∀ g ∈ gains, 0 < g ∧ g < 1) (still : ℕ → ℕ → ℕ → ℚ) (ε : ℚ) (hε : 0 < ε) :
    ∃ K, ∀ n, ∃ s' ts, runLoop (o.sys dms' P d nIters saveSlopes saveDm) (o.slow e (meanOf e) (fun _ => still) fun _ _ => 0) (initial (o.sys dms' P d nIters saveSlopes saveDm) (controls dms' gains) o.totalMeas nActs fun _ => 0) (List.replicate n (controls dms' gains)) = .ok (s', ts) ∧
      ts.length = n ∧ ∀ (i : ℕ) (t : Trace Stack), K ≤ i → ts[i]? = some t →
        ∀ p, p < M.length → ∃ x, t.cmds[p]? = some x ∧ |x - reconstructed P (o.uncorrected still) p| < ε := by
  refine C159_still o ho totalActs dms dms' M hcal hne hdms hkept P hrows hcols hinv gains hg d nIters nActs hN saveSlopes saveDm hstore e he (meanOf e) (fun g hg a => ?_) still ε hε
  obtain ⟨h0, h1⟩ := hgains g hg
  have hdq : (d : ℚ) ≤ e := by exact_mod_cast hde
  have heq : (0 : ℚ) < e := by exact_mod_cast he
  exact (C159_mean_stable e d he g a h0 h1.le (by nlinarith [(Nat.cast_nonneg d : (0 : ℚ) ≤ d)])).1

/-- The simulation of the example of C111 with sensors that average three frames, the default gain and a delay of two frames: the command of the first actuator comes and stays as close to 3 as one likes. -/
example (ε : ℚ) (hε : 0 < ε) : ∃ dms', wholeOptics.calibrate 4 wholeDms = .ok (dms', wholeImat) ∧ ∃ K, ∀ n, ∃ s' ts,
    runLoop (wholeOptics.sys dms' wholeCmat 2 100 true false) (wholeOptics.slow 3 (meanOf 3) (fun _ l i _ => if l = 0 then 3 * i else 0) fun _ _ => 0) (initial (wholeOptics.sys dms' wholeCmat 2 100 true false) (controls dms' [3 / 5, 3 / 5]) 4 4 fun _ => 0)
      (List.replicate n (controls dms' [3 / 5, 3 / 5])) = .ok (s', ts) ∧ ts.length = n ∧ ∀ (i : ℕ) (t : Trace Stack), K ≤ i → ts[i]? = some t → ∃ x, t.cmds[0]? = some x ∧ |x - 3| < ε := by
  obtain ⟨dms', h1, h2⟩ := whole_ok
  obtain ⟨K, hK⟩ := C159_still_mean wholeOptics whole_sound 4 wholeDms dms' wholeImat h1 (by simp [wholeDms])
    (by intro d hd; simp only [wholeDms, List.mem_cons, List.not_mem_nil, or_false] at hd; rcases hd with rfl | rfl <;> exact ⟨rfl, rfl⟩) h2 wholeCmat rfl (by decide) whole_undoes
    [3 / 5, 3 / 5] rfl 2 100 4 (by norm_num) true false (fun h => nomatch h) 3 (by norm_num) (by norm_num)
    (by
      intro g hg
      simp only [List.mem_cons, List.not_mem_nil, or_false] at hg
      rcases hg with rfl | rfl <;> norm_num)
    (fun l i _ => if l = 0 then 3 * i else 0) ε hε
  refine ⟨dms', h1, K, fun n => ?_⟩
  obtain ⟨s', ts, r1, r2, r3⟩ := hK n
  refine ⟨s', ts, r1, r2, fun i t hi ht => ?_⟩
  have e : reconstructed wholeCmat (wholeOptics.uncorrected fun l i _ => if l = 0 then 3 * i else 0) 0 = 3 := by decide +kernel
  have := r3 i t hi ht 0 (by decide)
  rwa [e] at this

end Soapy.Props
