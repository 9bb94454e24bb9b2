/-
Property theorems C159: sensors with an exposure time of several frames in the loop.
-/
import Verif.Model.Slow
import Verif.Props.WholeExact
import Mathlib.Analysis.Complex.Polynomial.Basic
import Mathlib.Analysis.SpecificLimits.Normed

namespace Soapy.Props

open Soapy.Loop Soapy.Control Soapy.Vec Soapy.Slow

section

variable {V σ : Type} [AddCommGroup V] [Module ℚ V]

/-- Commands and surfaces of any run of closed-loop mirrors: every command is its gain times the sum of what the control matrix reconstructs from the measurements of all frames up to the delay. -/
theorem closed_run (sys : Sys V) (pl : Plant σ V) (dms : List DmCtl) (hne : dms ≠ []) (hclosed : ∀ m ∈ dms, m.closed = true)
    (nMeas nActs d n : ℕ) (x₀ : σ) (hd : sys.loopDelay = d) (shape : ℕ → V) (gain : ℕ → ℚ)
    (hsurf : ∀ (k : ℕ) (m : DmCtl), dms[k]? = some m → ∀ c : List ℚ, c.length = m.nValid →
      sys.surface k c = .ok (∑ j ∈ Finset.range m.nValid, c.getD j 0 • shape (firstCommand dms k + j)))
    (hgain : ∀ (k : ℕ) (m : DmCtl), dms[k]? = some m → ∀ j, j < m.nValid → gain (firstCommand dms k + j) = m.gain)
    (cmat : List (List ℚ)) (hrows : cmat.length = nMeas) (hcols : ∀ r ∈ cmat, r.length = nCommands dms)
    (hprod : sys.product = tdot (nCommands dms) cmat) (s' : Loop.State σ V) (ts : List (Trace V)) (hrun : runLoop sys pl (initial sys dms nMeas nActs x₀) (List.replicate n dms) = .ok (s', ts)) (hslen : ∀ t ∈ ts, t.slopes.length = nMeas) :
    ∀ (i : ℕ) (t : Trace V), ts[i]? = some t →
      (∀ p, p < nCommands dms → t.cmds[p]? = some (∑ q ∈ Finset.range (i - d), gain p * ∑ m ∈ Finset.range nMeas, (cmat.getD m []).getD p 0 * (((ts[q]?).map Trace.slopes).getD []).getD m 0)) ∧
      t.seenByWfs.sum = ∑ p ∈ Finset.range (nCommands dms), t.cmds.getD p 0 • shape p := by
  set nC := nCommands dms with hnC
  obtain ⟨hlen, hsees⟩ := C16_who_sees_what sys pl dms nMeas nActs n x₀ s' ts hrun
  obtain ⟨r, cs, hrec, hcs, hcmds⟩ := C17_latency sys pl d hd dms hne nMeas nActs n x₀ s' ts hrun
  -- measurements of frame t, as the reconstructor gets them in frame t + 1
  let meas : ℕ → List ℚ := fun t => if t = 0 then zeros nMeas else ((ts[t - 1]?).map Trace.slopes).getD []
  have hmeas : (zeros nMeas :: ts.map Trace.slopes).take n = (List.range n).map meas := by
    apply List.ext_getElem?
    intro i
    rw [List.getElem?_take, List.getElem?_map]
    by_cases hi : i < n
    · rw [if_pos hi, List.getElem?_range hi]
      cases i with
      | zero => simp [meas]
      | succ i =>
        have : i < ts.length := by omega
        simp [meas, List.getElem?_eq_getElem this]
    · rw [if_neg hi, List.getElem?_eq_none (by simp; omega)]
      rfl
  have hmlen : ∀ t, t < n → (meas t).length = nMeas := by
    intro t ht
    by_cases h0 : t = 0
    · simp [meas, h0, zeros]
    · have : t - 1 < ts.length := by omega
      simp only [meas, h0, if_false, List.getElem?_eq_getElem this, Option.map_some, Option.getD_some]
      exact hslen _ (List.getElem_mem this)
  have hu : ∀ t, t < n → ∃ c, tdot nC cmat (meas t) = .ok c ∧ c.length = nC ∧ ∀ p, p < nC →
      c.getD p 0 = ∑ i ∈ Finset.range cmat.length, (cmat.getD i []).getD p 0 * (meas t).getD i 0 :=
    fun t ht => tdot_get nC cmat (meas t) (by rw [hrows, hmlen t ht]) hcols
  let u : ℕ → List ℚ := fun t => match tdot nC cmat (meas t) with | .ok c => c | .error _ => []
  have hu1 : ∀ t, t < n → sys.product (meas t) = .ok (u t) := by
    intro t ht
    obtain ⟨c, e, _⟩ := hu t ht
    rw [hprod, e]
    simp [u, e]
  have hu2 : ∀ t, t < n → (u t).length = nC := by
    intro t ht
    obtain ⟨c, e, l, _⟩ := hu t ht
    simp [u, e, l]
  have hu3 : ∀ t, t < n → ∀ p, p < nC → (u t).getD p 0 = ∑ i ∈ Finset.range nMeas, (cmat.getD i []).getD p 0 * (meas t).getD i 0 := by
    intro t ht p hp
    obtain ⟨c, e, _, g⟩ := hu t ht
    have : u t = c := by simp [u, e]
    rw [this, g p hp, hrows]
  obtain ⟨r', cs', hrec', _, hint⟩ := C10_closed_integrates dms sys.product n meas u hu1 hu2
  rw [← hmeas, hrec] at hrec'
  simp only [Except.ok.injEq, Prod.mk.injEq] at hrec'
  obtain ⟨_, rfl⟩ := hrec'
  -- commands in frame i as sums
  have hcmd : ∀ (i : ℕ) (t : Trace V), ts[i]? = some t → i < n → ∀ p, p < nC →
      t.cmds[p]? = some (∑ q ∈ Finset.range (if i < d then 0 else i - d + 1), gain p * (u q).getD p 0) := by
    intro i t ht hi p hp
    obtain ⟨⟨k, j⟩, ⟨m, hk, hj, hpe⟩, _⟩ := C11_blocks_partition dms p hp
    dsimp only at hk hj hpe
    have hc := hcmds i hi
    rw [ht, Option.map_some] at hc
    by_cases hid : i < d
    · rw [if_pos hid] at hc
      obtain ⟨c, e1, e2⟩ := hint k m hk (hclosed m (List.mem_of_getElem? hk)) j hj i hi
      rw [e1, Option.map_some, Option.some.injEq] at hc
      rw [hc, hpe, List.getElem?_map, e2, if_pos hid]
      simp
    · rw [if_neg hid] at hc
      obtain ⟨c, e1, e2⟩ := hint k m hk (hclosed m (List.mem_of_getElem? hk)) j hj (i - d) (by omega)
      rw [e1, Option.some.injEq] at hc
      rw [hc, hpe, e2, if_neg hid, hgain k m hk j hj]
      simp only [List.getD_eq_getElem?_getD]
  -- what the sensors see
  have hseen : ∀ (i : ℕ) (t : Trace V), ts[i]? = some t → i < n →
      t.seenByWfs.sum = ∑ p ∈ Finset.range nC, t.cmds.getD p 0 • shape p := by
    intro i t ht hi
    obtain ⟨h1, _, h3⟩ := hsees i t ht
    have hclen : nC ≤ t.cmds.length := by
      by_contra hcon
      have := hcmd i t ht hi t.cmds.length (by omega)
      rw [List.getElem?_eq_none (le_refl _)] at this
      cases this
    have := sum_blocks_shape shape t.cmds dms 0 t.seenByWfs h1 (fun k m hk => by
      obtain ⟨x, x1, x2, _⟩ := h3 k m hk
      rw [x2, if_pos (hclosed m (List.mem_of_getElem? hk))]
      have hle : firstCommand dms k + m.nValid ≤ nC := by
        by_cases hz : m.nValid = 0
        · have : firstCommand dms k ≤ nC := by
            simp only [hnC, firstCommand, nCommands]
            conv_rhs => rw [← List.take_append_drop k dms, List.map_append, List.sum_append]
            omega
          omega
        · have := offset_lt dms k (m.nValid - 1) m hk (by omega)
          simp only [offset] at this
          simp only [hnC, firstCommand, nCommands]
          omega
      have hsl : (slice t.cmds (firstCommand dms k) (firstCommand dms k + m.nValid)).length = m.nValid := by
        simp [slice]; omega
      rw [hsurf k m hk _ hsl] at x1
      simp only [Except.ok.injEq] at x1
      rw [← x1]
      congr 1
      refine Finset.sum_congr rfl fun j hj => ?_
      rw [Finset.mem_range] at hj
      rw [Nat.zero_add]
      congr 1
      simp only [slice, List.getD_eq_getElem?_getD, List.getElem?_take, List.getElem?_drop]
      rw [if_pos (by omega)])
    rw [this]
    refine Finset.sum_congr rfl fun p _ => ?_
    rw [Nat.zero_add]
  intro i t ht
  have hi : i < n := by
    by_contra hcon
    rw [List.getElem?_eq_none (by omega)] at ht; cases ht
  refine ⟨fun p hp => ?_, hseen i t ht hi⟩
  rw [hcmd i t ht hi p hp]
  congr 1
  by_cases hid : i < d
  · rw [if_pos hid, show i - d = 0 by omega]
    simp
  · rw [if_neg hid, Finset.sum_range_succ']
    have h0 : (u 0).getD p 0 = 0 := by
      rw [hu3 0 (by omega) p hp]
      refine Finset.sum_eq_zero fun k hk => ?_
      have : (meas 0).getD k 0 = 0 := by
        simp only [meas, if_true, zeros, List.getD_eq_getElem?_getD, List.getElem?_replicate]
        split_ifs <;> rfl
      rw [this, mul_zero]
    rw [h0, mul_zero, add_zero]
    refine Finset.sum_congr rfl fun q hq => ?_
    rw [Finset.mem_range] at hq
    rw [hu3 (q + 1) (by omega) p hp]
    simp only [meas, Nat.add_sub_cancel, Nat.succ_ne_zero, if_false]

omit [AddCommGroup V] [Module ℚ V] in
/-- What a slow sensor measures in a run. -/
theorem slow_slopes [Zero V] [Add V] (sys : Sys V) (e nMeas : ℕ) (he : 0 < e) (w : ℕ → ℚ) (see : ℕ → List V → ℕ → ℚ) (noise : ℕ → ℕ → ℚ) (dms : List DmCtl) (seen : ℕ → List V) :
    ∀ (n : ℕ) (s s' : Loop.State (ℕ → ℚ) V) (ts : List (Trace V)), runLoop sys (slowPlant e nMeas w see noise) s (List.replicate n dms) = .ok (s', ts) →
    (s.plant = fun m => ∑ j ∈ Finset.range (s.iters % e), w j * see (s.iters - s.iters % e + j) (seen (s.iters - s.iters % e + j)) m) →
    (∀ (i : ℕ) (t : Trace V), ts[i]? = some t → t.seenByWfs = seen (s.iters + i)) →
    ∀ (i : ℕ) (t : Trace V), ts[i]? = some t → t.slopes = if e ∣ s.iters + i + 1 then (List.range nMeas).map fun m => (∑ j ∈ Finset.range e, w j * see (s.iters + i + 1 - e + j) (seen (s.iters + i + 1 - e + j)) m) + noise (s.iters + i) m
      else zeros nMeas := by
  intro n
  induction n with
  | zero =>
    intro s s' ts h _ _ i t ht
    simp [runLoop] at h
    obtain ⟨_, rfl⟩ := h
    simp at ht
  | succ n ih =>
    intro s s' ts h hpl hseen i t ht
    rw [List.replicate_succ] at h
    obtain ⟨u, t0, us, h1, h2, rfl⟩ := runLoop_cons sys _ s s' dms _ ts h
    obtain ⟨_, _, _, e4, e5, _, _, _, e9, _⟩ := loopFrame_ok sys _ dms s u t0 h1
    have hs0 := hseen 0 t0 rfl
    rw [Nat.add_zero] at hs0
    rw [← e5, hs0, hpl] at e4
    have hm := Nat.mod_lt s.iters he
    have hdm := Nat.div_add_mod s.iters e
    have hle := Nat.mod_le s.iters e
    have htot : ∀ m, (∑ j ∈ Finset.range (s.iters % e), w j * see (s.iters - s.iters % e + j) (seen (s.iters - s.iters % e + j)) m) + w (s.iters % e) * see s.iters (seen s.iters) m =
        ∑ j ∈ Finset.range (s.iters % e + 1), w j * see (s.iters - s.iters % e + j) (seen (s.iters - s.iters % e + j)) m := by
      intro m
      rw [Finset.sum_range_succ, Nat.sub_add_cancel hle]
    simp only [slowPlant, htot] at e4
    by_cases hread : e ∣ s.iters + 1
    · have hq : (s.iters + 1) / e ≠ s.iters / e := by
        rw [Nat.succ_div_of_dvd hread]; omega
      have hz : (s.iters + 1) % e = 0 := Nat.mod_eq_zero_of_dvd hread
      have hlast : s.iters % e + 1 = e := by
        by_contra hcon
        have : (s.iters + 1) % e = s.iters % e + 1 := by
          rw [Nat.add_mod, Nat.mod_eq_of_lt (show 1 < e by omega), Nat.mod_eq_of_lt (by omega)]
        omega
      rw [if_pos hq] at e4
      simp only [Except.ok.injEq, Prod.mk.injEq] at e4
      obtain ⟨p1, p2⟩ := e4
      rcases i with _ | i
      · simp only [List.getElem?_cons_zero, Option.some.injEq] at ht
        subst ht
        simp only [Nat.add_zero]
        rw [if_pos hread, ← p2, hlast, show s.iters - s.iters % e = s.iters + 1 - e by omega]
      · rw [List.getElem?_cons_succ] at ht
        have := ih u s' us h2 (by
          rw [e9, hz, ← p1]; simp) (fun i t ht => by
          rw [e9, show s.iters + 1 + i = s.iters + (i + 1) by omega]
          exact hseen (i + 1) t (by rw [List.getElem?_cons_succ]; exact ht)) i t ht
        rw [this, e9, show s.iters + 1 + i = s.iters + (i + 1) by omega]
    · have hq : (s.iters + 1) / e = s.iters / e := Nat.succ_div_of_not_dvd hread
      have hnext : (s.iters + 1) % e = s.iters % e + 1 := by
        have := Nat.div_add_mod (s.iters + 1) e
        rw [hq] at this
        omega
      rw [if_neg (by simpa using hq)] at e4
      simp only [Except.ok.injEq, Prod.mk.injEq] at e4
      obtain ⟨p1, p2⟩ := e4
      rcases i with _ | i
      · simp only [List.getElem?_cons_zero, Option.some.injEq] at ht
        subst ht
        rw [Nat.add_zero, if_neg hread, ← p2]
      · rw [List.getElem?_cons_succ] at ht
        have := ih u s' us h2 (by
          rw [e9, hnext, ← p1, show s.iters + 1 - (s.iters % e + 1) = s.iters - s.iters % e by omega]) (fun i t ht => by
          rw [e9, show s.iters + 1 + i = s.iters + (i + 1) by omega]
          exact hseen (i + 1) t (by rw [List.getElem?_cons_succ]; exact ht)) i t ht
        rw [this, e9, show s.iters + 1 + i = s.iters + (i + 1) by omega]

/-- The command `k` exposures on of a loop that acts on a component `a`, with exposures of `e` frames weighted by `w`, delay `d`, gain `g`, and error `b k` of exposure `k`: while frame `k e + j` is exposed, the mirror shows what it had after `(k e + j - d) / e` exposures. -/
def hold (e d : ℕ) (g : ℚ) (w a b : ℕ → ℚ) : ℕ → ℚ
  | 0 => 0
  | k + 1 => hold e d g w a b k + g * ((∑ j : Fin e, w j * (a (k * e + j) - hold e d g w a b ((k * e + j - d) / e))) + b k)
termination_by k => k
decreasing_by
  · omega
  · have he : 0 < e := by have := j.2; omega
    have : (k * e + j - d) / e ≤ (k * e + j) / e := Nat.div_le_div_right (by omega)
    rw [Nat.add_comm, Nat.add_mul_div_right _ _ he, Nat.div_eq_of_lt j.2] at this
    rw [Nat.add_comm]
    omega

theorem hold_succ (e d : ℕ) (g : ℚ) (w a b : ℕ → ℚ) (k : ℕ) :
    hold e d g w a b (k + 1) = hold e d g w a b k + g * ((∑ j ∈ Finset.range e, w j * (a (k * e + j) - hold e d g w a b ((k * e + j - d) / e))) + b k) := by
  rw [hold, ← Fin.sum_univ_eq_sum_range (fun j => w j * (a (k * e + j) - hold e d g w a b ((k * e + j - d) / e)))]

/-- **C159 (the loop).** As `C110_loop`, with sensors that expose `e` frames: in frame `i` the command is `hold` after `(i - d) / e` exposures. -/
theorem C159_loop (sys : Sys V) (dms : List DmCtl) (hne : dms ≠ []) (hclosed : ∀ m ∈ dms, m.closed = true)
    (nMeas nActs d n e : ℕ) (he : 0 < e) (hd : sys.loopDelay = d) (hN : 1 ≤ sys.nIters) (hstore : sys.saveDmCommands = true → nActs = nCommands dms)
    (shape : ℕ → V) (S : V →ₗ[ℚ] (ℕ → ℚ)) (φ ψ : ℕ → V) (a noise : ℕ → ℕ → ℚ) (gain w : ℕ → ℚ)
    (hsurf : ∀ (k : ℕ) (m : DmCtl), dms[k]? = some m → ∀ c : List ℚ, c.length = m.nValid →
      sys.surface k c = .ok (∑ j ∈ Finset.range m.nValid, c.getD j 0 • shape (firstCommand dms k + j)))
    (hgain : ∀ (k : ℕ) (m : DmCtl), dms[k]? = some m → ∀ j, j < m.nValid → gain (firstCommand dms k + j) = m.gain)
    (cmat : List (List ℚ)) (hrows : cmat.length = nMeas) (hcols : ∀ r ∈ cmat, r.length = nCommands dms)
    (hprod : sys.product = tdot (nCommands dms) cmat)
    (hinv : ∀ p q, p < nCommands dms → q < nCommands dms →
      ∑ m ∈ Finset.range nMeas, (-(S (0 - shape p)) m) * (cmat.getD m []).getD q 0 = if p = q then 1 else 0)
    (hφ : ∀ i, φ i = ψ i + ∑ p ∈ Finset.range (nCommands dms), a i p • shape p) :
    ∃ s' ts, runLoop sys (slowPlant e nMeas w (fun i corr => S (φ i - corr.sum)) noise) (initial sys dms nMeas nActs fun _ => 0) (List.replicate n dms) = .ok (s', ts) ∧ ts.length = n ∧
      ∀ (i : ℕ) (t : Trace V), ts[i]? = some t →
        (∀ p, p < nCommands dms → t.cmds[p]? = some (hold e d (gain p) w (fun k => a k p)
          (fun k => ∑ m ∈ Finset.range nMeas, (cmat.getD m []).getD p 0 * ((∑ j ∈ Finset.range e, w j * S (ψ (k * e + j)) m) + noise (k * e + (e - 1)) m)) ((i - d) / e))) ∧
        t.seenByWfs.sum = ∑ p ∈ Finset.range (nCommands dms), t.cmds.getD p 0 • shape p := by
  set nC := nCommands dms with hnC
  obtain ⟨s', ts, hrun⟩ := C16_run_completes sys (slowPlant e nMeas w (fun i corr => S (φ i - corr.sum)) noise) dms nMeas nActs d (fun _ => 0) (List.replicate n dms) (fun c hc => by rw [List.eq_of_mem_replicate hc])
    (fun k m hk c hc => ⟨_, hsurf k m hk c hc⟩)
    (fun m hm => by
      obtain ⟨c, e1, e2, _⟩ := tdot_get nC cmat m (by rw [hrows, hm]) hcols
      exact ⟨c, by rw [hprod]; exact e1, e2⟩)
    (fun x i c _ => by
      simp only [slowPlant]
      split_ifs
      · exact ⟨_, _, rfl, by simp⟩
      · exact ⟨_, _, rfl, by simp [zeros]⟩) hN hd hstore
  obtain ⟨hlen, _⟩ := C16_who_sees_what sys _ dms nMeas nActs n _ s' ts hrun
  have hslopes := slow_slopes sys e nMeas he w (fun i corr => S (φ i - corr.sum)) noise dms (fun i => ((ts[i]?).map Trace.seenByWfs).getD []) n _ s' ts hrun
    (by simp [initial]) (fun i t ht => by simp [initial, ht])
  simp only [initial, Nat.zero_add] at hslopes
  have hrunC := closed_run sys _ dms hne hclosed nMeas nActs d n _ hd shape gain hsurf hgain cmat hrows hcols hprod s' ts hrun (fun t ht => by
    obtain ⟨i, hi⟩ := List.mem_iff_getElem?.mp ht
    rw [hslopes i t hi]
    split_ifs <;> simp [zeros])
  refine ⟨s', ts, hrun, hlen, ?_⟩
  set b : ℕ → ℕ → ℚ := fun p k => ∑ m ∈ Finset.range nMeas, (cmat.getD m []).getD p 0 * ((∑ j ∈ Finset.range e, w j * S (ψ (k * e + j)) m) + noise (k * e + (e - 1)) m) with hb
  have hP : ∀ p q, p < nC → q < nC → ∑ m ∈ Finset.range nMeas, S (shape p) m * (cmat.getD m []).getD q 0 = if p = q then 1 else 0 := by
    intro p q hp hq
    rw [← hinv p q hp hq]
    refine Finset.sum_congr rfl fun m _ => ?_
    rw [zero_sub, map_neg, Pi.neg_apply, neg_neg]
  -- what is reconstructed from a measurement
  have hlin : ∀ (c : ℕ → ℚ) (x : V) p, p < nC → ∑ m ∈ Finset.range nMeas, (cmat.getD m []).getD p 0 * S (x + ∑ q ∈ Finset.range nC, c q • shape q) m =
      (∑ m ∈ Finset.range nMeas, (cmat.getD m []).getD p 0 * S x m) + c p := by
    intro c x p hp
    have : ∀ m, S (x + ∑ q ∈ Finset.range nC, c q • shape q) m = S x m + ∑ q ∈ Finset.range nC, c q * S (shape q) m := by
      intro m
      simp [map_add, map_sum, map_smul, Finset.sum_apply]
    simp only [this, mul_add, Finset.sum_add_distrib]
    congr 1
    simp only [Finset.mul_sum]
    rw [Finset.sum_comm]
    have : ∀ q ∈ Finset.range nC, ∑ m ∈ Finset.range nMeas, (cmat.getD m []).getD p 0 * (c q * S (shape q) m) = c q * if q = p then 1 else 0 := by
      intro q hq
      rw [← hP q p (Finset.mem_range.mp hq) hp, Finset.mul_sum]
      exact Finset.sum_congr rfl fun m _ => by ring
    rw [Finset.sum_congr rfl this]
    simp [hp]
  have main : ∀ (i : ℕ) (t : Trace V), ts[i]? = some t → ∀ p, p < nC → t.cmds[p]? = some (hold e d (gain p) w (fun k => a k p) (b p) ((i - d) / e)) := by
    intro i
    induction i using Nat.strong_induction_on with
    | _ i ih =>
      intro t ht p hp
      have hi : i < n := by
        by_contra hcon
        rw [List.getElem?_eq_none (by omega)] at ht; cases ht
      rw [(hrunC i t ht).1 p hp]
      congr 1
      have tele : ∀ N, N ≤ i - d → ∑ q ∈ Finset.range N, gain p * ∑ m ∈ Finset.range nMeas, (cmat.getD m []).getD p 0 * (((ts[q]?).map Trace.slopes).getD []).getD m 0 =
          hold e d (gain p) w (fun k => a k p) (b p) (N / e) := by
        intro N
        induction N with
        | zero => intro _; rw [Nat.zero_div, hold]; simp
        | succ N ihN =>
          intro hNi
          rw [Finset.sum_range_succ, ihN (by omega)]
          have hNl : N < ts.length := by omega
          have hN? := List.getElem?_eq_getElem hNl
          simp only [hN?, Option.map_some, Option.getD_some]
          rw [hslopes N _ hN?]
          by_cases hread : e ∣ N + 1
          · rw [if_pos hread, Nat.succ_div_of_dvd hread, hold_succ]
            obtain ⟨k', hk'⟩ := hread
            obtain ⟨k, rfl⟩ : ∃ k, k' = k + 1 := ⟨k' - 1, by
              rcases k' with _ | k'
              · omega
              · omega⟩
            have hNe : N = k * e + (e - 1) := by
              have : e * (k + 1) = k * e + e := by ring
              omega
            have hdiv : N / e = k := by
              rw [hNe, Nat.add_comm, Nat.add_mul_div_right _ _ he, Nat.div_eq_of_lt (by omega), Nat.zero_add]
            rw [hdiv]
            congr 2
            have hstart : N + 1 - e = k * e := by omega
            rw [hstart]
            -- the mirror while the frames were exposed
            have hframe : ∀ j, j < e → φ (k * e + j) - (((ts[k * e + j]?).map Trace.seenByWfs).getD []).sum =
                ψ (k * e + j) + ∑ q ∈ Finset.range nC, (a (k * e + j) q - hold e d (gain q) w (fun k => a k q) (b q) ((k * e + j - d) / e)) • shape q := by
              intro j hj
              have hjl : k * e + j < ts.length := by omega
              have hj? := List.getElem?_eq_getElem hjl
              rw [hj?, Option.map_some, Option.getD_some, (hrunC _ _ hj?).2, hφ, add_sub_assoc, ← Finset.sum_sub_distrib]
              congr 1
              refine Finset.sum_congr rfl fun q hq => ?_
              rw [sub_smul, List.getD_eq_getElem?_getD, ih (k * e + j) (by omega) _ hj? q (Finset.mem_range.mp hq)]
              simp
            have hget : ∀ m, m < nMeas → ((List.range nMeas).map fun m => (∑ j ∈ Finset.range e, w j * S (φ (k * e + j) - (((ts[k * e + j]?).map Trace.seenByWfs).getD []).sum) m) + noise N m).getD m 0 =
                (∑ j ∈ Finset.range e, w j * S (ψ (k * e + j) + ∑ q ∈ Finset.range nC, (a (k * e + j) q - hold e d (gain q) w (fun k => a k q) (b q) ((k * e + j - d) / e)) • shape q) m) + noise (k * e + (e - 1)) m := by
              intro m hm
              rw [List.getD_eq_getElem?_getD, List.getElem?_map, List.getElem?_range hm, Option.map_some, Option.getD_some, ← hNe]
              congr 1
              refine Finset.sum_congr rfl fun j hj => ?_
              rw [hframe j (Finset.mem_range.mp hj)]
            rw [Finset.sum_congr rfl fun m hm => by rw [hget m (Finset.mem_range.mp hm)]]
            rw [show b p k = ∑ m ∈ Finset.range nMeas, (cmat.getD m []).getD p 0 * ((∑ j ∈ Finset.range e, w j * S (ψ (k * e + j)) m) + noise (k * e + (e - 1)) m) from rfl]
            simp only [mul_add, Finset.sum_add_distrib, Finset.mul_sum]
            rw [← add_assoc]
            congr 1
            rw [Finset.sum_comm, Finset.sum_comm (s := Finset.range nMeas), ← Finset.sum_add_distrib]
            refine Finset.sum_congr rfl fun j _ => ?_
            have h1 := hlin (fun q => a (k * e + j) q - hold e d (gain q) w (fun k => a k q) (b q) ((k * e + j - d) / e)) (ψ (k * e + j)) p hp
            have h2 : ∀ (y : ℕ → ℚ), ∑ m ∈ Finset.range nMeas, (cmat.getD m []).getD p 0 * (w j * y m) = w j * ∑ m ∈ Finset.range nMeas, (cmat.getD m []).getD p 0 * y m := by
              intro y
              rw [Finset.mul_sum]
              exact Finset.sum_congr rfl fun m _ => by ring
            rw [h2, h2, h1]
            ring
          · rw [if_neg hread, Nat.succ_div_of_not_dvd hread]
            have : ∑ m ∈ Finset.range nMeas, (cmat.getD m []).getD p 0 * (zeros nMeas).getD m 0 = 0 := by
              refine Finset.sum_eq_zero fun m _ => ?_
              have : (zeros nMeas).getD m 0 = 0 := by
                simp only [zeros, List.getD_eq_getElem?_getD, List.getElem?_replicate]
                split_ifs <;> rfl
              rw [this, mul_zero]
            rw [this, mul_zero, add_zero]
      exact tele (i - d) (le_refl _)
  exact fun i t ht => ⟨main i t ht, (hrunC i t ht).2⟩

end

/-! ### Sensors that measure the last frame of an exposure -/

/-- **C159 (last frame).** With sensors that measure the last frame of the exposure (gradient, pyramid) the loop is, exposure by exposure, the loop of `C110_loop` with the delay rounded down to exposures, on the course of the last frames. -/
theorem C159_last (e d : ℕ) (he : 0 < e) (g : ℚ) (a b : ℕ → ℚ) (k : ℕ) :
    hold e d g (lastOf e) a b k = a ((k + d / e) * e + (e - 1)) - lag (d / e) g (fun k => a (k * e + (e - 1))) b (k + d / e) := by
  set q := d / e with hq
  have hdm : q * e + d % e = d := by rw [hq, Nat.mul_comm]; exact Nat.div_add_mod d e
  have hr := Nat.mod_lt d he
  have hshown : ∀ k, (k * e + (e - 1) - d) / e = k - q := by
    intro k
    by_cases hk : q ≤ k
    · obtain ⟨x, rfl⟩ := Nat.exists_eq_add_of_le hk
      rw [show (q + x) * e + (e - 1) - d = (e - 1 - d % e) + x * e by rw [Nat.add_mul]; omega, Nat.add_mul_div_right _ _ he, Nat.div_eq_of_lt (by omega)]
      omega
    · obtain ⟨x, hx⟩ := Nat.exists_eq_add_of_lt (Nat.lt_of_not_le hk)
      have : (k + x + 1) * e = k * e + x * e + e := by ring
      rw [hx, this] at hdm
      rw [show k * e + (e - 1) - d = 0 by omega, Nat.zero_div]
      omega
  have hstep : ∀ k, hold e d g (lastOf e) a b (k + 1) = hold e d g (lastOf e) a b k + g * (a (k * e + (e - 1)) - hold e d g (lastOf e) a b (k - q) + b k) := by
    intro k
    rw [hold_succ, Finset.sum_eq_single (e - 1)]
    · rw [hshown, lastOf, if_pos (by omega), one_mul]
    · intro j hj hne
      rw [lastOf, if_neg (by omega), zero_mul]
    · intro h
      exact absurd (Finset.mem_range.mpr (by omega)) h
  rw [lag_sum, Nat.add_sub_cancel, sub_sub_cancel]
  induction k using Nat.strong_induction_on with
  | _ k ih =>
    cases k with
    | zero => rw [hold]; simp
    | succ k =>
      rw [hstep, Finset.sum_range_succ, ih k (by omega)]
      congr 2
      congr 1
      rw [lag_sum]
      congr 1
      exact ih (k - q) (Nat.lt_succ_of_le (Nat.sub_le k q))

theorem settles_shift (x : ℕ → ℚ) (q : ℕ) : Settles (fun n => x (n + q)) ↔ Settles x := by
  constructor
  · intro h ε hε
    obtain ⟨N, hN⟩ := h ε hε
    refine ⟨N + q, fun n hn => ?_⟩
    have := hN (n - q) (by omega)
    dsimp only at this
    rwa [Nat.sub_add_cancel (by omega)] at this
  · intro h ε hε
    obtain ⟨N, hN⟩ := h ε hε
    exact ⟨N, fun n hn => hN (n + q) (by omega)⟩

/-- **C159 (last frame, still).** Such a loop removes a still aberration exactly if the gain is stable for the delay rounded down to exposures; if the delay is shorter than an exposure, for all gains between 0 and 2. -/
theorem C159_last_exact (e d : ℕ) (he : 0 < e) (g a : ℚ) (ha : a ≠ 0) :
    (Settles (fun k => a - hold e d g (lastOf e) (fun _ => a) (fun _ => 0) k) ↔ StableGain (d / e) g) ∧
    (d < e → (Settles (fun k => a - hold e d g (lastOf e) (fun _ => a) (fun _ => 0) k) ↔ 0 < g ∧ g < 2)) := by
  have key : (fun k => a - hold e d g (lastOf e) (fun _ => a) (fun _ => 0) k) = fun k => leftOver (d / e) g a (k + d / e) := by
    funext k
    rw [C159_last e d he, lag_static, sub_sub_cancel]
  rw [key, settles_shift (leftOver (d / e) g a)]
  refine ⟨C79_exact (d / e) g a ha, fun h => ?_⟩
  rw [Nat.div_eq_of_lt h]
  exact C79_no_delay_stable g a ha

/-! ### Sensors that average -/

/-- While exposure `k` runs the mirror shows what it had `d / e` exposures ago, and, in the first `d % e` frames, one exposure before that. -/
theorem exposed_split (e d : ℕ) (he : 0 < e) (w : ℕ → ℚ) (hw : ∑ j ∈ Finset.range e, w j = 1) (F : ℕ → ℚ) (k : ℕ) :
    ∑ j ∈ Finset.range e, w j * F ((k * e + j - d) / e) = (1 - ∑ j ∈ Finset.range (d % e), w j) * F (k - d / e) + (∑ j ∈ Finset.range (d % e), w j) * F (k - d / e - 1) := by
  have hdm : (d / e) * e + d % e = d := by rw [Nat.mul_comm]; exact Nat.div_add_mod d e
  have hr := Nat.mod_lt d he
  set q := d / e
  set r := d % e
  have hshown : ∀ j, j < e → (k * e + j - d) / e = if j < r then k - q - 1 else k - q := by
    intro j hj
    by_cases hk : q ≤ k
    · obtain ⟨x, rfl⟩ := Nat.exists_eq_add_of_le hk
      have h1 : (q + x) * e = q * e + x * e := by ring
      rw [Nat.add_sub_cancel_left]
      split_ifs with hjr
      · cases x with
        | zero => rw [show (q + 0) * e + j - d = 0 by rw [h1]; omega]; simp
        | succ x =>
          have h2 : (x + 1) * e = x * e + e := by ring
          rw [show (q + (x + 1)) * e + j - d = (e + j - r) + x * e by rw [h1, h2]; omega, Nat.add_mul_div_right _ _ he, Nat.div_eq_of_lt (by omega)]
          omega
      · rw [show (q + x) * e + j - d = (j - r) + x * e by rw [h1]; omega, Nat.add_mul_div_right _ _ he, Nat.div_eq_of_lt (by omega), Nat.zero_add]
    · obtain ⟨x, hx⟩ := Nat.exists_eq_add_of_lt (Nat.lt_of_not_le hk)
      have : (k + x + 1) * e = k * e + x * e + e := by ring
      rw [hx, this] at hdm
      rw [show k * e + j - d = 0 by omega, Nat.zero_div, show k - q = 0 by omega]
      simp
  obtain ⟨x, hx⟩ := Nat.exists_eq_add_of_le hr.le
  rw [Finset.sum_congr rfl fun j hj => by rw [hshown j (Finset.mem_range.mp hj)]]
  rw [← hw, hx, Finset.sum_range_add, Finset.sum_range_add]
  rw [Finset.sum_congr rfl fun j hj => by rw [if_pos (Finset.mem_range.mp hj)], ← Finset.sum_mul]
  have : ∀ j ∈ Finset.range x, w (r + j) * F (if r + j < r then k - q - 1 else k - q) = w (r + j) * F (k - q) := by
    intro j _
    rw [if_neg (by omega)]
  rw [Finset.sum_congr rfl this, ← Finset.sum_mul]
  ring

/-- What is left of a still aberration, exposure by exposure: the exposure sees the mirror as it was `d / e` exposures ago, and, in its first `d % e` frames, one exposure before that. -/
theorem hold_left (e d : ℕ) (he : 0 < e) (g a : ℚ) (w : ℕ → ℚ) (hw : ∑ j ∈ Finset.range e, w j = 1) (k : ℕ) :
    a - hold e d g w (fun _ => a) (fun _ => 0) (k + 1) = (a - hold e d g w (fun _ => a) (fun _ => 0) k)
      - g * ((1 - ∑ j ∈ Finset.range (d % e), w j) * (a - hold e d g w (fun _ => a) (fun _ => 0) (k - d / e)) + (∑ j ∈ Finset.range (d % e), w j) * (a - hold e d g w (fun _ => a) (fun _ => 0) (k - d / e - 1))) := by
  rw [hold_succ, exposed_split e d he w hw (fun n => a - hold e d g w (fun _ => a) (fun _ => 0) n)]
  ring

/-- A loop that acts on what was left `q` and `q + 1` steps ago, with weights `1 - θ` and `θ`. -/
theorem mixed_delay_stable (q : ℕ) (g θ : ℚ) (hθ0 : 0 ≤ θ) (hθ1 : θ ≤ 1) (h0 : 0 < g) (h1 : g ≤ 1) (hd : g * (q + θ) < 1) (R : ℕ → ℚ)
    (hR : ∀ k, R (k + 1) = R k - g * ((1 - θ) * R (k - q) + θ * R (k - q - 1))) :
    Settles R ∧ ∀ x n, x * (2 * q + 3) ≤ n → |R n| ≤ (1 - g + g ^ 2 * (q + θ)) ^ x * |R 0| := by
  set ρ := 1 - g + g ^ 2 * (q + θ) with hρ
  have hqq : (0 : ℚ) ≤ q := Nat.cast_nonneg q
  have hρ0 : 0 ≤ ρ := by
    have : 0 ≤ g ^ 2 * (q + θ) := by positivity
    rw [hρ]; linarith
  have hρ1 : ρ < 1 := by
    have : g * (g * (q + θ)) < g * 1 := mul_lt_mul_of_pos_left hd h0
    rw [hρ]; nlinarith
  have mix : ∀ x y M : ℚ, |x| ≤ M → |y| ≤ M → |(1 - θ) * x + θ * y| ≤ M := by
    intro x y M hx hy
    rw [abs_le] at *
    constructor <;> nlinarith
  have step : ∀ (n : ℕ) (M : ℚ), (∀ k, n - 2 * (q + 1) ≤ k → k ≤ n → |R k| ≤ M) → |R (n + 1)| ≤ ρ * M := by
    intro n M hM
    have hM0 : 0 ≤ M := (abs_nonneg _).trans (hM n (by omega) (le_refl n))
    have diff : ∀ m, m ≤ q + 1 → |R n - R (n - m)| ≤ m * (g * M) := by
      intro m
      induction m with
      | zero => intro _; simp
      | succ m ih =>
        intro hm
        have h := ih (by omega)
        have h2 : |R (n - m) - R (n - (m + 1))| ≤ g * M := by
          by_cases hz : n - m = 0
          · rw [show n - (m + 1) = n - m by omega, sub_self, abs_zero]
            positivity
          · have e1 : n - m = n - (m + 1) + 1 := by omega
            rw [e1, hR, sub_sub_cancel_left, abs_neg, abs_mul, abs_of_pos h0]
            exact mul_le_mul_of_nonneg_left (mix _ _ _ (hM _ (by omega) (by omega)) (hM _ (by omega) (by omega))) h0.le
        have h3 : R n - R (n - (m + 1)) = (R n - R (n - m)) + (R (n - m) - R (n - (m + 1))) := by ring
        rw [h3]
        refine (abs_add_le _ _).trans ?_
        push_cast
        linarith
    have d1 := diff q (by omega)
    have d2 := diff (q + 1) (le_refl _)
    rw [show n - (q + 1) = n - q - 1 by omega] at d2
    have hn := hM n (by omega) (le_refl n)
    have e : R (n + 1) = (1 - g) * R n + g * ((1 - θ) * (R n - R (n - q)) + θ * (R n - R (n - q - 1))) := by
      rw [hR]; ring
    rw [e]
    push_cast at d2
    rw [abs_le] at *
    have h1g : 0 ≤ 1 - g := by linarith
    have h1t : 0 ≤ 1 - θ := by linarith
    have gt : 0 ≤ g * θ := by positivity
    have gt' : 0 ≤ g * (1 - θ) := by positivity
    have a1 := mul_le_mul_of_nonneg_left hn.1 h1g
    have a2 := mul_le_mul_of_nonneg_left hn.2 h1g
    have b1 := mul_le_mul_of_nonneg_left d1.1 gt'
    have b2 := mul_le_mul_of_nonneg_left d1.2 gt'
    have c1 := mul_le_mul_of_nonneg_left d2.1 gt
    have c2 := mul_le_mul_of_nonneg_left d2.2 gt
    rw [hρ]
    constructor <;> linarith
  have all : ∀ n, |R n| ≤ |R 0| := by
    intro n
    induction n using Nat.strong_induction_on with
    | _ n ih =>
      cases n with
      | zero => exact le_refl _
      | succ m =>
        have := step m |R 0| (fun k _ hk => ih k (by omega))
        nlinarith [abs_nonneg (R 0)]
  have geo : ∀ x n, x * (2 * q + 3) ≤ n → |R n| ≤ ρ ^ x * |R 0| := by
    intro x
    induction x with
    | zero => intro n _; simpa using all n
    | succ x ih =>
      intro n hn
      rw [Nat.succ_mul] at hn
      obtain ⟨m, rfl⟩ : ∃ m, n = m + 1 := ⟨n - 1, by omega⟩
      have := step m (ρ ^ x * |R 0|) (fun k hk _ => ih k (by omega))
      rw [pow_succ']
      linarith
  refine ⟨fun ε hε => ?_, geo⟩
  obtain ⟨Q, hQ⟩ := pow_small ρ |R 0| ε hρ0 hρ1 hε
  exact ⟨Q * (2 * q + 3), fun n hn => lt_of_le_of_lt (geo Q n hn) (hQ Q (le_refl Q))⟩

theorem mean_sum (e r : ℕ) : ∑ j ∈ Finset.range r, meanOf e j = r / e := by
  simp [meanOf, div_eq_mul_inv]

/-- **C159 (mean).** With sensors that average their exposure, a still aberration is removed, geometrically, whenever the gain is between 0 and 1 and less than the number of exposures per delay `e / d`: a delay of `d` frames counts as `d / e` exposures. -/
theorem C159_mean_stable (e d : ℕ) (he : 0 < e) (g a : ℚ) (h0 : 0 < g) (h1 : g ≤ 1) (hd : g * d < e) :
    Settles (fun k => a - hold e d g (meanOf e) (fun _ => a) (fun _ => 0) k) ∧
    ∀ x n, x * (2 * (d / e) + 3) ≤ n → |a - hold e d g (meanOf e) (fun _ => a) (fun _ => 0) n| ≤ (1 - g + g ^ 2 * (d / e : ℚ)) ^ x * |a| := by
  have heq : (0 : ℚ) < e := by exact_mod_cast he
  have hsplit : (((d / e : ℕ) : ℚ) + ((d % e : ℕ) : ℚ) / e) = (d : ℚ) / e := by
    have : ((e * (d / e) + d % e : ℕ) : ℚ) = d := by rw [Nat.div_add_mod]
    push_cast at this
    field_simp
    linarith
  have hw : ∑ j ∈ Finset.range e, meanOf e j = 1 := by rw [mean_sum]; field_simp
  have := mixed_delay_stable (d / e) g (((d % e : ℕ) : ℚ) / e) (by positivity)
    (by rw [div_le_one heq]; exact_mod_cast (Nat.mod_lt d he).le) h0 h1
    (by rw [hsplit, ← mul_div_assoc, div_lt_one heq]; exact hd)
    (fun k => a - hold e d g (meanOf e) (fun _ => a) (fun _ => 0) k)
    (fun k => by
      have := hold_left e d he g a (meanOf e) hw k
      rw [mean_sum] at this
      exact this)
  rw [hsplit] at this
  refine ⟨this.1, fun x n hx => ?_⟩
  have h := this.2 x n hx
  simpa only [hold, sub_zero] using h

/-! ### Moving turbulence -/

/-- As `mixed_delay_stable`, with a disturbance in every step. -/
theorem mixed_delay_bounded (q : ℕ) (g θ Δ : ℚ) (hθ0 : 0 ≤ θ) (hθ1 : θ ≤ 1) (h0 : 0 < g) (h1 : g ≤ 1) (hd : g * (q + θ) < 1) (R D : ℕ → ℚ) (hD : ∀ k, |D k| ≤ Δ)
    (hR : ∀ k, R (k + 1) = R k - g * ((1 - θ) * R (k - q) + θ * R (k - q - 1)) + D k) (x n : ℕ) (hx : x * (2 * q + 3) ≤ n) :
    |R n| ≤ (1 - g + g ^ 2 * (q + θ)) ^ x * |R 0| + (1 + g * (q + θ)) * Δ / (g * (1 - g * (q + θ))) := by
  set ρ := 1 - g + g ^ 2 * (q + θ) with hρ
  set K := (1 + g * (q + θ)) * Δ / (g * (1 - g * (q + θ))) with hK
  have hΔ : 0 ≤ Δ := (abs_nonneg _).trans (hD 0)
  have hqq : (0 : ℚ) ≤ q := Nat.cast_nonneg q
  have h1d : 0 < 1 - g * (q + θ) := by linarith
  have hρ0 : 0 ≤ ρ := by
    have : 0 ≤ g ^ 2 * (q + θ) := by positivity
    rw [hρ]; linarith
  have hK0 : 0 ≤ K := by rw [hK]; positivity
  have hKρ : ρ * K + (1 + g * (q + θ)) * Δ = K := by
    have : K * (g * (1 - g * (q + θ))) = (1 + g * (q + θ)) * Δ := by
      rw [hK]; field_simp
    rw [← this, hρ]; ring
  have mix : ∀ x y M : ℚ, |x| ≤ M → |y| ≤ M → |(1 - θ) * x + θ * y| ≤ M := by
    intro x y M hx hy
    rw [abs_le] at *
    constructor <;> nlinarith
  have step : ∀ (n : ℕ) (M : ℚ), (∀ k, n - 2 * (q + 1) ≤ k → k ≤ n → |R k| ≤ M) → |R (n + 1)| ≤ ρ * M + (1 + g * (q + θ)) * Δ := by
    intro n M hM
    have hM0 : 0 ≤ M := (abs_nonneg _).trans (hM n (by omega) (le_refl n))
    have diff : ∀ m, m ≤ q + 1 → |R n - R (n - m)| ≤ m * (g * M + Δ) := by
      intro m
      induction m with
      | zero => intro _; simp
      | succ m ih =>
        intro hm
        have h := ih (by omega)
        have h2 : |R (n - m) - R (n - (m + 1))| ≤ g * M + Δ := by
          by_cases hz : n - m = 0
          · rw [show n - (m + 1) = n - m by omega, sub_self, abs_zero]
            positivity
          · have e1 : n - m = n - (m + 1) + 1 := by omega
            have e2 : R (n - m) - R (n - (m + 1)) = D (n - (m + 1)) - g * ((1 - θ) * R (n - (m + 1) - q) + θ * R (n - (m + 1) - q - 1)) := by
              rw [e1, hR]; ring
            rw [e2]
            refine (abs_sub _ _).trans ?_
            rw [abs_mul, abs_of_pos h0]
            have := mul_le_mul_of_nonneg_left (mix _ _ _ (hM (n - (m + 1) - q) (by omega) (by omega)) (hM (n - (m + 1) - q - 1) (by omega) (by omega))) h0.le
            linarith [hD (n - (m + 1))]
        have h3 : R n - R (n - (m + 1)) = (R n - R (n - m)) + (R (n - m) - R (n - (m + 1))) := by ring
        rw [h3]
        refine (abs_add_le _ _).trans ?_
        push_cast
        linarith
    have d1 := diff q (by omega)
    have d2 := diff (q + 1) (le_refl _)
    rw [show n - (q + 1) = n - q - 1 by omega] at d2
    have hn := hM n (by omega) (le_refl n)
    have hDn := hD n
    have e : R (n + 1) = (1 - g) * R n + g * ((1 - θ) * (R n - R (n - q)) + θ * (R n - R (n - q - 1))) + D n := by
      rw [hR]; ring
    rw [e]
    push_cast at d2
    rw [abs_le] at *
    have h1g : 0 ≤ 1 - g := by linarith
    have h1t : 0 ≤ 1 - θ := by linarith
    have gt : 0 ≤ g * θ := by positivity
    have gt' : 0 ≤ g * (1 - θ) := by positivity
    have a1 := mul_le_mul_of_nonneg_left hn.1 h1g
    have a2 := mul_le_mul_of_nonneg_left hn.2 h1g
    have b1 := mul_le_mul_of_nonneg_left d1.1 gt'
    have b2 := mul_le_mul_of_nonneg_left d1.2 gt'
    have c1 := mul_le_mul_of_nonneg_left d2.1 gt
    have c2 := mul_le_mul_of_nonneg_left d2.2 gt
    rw [hρ]
    constructor <;> linarith
  have hρ1 : ρ < 1 := by
    have : g * (g * (q + θ)) < g * 1 := mul_lt_mul_of_pos_left hd h0
    rw [hρ]; nlinarith
  have all : ∀ n, |R n| ≤ |R 0| + K := by
    intro n
    induction n using Nat.strong_induction_on with
    | _ n ih =>
      cases n with
      | zero => linarith
      | succ m =>
        have := step m (|R 0| + K) (fun k _ hk => ih k (by omega))
        nlinarith [abs_nonneg (R 0)]
  have geo : ∀ x n, x * (2 * q + 3) ≤ n → |R n| ≤ ρ ^ x * |R 0| + K := by
    intro x
    induction x with
    | zero => intro n _; simpa using all n
    | succ x ih =>
      intro n hn
      rw [Nat.succ_mul] at hn
      obtain ⟨m, rfl⟩ : ∃ m, n = m + 1 := ⟨n - 1, by omega⟩
      have := step m (ρ ^ x * |R 0| + K) (fun k hk _ => ih k (by omega))
      rw [pow_succ']
      linarith
  exact geo x n hx

theorem course_diff (a : ℕ → ℚ) (δ : ℚ) (ha : ∀ n, |a (n + 1) - a n| ≤ δ) (m : ℕ) : ∀ n, |a (n + m) - a n| ≤ m * δ := by
  induction m with
  | zero => intro n; simp
  | succ m ih =>
    intro n
    have h1 := ih n
    have h2 := ha (n + m)
    have e : a (n + (m + 1)) - a n = (a (n + m + 1) - a (n + m)) + (a (n + m) - a n) := by rw [← add_assoc]; ring
    rw [e]
    refine (abs_add_le _ _).trans ?_
    push_cast
    linarith

/-- **C159 (moving turbulence).** Averaging sensors, gain between 0 and 1 and below `e / d`: if a component changes by at most `δ` per frame and every exposure is measured with an error of at most `ε`, what is left of it in frame `i` is at most a transient, which falls geometrically,
and a bound that depends on `δ`, `ε`, exposure, delay and gain only. -/
theorem C159_bounded (e d : ℕ) (he : 0 < e) (g δ ε : ℚ) (h0 : 0 < g) (h1 : g ≤ 1) (hd : g * d < e) (a b : ℕ → ℚ) (ha : ∀ n, |a (n + 1) - a n| ≤ δ) (hb : ∀ n, |b n| ≤ ε) (x i : ℕ) (hx : x * (2 * (d / e) + 3) ≤ (i - d) / e) :
    |a i - hold e d g (meanOf e) a b ((i - d) / e)| ≤ (1 - g + g ^ 2 * (d / e : ℚ)) ^ x * |a 0| + (1 + g * (d / e : ℚ)) * (e * δ + g * ((d + e) * δ + ε)) / (g * (1 - g * (d / e : ℚ))) + (d + e) * δ := by
  have heq : (0 : ℚ) < e := by exact_mod_cast he
  have hδ : 0 ≤ δ := (abs_nonneg _).trans (ha 0)
  have hsplit : (((d / e : ℕ) : ℚ) + ((d % e : ℕ) : ℚ) / e) = (d : ℚ) / e := by
    have : ((e * (d / e) + d % e : ℕ) : ℚ) = d := by rw [Nat.div_add_mod]
    push_cast at this
    field_simp
    linarith
  have hw : ∑ j ∈ Finset.range e, meanOf e j = 1 := by rw [mean_sum]; field_simp
  -- since the command was given
  have hage : ∀ m, |a m - a ((m - d) / e * e)| ≤ (d + e) * δ := by
    intro m
    have h1 : (m - d) / e * e ≤ m - d := Nat.div_mul_le_self _ _
    have h2 : m - d < (m - d) / e * e + e := by
      have := Nat.lt_div_mul_add (a := m - d) he
      exact this
    obtain ⟨c, hc⟩ := Nat.exists_eq_add_of_le (show (m - d) / e * e ≤ m by omega)
    have hcd : c ≤ d + e := by omega
    have := course_diff a δ ha c ((m - d) / e * e)
    rw [← hc] at this
    refine this.trans (mul_le_mul_of_nonneg_right (by exact_mod_cast hcd) hδ)
  set D : ℕ → ℚ := fun k => (a (k * e + e) - a (k * e)) - g * ((∑ j ∈ Finset.range e, meanOf e j * (a (k * e + j) - a ((k * e + j - d) / e * e))) + b k) with hDdef
  have hD : ∀ k, |D k| ≤ e * δ + g * ((d + e) * δ + ε) := by
    intro k
    have t1 := course_diff a δ ha e (k * e)
    have t2 : |∑ j ∈ Finset.range e, meanOf e j * (a (k * e + j) - a ((k * e + j - d) / e * e))| ≤ (d + e) * δ := by
      refine (Finset.abs_sum_le_sum_abs _ _).trans ?_
      calc _ ≤ ∑ j ∈ Finset.range e, meanOf e j * ((d + e) * δ) := Finset.sum_le_sum fun j _ => by
            rw [abs_mul, abs_of_nonneg (show 0 ≤ meanOf e j by unfold meanOf; positivity)]
            exact mul_le_mul_of_nonneg_left (hage _) (by unfold meanOf; positivity)
        _ = _ := by rw [← Finset.sum_mul, hw, one_mul]
    have t3 : |(∑ j ∈ Finset.range e, meanOf e j * (a (k * e + j) - a ((k * e + j - d) / e * e))) + b k| ≤ (d + e) * δ + ε := (abs_add_le _ _).trans (add_le_add t2 (hb k))
    rw [hDdef]
    refine (abs_sub _ _).trans ?_
    rw [abs_mul, abs_of_pos h0]
    exact add_le_add t1 (mul_le_mul_of_nonneg_left t3 h0.le)
  have := mixed_delay_bounded (d / e) g (((d % e : ℕ) : ℚ) / e) _ (by positivity)
    (by rw [div_le_one heq]; exact_mod_cast (Nat.mod_lt d he).le) h0 h1
    (by rw [hsplit, ← mul_div_assoc, div_lt_one heq]; exact hd)
    (fun k => a (k * e) - hold e d g (meanOf e) a b k) D hD
    (fun k => by
      have h := exposed_split e d he (meanOf e) hw (fun n => a (n * e) - hold e d g (meanOf e) a b n) k
      rw [mean_sum] at h
      rw [← h, hold_succ, hDdef]
      have hsum : ∑ j ∈ Finset.range e, meanOf e j * (a (k * e + j) - hold e d g (meanOf e) a b ((k * e + j - d) / e)) =
          (∑ j ∈ Finset.range e, meanOf e j * (a ((k * e + j - d) / e * e) - hold e d g (meanOf e) a b ((k * e + j - d) / e))) + ∑ j ∈ Finset.range e, meanOf e j * (a (k * e + j) - a ((k * e + j - d) / e * e)) := by
        rw [← Finset.sum_add_distrib]
        exact Finset.sum_congr rfl fun j _ => by ring
      rw [hsum, show (k + 1) * e = k * e + e by ring]
      ring) x ((i - d) / e) hx
  rw [hsplit] at this
  simp only [Nat.zero_mul, hold, sub_zero] at this
  have hlast := hage i
  have e1 : a i - hold e d g (meanOf e) a b ((i - d) / e) = (a i - a ((i - d) / e * e)) + (a ((i - d) / e * e) - hold e d g (meanOf e) a b ((i - d) / e)) := by ring
  rw [e1]
  refine (abs_add_le _ _).trans ?_
  linarith

/-- Default gain, exposures of four frames, one frame of delay: after 120 frames at most a thousandth of the initial aberration and 21 times the change in a frame. -/
example (a : ℕ → ℚ) (ha : ∀ n, |a (n + 1) - a n| ≤ 1 / 1000) (i : ℕ) (hi : 121 ≤ i) : |a i - hold 4 1 (3 / 5) (meanOf 4) a (fun _ => 0) ((i - 1) / 4)| ≤ 1 / 1000 * |a 0| + 21 / 1000 := by
  have := C159_bounded 4 1 (by norm_num) (3 / 5) (1 / 1000) 0 (by norm_num) (by norm_num) (by norm_num) a (fun _ => 0) ha (by simp) 10 i (by norm_num; omega)
  norm_num at this ⊢
  nlinarith [abs_nonneg (a 0)]

/-! ### Exactly which gains are stable -/

open Filter Topology in
/-- Two-step recursion with real coefficients: its solution goes to zero exactly if the roots are inside the unit circle. -/
theorem two_step (g θ a : ℝ) (hθ0 : 0 ≤ θ) (ha : a ≠ 0) (f : ℕ → ℝ) (h0 : f 0 = a) (hf1 : f 1 = (1 - g) * a)
    (hrec : ∀ k, f (k + 2) = (1 - g * (1 - θ)) * f (k + 1) - g * θ * f k) :
    Tendsto f atTop (𝓝 0) ↔ 0 < g ∧ g * θ < 1 ∧ g * (1 - 2 * θ) < 2 := by
  -- the roots
  obtain ⟨z₁, z₂, hs, hp⟩ : ∃ z₁ z₂ : ℂ, z₁ + z₂ = ((1 - g * (1 - θ) : ℝ) : ℂ) ∧ z₁ * z₂ = ((g * θ : ℝ) : ℂ) := by
    obtain ⟨w, hw⟩ := IsAlgClosed.exists_pow_nat_eq (((1 - g * (1 - θ) : ℝ) : ℂ) ^ 2 - 4 * ((g * θ : ℝ) : ℂ)) (n := 2) (by norm_num)
    refine ⟨(((1 - g * (1 - θ) : ℝ) : ℂ) + w) / 2, (((1 - g * (1 - θ) : ℝ) : ℂ) - w) / 2, by ring, ?_⟩
    linear_combination (-1 / 4) * hw
  have hfs : ∀ z₁ z₂ : ℂ, z₁ + z₂ = ((1 - g * (1 - θ) : ℝ) : ℂ) → z₁ * z₂ = ((g * θ : ℝ) : ℂ) → ∀ k, (f (k + 1) : ℂ) - z₂ * f k = z₁ ^ (k + 1) * ((1 - z₂) * a) := by
    intro z₁ z₂ hs hp k
    induction k with
    | zero =>
      rw [hf1, h0]
      push_cast at hs hp ⊢
      linear_combination (-(a : ℂ)) * hs + (a : ℂ) * hp
    | succ k ih =>
      rw [hrec]
      push_cast at hs hp ⊢
      rw [pow_succ]
      linear_combination z₁ * ih - (f (k + 1) : ℂ) * hs + (f k : ℂ) * hp
  have him : z₁.im + z₂.im = 0 := by have := congrArg Complex.im hs; simpa using this
  have hre : z₁.re + z₂.re = 1 - g * (1 - θ) := by have := congrArg Complex.re hs; simpa using this
  have hpr : z₁.re * z₂.re - z₁.im * z₂.im = g * θ := by have := congrArg Complex.re hp; simpa using this
  have hpi : z₁.re * z₂.im + z₁.im * z₂.re = 0 := by have := congrArg Complex.im hp; simpa using this
  have e2 : z₂.im = -z₁.im := by linarith
  have hcase : z₁.im = 0 ∨ z₂.re = z₁.re := by
    rw [e2] at hpi
    have : z₁.im * (z₂.re - z₁.re) = 0 := by linarith
    rcases mul_eq_zero.mp this with h | h
    · exact Or.inl h
    · exact Or.inr (by linarith)
  have n1 : ‖z₁‖ ^ 2 = z₁.re ^ 2 + z₁.im ^ 2 := by rw [← Complex.normSq_eq_norm_sq, Complex.normSq_apply]; ring
  have n2 : ‖z₂‖ ^ 2 = z₂.re ^ 2 + z₂.im ^ 2 := by rw [← Complex.normSq_eq_norm_sq, Complex.normSq_apply]; ring
  have lt_one : ∀ z : ℂ, ‖z‖ < 1 ↔ ‖z‖ ^ 2 < 1 := fun z => by
    rw [sq_lt_one_iff₀ (norm_nonneg z)]
  constructor
  · intro h
    have hg0 : g ≠ 0 := by
      rintro rfl
      have : ∀ k, f (k + 1) = f k := by
        intro k
        induction k with
        | zero => rw [hf1, h0]; ring
        | succ k ih => rw [hrec, ih]; ring
      have hc : ∀ k, f k = a := by
        intro k
        induction k with
        | zero => exact h0
        | succ k ih => rw [this, ih]
      have : f = fun _ => a := funext hc
      rw [this] at h
      exact ha (tendsto_nhds_unique tendsto_const_nhds h)
    have hfc : Tendsto (fun k => (f k : ℂ)) atTop (𝓝 0) := by
      have := (Complex.continuous_ofReal.tendsto 0).comp h
      rw [Complex.ofReal_zero] at this
      exact this
    have inside : ∀ z₁ z₂ : ℂ, z₁ + z₂ = ((1 - g * (1 - θ) : ℝ) : ℂ) → z₁ * z₂ = ((g * θ : ℝ) : ℂ) → ‖z₁‖ < 1 := by
      intro z₁ z₂ hs hp
      have hL : Tendsto (fun k => z₁ ^ (k + 1) * ((1 - z₂) * (a : ℂ))) atTop (𝓝 0) := by
        have h1 := (hfc.comp (tendsto_add_atTop_nat 1)).sub (hfc.const_mul z₂)
        rw [mul_zero, sub_zero] at h1
        refine h1.congr fun k => ?_
        exact hfs z₁ z₂ hs hp k
      have hne : (1 - z₂) * (a : ℂ) ≠ 0 := by
        refine mul_ne_zero (fun h => hg0 ?_) (by exact_mod_cast ha)
        have hz : z₂ = 1 := by linear_combination -h
        rw [hz] at hs hp
        have : (g : ℂ) = 0 := by
          push_cast at hs hp
          linear_combination hs - hp
        exact_mod_cast this
      by_contra hcon
      have hn := hL.norm
      rw [norm_zero] at hn
      have hpos : 0 < ‖(1 - z₂) * (a : ℂ)‖ := norm_pos_iff.mpr hne
      obtain ⟨k, hk⟩ := (hn.eventually (gt_mem_nhds hpos)).exists
      rw [norm_mul, norm_pow] at hk
      have : 1 ≤ ‖z₁‖ ^ (k + 1) := one_le_pow₀ (not_lt.mp hcon)
      nlinarith
    have l1 := (lt_one z₁).mp (inside z₁ z₂ hs hp)
    have l2 := (lt_one z₂).mp (inside z₂ z₁ (by rw [add_comm]; exact hs) (by rw [mul_comm]; exact hp))
    rw [n1] at l1
    rw [n2] at l2
    rcases hcase with hc | hc
    · rw [hc, neg_zero] at e2
      rw [hc] at l1 hpr
      rw [e2] at l2
      have r1 : |z₁.re| < 1 := by rw [← sq_lt_one_iff_abs_lt_one]; linarith
      have r2 : |z₂.re| < 1 := by rw [← sq_lt_one_iff_abs_lt_one]; linarith
      rw [abs_lt] at r1 r2
      refine ⟨?_, ?_, ?_⟩
      · nlinarith [mul_pos (sub_pos.mpr r1.2) (sub_pos.mpr r2.2)]
      · have := sq_nonneg (z₁.re - z₂.re)
        nlinarith
      · nlinarith [mul_pos (by linarith [r1.1] : 0 < 1 + z₁.re) (by linarith [r2.1] : 0 < 1 + z₂.re)]
    · rw [e2, hc] at hpr
      rw [hc] at hre
      by_cases hi : z₁.im = 0
      · rw [hi] at l1 hpr
        have r1 : |z₁.re| < 1 := by rw [← sq_lt_one_iff_abs_lt_one]; linarith
        rw [abs_lt] at r1
        refine ⟨?_, ?_, ?_⟩
        · nlinarith [mul_pos (sub_pos.mpr r1.2) (sub_pos.mpr r1.2)]
        · nlinarith
        · nlinarith [mul_pos (by linarith [r1.1] : 0 < 1 + z₁.re) (by linarith [r1.1] : 0 < 1 + z₁.re)]
      · have hi2 : 0 < z₁.im ^ 2 := by positivity
        refine ⟨?_, ?_, ?_⟩
        · nlinarith [sq_nonneg (1 - z₁.re)]
        · nlinarith
        · nlinarith [sq_nonneg (1 + z₁.re)]
  · rintro ⟨hg, hgt, hgt2⟩
    have hp0 : 0 ≤ g * θ := mul_nonneg hg.le hθ0
    have hsabs : |1 - g * (1 - θ)| < 1 + g * θ := by
      rw [abs_lt]
      constructor <;> linarith
    -- real roots
    have real_root : ∀ x : ℝ, x ^ 2 - (1 - g * (1 - θ)) * x + g * θ = 0 → |x| < 1 := by
      intro x hx
      by_contra hcon
      have hx1 : 1 ≤ |x| := not_lt.mp hcon
      have h1 : (1 - g * (1 - θ)) * x ≤ |1 - g * (1 - θ)| * |x| := by
        rw [← abs_mul]; exact le_abs_self _
      have h2 : |1 - g * (1 - θ)| * |x| < (1 + g * θ) * |x| := mul_lt_mul_of_pos_right hsabs (by linarith)
      have h3 : x ^ 2 = |x| ^ 2 := (sq_abs x).symm
      nlinarith [mul_nonneg (sub_nonneg.mpr hx1) (by linarith : 0 ≤ |x| - g * θ)]
    have hin : ‖z₁‖ < 1 ∧ ‖z₂‖ < 1 := by
      rw [lt_one, lt_one, n1, n2]
      by_cases hi : z₁.im = 0
      · rw [hi, neg_zero] at e2
        rw [hi, e2] at hpr
        have r1 := real_root z₁.re (by rw [← hre]; linarith)
        have r2 := real_root z₂.re (by rw [← hre]; linarith)
        rw [← sq_lt_one_iff_abs_lt_one] at r1 r2
        rw [hi, e2]
        constructor <;> linarith
      · have hc := hcase.resolve_left hi
        rw [e2, hc] at hpr
        rw [e2, hc]
        constructor <;> nlinarith
    -- the bound
    set r := max ‖z₁‖ ‖z₂‖ with hr
    have hr1 : r < 1 := max_lt hin.1 hin.2
    have hr0 : 0 ≤ r := (norm_nonneg z₁).trans (le_max_left _ _)
    set C := ‖(1 - z₂) * (a : ℂ)‖ with hC
    have hC0 : 0 ≤ C := norm_nonneg _
    have bound : ∀ k : ℕ, |f k| ≤ |a| * r ^ k + C * (k * r ^ k) := by
      intro k
      induction k with
      | zero => rw [h0]; simp
      | succ k ih =>
        have h1 : (f (k + 1) : ℂ) = z₂ * f k + z₁ ^ (k + 1) * ((1 - z₂) * a) := by
          linear_combination hfs z₁ z₂ hs hp k
        have h2 : |f (k + 1)| = ‖(f (k + 1) : ℂ)‖ := by rw [Complex.norm_real, Real.norm_eq_abs]
        rw [h2, h1]
        refine (norm_add_le _ _).trans ?_
        rw [norm_mul, norm_mul (z₁ ^ (k + 1)), norm_pow, Complex.norm_real, Real.norm_eq_abs, ← hC]
        have t1 : ‖z₂‖ * |f k| ≤ r * (|a| * r ^ k + C * (k * r ^ k)) := mul_le_mul (le_max_right _ _) ih (abs_nonneg _) hr0
        have t2 : ‖z₁‖ ^ (k + 1) * C ≤ r ^ (k + 1) * C := mul_le_mul_of_nonneg_right (pow_le_pow_left₀ (norm_nonneg _) (le_max_left _ _) _) hC0
        push_cast
        calc _ ≤ _ := add_le_add t1 t2
          _ = _ := by ring
    have lim : Tendsto (fun k : ℕ => |a| * r ^ k + C * (k * r ^ k)) atTop (𝓝 0) := by
      have l1 := (tendsto_pow_atTop_nhds_zero_of_lt_one hr0 hr1).const_mul |a|
      have l2 := (tendsto_self_mul_const_pow_of_lt_one hr0 hr1).const_mul C
      have := l1.add l2
      simpa using this
    exact squeeze_zero_norm bound lim

/-- **C159 (stability, exactly).** With exposures at least as long as the delay, of frames weighted by `w`, a still aberration is removed exactly if the gain is positive, `g θ < 1` and `g (1 - 2 θ) < 2`, where `θ` is the weight of the frames that are exposed before the last command reaches the mirror. -/
theorem C159_exact (e d : ℕ) (he : 0 < e) (hde : d ≤ e) (g a : ℚ) (ha : a ≠ 0) (w : ℕ → ℚ) (hw0 : ∀ j, j < e → 0 ≤ w j) (hw : ∑ j ∈ Finset.range e, w j = 1) :
    Settles (fun k => a - hold e d g w (fun _ => a) (fun _ => 0) k) ↔ 0 < g ∧ g * (∑ j ∈ Finset.range d, w j) < 1 ∧ g * (1 - 2 * ∑ j ∈ Finset.range d, w j) < 2 := by
  set R : ℕ → ℚ := fun k => a - hold e d g w (fun _ => a) (fun _ => 0) k with hRdef
  set θ := ∑ j ∈ Finset.range d, w j with hθ
  have hstep : ∀ k, R (k + 1) = R k - g * ((1 - θ) * R k + θ * R (k - 1)) := by
    intro k
    have h := hold_left e d he g a w hw k
    rcases Nat.lt_or_ge d e with h' | h'
    · rw [Nat.div_eq_of_lt h', Nat.mod_eq_of_lt h', Nat.sub_zero] at h
      exact h
    · have : d = e := le_antisymm hde h'
      subst this
      rw [Nat.div_self he, Nat.mod_self, Finset.sum_range_zero] at h
      simp only [hRdef]
      rw [h, hθ, hw]
      ring
  have hθ0 : 0 ≤ θ := Finset.sum_nonneg fun j hj => hw0 j (by rw [Finset.mem_range] at hj; omega)
  have h0 : R 0 = a := by simp only [hRdef]; rw [hold, sub_zero]
  have h1 : R 1 = (1 - g) * a := by
    have := hstep 0
    rw [Nat.zero_add, Nat.zero_sub, h0] at this
    rw [this]; ring
  rw [settles_iff_tendsto, two_step (g : ℝ) (θ : ℝ) (a : ℝ) (by exact_mod_cast hθ0) (by exact_mod_cast ha) (fun k => (R k : ℝ)) (by rw [h0]) (by rw [h1]; push_cast; ring)
    (fun k => by
      have := hstep (k + 1)
      rw [Nat.add_sub_cancel] at this
      rw [show k + 2 = k + 1 + 1 from rfl, this]
      push_cast
      ring)]
  constructor
  · rintro ⟨x, y, z⟩
    exact ⟨by exact_mod_cast x, by exact_mod_cast y, by exact_mod_cast z⟩
  · rintro ⟨x, y, z⟩
    exact ⟨by exact_mod_cast x, by exact_mod_cast y, by exact_mod_cast z⟩

/-- **C159 (mean, exactly).** For a sensor that averages, delay at most one exposure: `g d < e` and `g (e - 2 d) < 2 e`. The default gain 0.6 is stable whenever the delay is not longer than an exposure. -/
theorem C159_mean_exact (e d : ℕ) (he : 0 < e) (hde : d ≤ e) (g a : ℚ) (ha : a ≠ 0) :
    (Settles (fun k => a - hold e d g (meanOf e) (fun _ => a) (fun _ => 0) k) ↔ 0 < g ∧ g * d < e ∧ g * (e - 2 * d) < 2 * e) ∧
    (0 < g → g < 1 → Settles (fun k => a - hold e d g (meanOf e) (fun _ => a) (fun _ => 0) k)) := by
  have heq : (0 : ℚ) < e := by exact_mod_cast he
  have hdq : (d : ℚ) ≤ e := by exact_mod_cast hde
  have hd0 : (0 : ℚ) ≤ d := Nat.cast_nonneg d
  have key : Settles (fun k => a - hold e d g (meanOf e) (fun _ => a) (fun _ => 0) k) ↔ 0 < g ∧ g * d < e ∧ g * (e - 2 * d) < 2 * e := by
    rw [C159_exact e d he hde g a ha (meanOf e) (fun j _ => by unfold meanOf; positivity) (by rw [mean_sum]; field_simp), mean_sum]
    have h1 : g * ((d : ℚ) / e) < 1 ↔ g * d < e := by rw [← mul_div_assoc, div_lt_one heq]
    have h2 : g * (1 - 2 * ((d : ℚ) / e)) < 2 ↔ g * (e - 2 * d) < 2 * e := by
      rw [show g * (1 - 2 * ((d : ℚ) / e)) = g * (e - 2 * d) / e by field_simp, div_lt_iff₀ heq]
    rw [h1, h2]
  refine ⟨key, fun h0 h1 => key.mpr ⟨h0, ?_, ?_⟩⟩
  · nlinarith
  · nlinarith

/-- The limits are met: half an exposure of delay allows gains up to two, a full exposure of delay only up to one. -/
example : (Settles (fun k => 1 - hold 4 2 (3 / 2) (meanOf 4) (fun _ => 1) (fun _ => 0) k)) ∧ ¬ Settles (fun k => 1 - hold 4 4 (3 / 2) (meanOf 4) (fun _ => 1) (fun _ => 0) k) ∧ hold 4 2 (3 / 2) (meanOf 4) (fun _ => 1) (fun _ => 0) 2 ≠ 0 := by
  refine ⟨((C159_mean_exact 4 2 (by norm_num) (by norm_num) (3 / 2) 1 one_ne_zero).1).mpr (by norm_num), fun h => ?_, ?_⟩
  · have := ((C159_mean_exact 4 4 (by norm_num) (by norm_num) (3 / 2) 1 one_ne_zero).1).mp h
    norm_num at this
  · simp only [hold_succ, hold, Finset.sum_range_succ, Finset.sum_range_zero, meanOf]
    norm_num [hold_succ, hold, Finset.sum_range_succ, meanOf]

/-- The system of C79 with sensors that average three frames: one frame of delay; what it asks of the third component comes and stays as close to what is there as one likes. -/
example (ε : ℚ) (hε : 0 < ε) : ∃ K, ∀ n, ∃ s' ts, runLoop convSys (slowPlant 3 4 (meanOf 3) (fun _ corr => LinearMap.id (R := ℚ) ((0 + ∑ p ∈ Finset.range (nCommands convDms), ((p : ℚ) + 3) • convShape p) - corr.sum)) (fun _ _ => 0)) (initial convSys convDms 4 3 fun _ => 0) (List.replicate n convDms) = .ok (s', ts) ∧
    ts.length = n ∧ ∀ (i : ℕ) (t : Trace (ℕ → ℚ)), K ≤ i → ts[i]? = some t → ∃ c, t.cmds[2]? = some c ∧ |5 - c| < ε := by
  have hset := (C159_mean_exact 3 1 (by norm_num) (by norm_num) (1 / 4) 5 (by norm_num)).2 (by norm_num) (by norm_num)
  obtain ⟨K, hK⟩ := hset ε hε
  refine ⟨3 * K + 1, fun n => ?_⟩
  have h := C159_loop convSys convDms (by simp [convDms]) (by simp [convDms]) 4 3 1 n 3 (by norm_num) rfl (by decide) (fun _ => rfl) convShape LinearMap.id
    (fun _ => 0 + ∑ p ∈ Finset.range (nCommands convDms), ((p : ℚ) + 3) • convShape p) (fun _ => 0) (fun _ p => (p : ℚ) + 3)
    (fun _ _ => 0) (fun p => if p < 2 then 1 / 2 else 1 / 4) (meanOf 3)
    (by
      intro k m hk c _
      match k with
      | 0 => simp [convDms] at hk; subst hk; rfl
      | 1 => simp [convDms] at hk; subst hk; rfl
      | k + 2 => simp [convDms] at hk)
    (by
      intro k m hk j hj
      match k with
      | 0 => simp [convDms] at hk; subst hk; simp at hj; simp [firstCommand, hj]
      | 1 => simp [convDms] at hk; subst hk; simp at hj; subst hj; simp [firstCommand, convDms]
      | k + 2 => simp [convDms] at hk)
    [[1 / 2, 0, 0], [-1 / 2, 1, 0], [0, 0, 1 / 2], [0, 0, 1 / 2]] rfl (by simp [nCommands, convDms]) rfl
    (by
      have hn : nCommands convDms = 3 := rfl
      intro p q hp hq
      rw [hn] at hp hq
      have hp3 : p = 0 ∨ p = 1 ∨ p = 2 := by omega
      have hq3 : q = 0 ∨ q = 1 ∨ q = 2 := by omega
      rcases hp3 with rfl | rfl | rfl <;> rcases hq3 with rfl | rfl | rfl <;> simp [Finset.sum_range_succ, convShape] <;> norm_num)
    (fun _ => rfl)
  obtain ⟨s', ts, h1, h2, h3⟩ := h
  refine ⟨s', ts, h1, h2, fun i t hi ht => ⟨_, (h3 i t ht).1 2 (by decide), ?_⟩⟩
  have := hK ((i - 1) / 3) (by omega)
  simpa [show ((2 : ℚ) + 3) = 5 by norm_num] using this

end Soapy.Props
