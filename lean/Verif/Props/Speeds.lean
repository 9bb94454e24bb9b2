/-
Property theorems C160: sensors of different speed in one loop.
-/
import Verif.Props.Slow

namespace Soapy.Props

open Soapy.Loop Soapy.Control Soapy.Vec Soapy.Slow

section

variable {V : Type} [AddCommGroup V] [Module ℚ V]

omit [AddCommGroup V] [Module ℚ V] in
/-- What sensors of different speed measure in a run. -/
theorem speeds_slopes [Zero V] [Add V] (sys : Sys V) (nMeas : ℕ) (e : ℕ → ℕ) (he : ∀ m, 0 < e m) (w : ℕ → ℕ → ℚ) (see : ℕ → List V → ℕ → ℚ) (noise : ℕ → ℕ → ℚ) (dms : List DmCtl) (seen : ℕ → List V) :
    ∀ (n : ℕ) (s s' : Loop.State (ℕ → ℚ) V) (ts : List (Trace V)), runLoop sys (speedsPlant nMeas e w see noise) s (List.replicate n dms) = .ok (s', ts) →
    (s.plant = fun m => ∑ j ∈ Finset.range (s.iters % e m), w m j * see (s.iters - s.iters % e m + j) (seen (s.iters - s.iters % e m + j)) m) →
    (∀ (i : ℕ) (t : Trace V), ts[i]? = some t → t.seenByWfs = seen (s.iters + i)) →
    ∀ (i : ℕ) (t : Trace V), ts[i]? = some t → t.slopes = (List.range nMeas).map fun m => if e m ∣ s.iters + i + 1 then (∑ j ∈ Finset.range (e m), w m j * see (s.iters + i + 1 - e m + j) (seen (s.iters + i + 1 - e m + j)) m) + noise (s.iters + i) m
      else 0 := by
  intro n
  induction n with
  | zero =>
    intro s s' ts h _ _ i t ht
    simp [runLoop] at h
    obtain ⟨_, rfl⟩ := h
    simp at ht
  | succ n ih =>
    intro s s' ts h hpl hseen i t ht
    rw [List.replicate_succ] at h
    obtain ⟨u, t0, us, h1, h2, rfl⟩ := runLoop_cons sys _ s s' dms _ ts h
    obtain ⟨_, _, _, e4, e5, _, _, _, e9, _⟩ := loopFrame_ok sys _ dms s u t0 h1
    have hs0 := hseen 0 t0 rfl
    rw [Nat.add_zero] at hs0
    rw [← e5, hs0, hpl] at e4
    have htot : ∀ m, (∑ j ∈ Finset.range (s.iters % e m), w m j * see (s.iters - s.iters % e m + j) (seen (s.iters - s.iters % e m + j)) m) + w m (s.iters % e m) * see s.iters (seen s.iters) m =
        ∑ j ∈ Finset.range (s.iters % e m + 1), w m j * see (s.iters - s.iters % e m + j) (seen (s.iters - s.iters % e m + j)) m := by
      intro m
      rw [Finset.sum_range_succ, Nat.sub_add_cancel (Nat.mod_le _ _)]
    simp only [speedsPlant, htot, Except.ok.injEq, Prod.mk.injEq] at e4
    obtain ⟨p1, p2⟩ := e4
    have hdvd : ∀ m, (s.iters + 1) / e m ≠ s.iters / e m ↔ e m ∣ s.iters + 1 := by
      intro m
      constructor
      · intro hne
        by_contra hcon
        exact hne (Nat.succ_div_of_not_dvd hcon)
      · intro hd
        rw [Nat.succ_div_of_dvd hd]; omega
    simp only [hdvd] at p1 p2
    have hlast : ∀ m, e m ∣ s.iters + 1 → s.iters % e m + 1 = e m := by
      intro m hread
      have hm := Nat.mod_lt s.iters (he m)
      have hz : (s.iters + 1) % e m = 0 := Nat.mod_eq_zero_of_dvd hread
      by_contra hcon
      have : (s.iters + 1) % e m = s.iters % e m + 1 := by
        rw [Nat.add_mod, Nat.mod_eq_of_lt (show 1 < e m by omega), Nat.mod_eq_of_lt (by omega)]
      omega
    rcases i with _ | i
    · simp only [List.getElem?_cons_zero, Option.some.injEq] at ht
      subst ht
      simp only [Nat.add_zero]
      rw [← p2]
      refine List.map_congr_left fun m _ => ?_
      by_cases hread : e m ∣ s.iters + 1
      · have hl := hlast m hread
        rw [if_pos hread, if_pos hread, hl, show s.iters - s.iters % e m = s.iters + 1 - e m by omega]
      · rw [if_neg hread, if_neg hread]
    · rw [List.getElem?_cons_succ] at ht
      have := ih u s' us h2 (by
        rw [e9, ← p1]
        funext m
        by_cases hread : e m ∣ s.iters + 1
        · rw [if_pos hread, Nat.mod_eq_zero_of_dvd hread]; simp
        · have hnext : (s.iters + 1) % e m = s.iters % e m + 1 := by
            have h3 := Nat.div_add_mod (s.iters + 1) (e m)
            have h4 := Nat.div_add_mod s.iters (e m)
            rw [Nat.succ_div_of_not_dvd hread] at h3
            omega
          rw [if_neg hread, hnext, show s.iters + 1 - (s.iters % e m + 1) = s.iters - s.iters % e m by omega]) (fun i t ht => by
        rw [e9, show s.iters + 1 + i = s.iters + (i + 1) by omega]
        exact hseen (i + 1) t (by rw [List.getElem?_cons_succ]; exact ht)) i t ht
      rw [this, e9, show s.iters + 1 + i = s.iters + (i + 1) by omega]

/-- **C160 (the loop).** As `C159_loop`, with sensors of different speed: if every actuator is fed (`hown`) only by sensors of one speed, its command is the staircase of that speed, whatever the other sensors and mirrors do. -/
theorem C160_loop (sys : Sys V) (dms : List DmCtl) (hne : dms ≠ []) (hclosed : ∀ m ∈ dms, m.closed = true)
    (nMeas nActs d n : ℕ) (e E : ℕ → ℕ) (he : ∀ m, 0 < e m) (hE : ∀ p, 0 < E p) (hd : sys.loopDelay = d) (hN : 1 ≤ sys.nIters) (hstore : sys.saveDmCommands = true → nActs = nCommands dms)
    (shape : ℕ → V) (S : V →ₗ[ℚ] (ℕ → ℚ)) (φ ψ : ℕ → V) (a noise : ℕ → ℕ → ℚ) (gain : ℕ → ℚ) (w W : ℕ → ℕ → ℚ)
    (hsurf : ∀ (k : ℕ) (m : DmCtl), dms[k]? = some m → ∀ c : List ℚ, c.length = m.nValid →
      sys.surface k c = .ok (∑ j ∈ Finset.range m.nValid, c.getD j 0 • shape (firstCommand dms k + j)))
    (hgain : ∀ (k : ℕ) (m : DmCtl), dms[k]? = some m → ∀ j, j < m.nValid → gain (firstCommand dms k + j) = m.gain)
    (cmat : List (List ℚ)) (hrows : cmat.length = nMeas) (hcols : ∀ r ∈ cmat, r.length = nCommands dms)
    (hprod : sys.product = tdot (nCommands dms) cmat)
    (hinv : ∀ p q, p < nCommands dms → q < nCommands dms →
      ∑ m ∈ Finset.range nMeas, (-(S (0 - shape p)) m) * (cmat.getD m []).getD q 0 = if p = q then 1 else 0)
    (hown : ∀ m p, m < nMeas → p < nCommands dms → (cmat.getD m []).getD p 0 ≠ 0 → e m = E p ∧ w m = W p)
    (hφ : ∀ i, φ i = ψ i + ∑ p ∈ Finset.range (nCommands dms), a i p • shape p) :
    ∃ s' ts, runLoop sys (speedsPlant nMeas e w (fun i corr => S (φ i - corr.sum)) noise) (initial sys dms nMeas nActs fun _ => 0) (List.replicate n dms) = .ok (s', ts) ∧ ts.length = n ∧
      ∀ (i : ℕ) (t : Trace V), ts[i]? = some t →
        (∀ p, p < nCommands dms → t.cmds[p]? = some (hold (E p) d (gain p) (W p) (fun k => a k p)
          (fun k => ∑ m ∈ Finset.range nMeas, (cmat.getD m []).getD p 0 * ((∑ j ∈ Finset.range (E p), W p j * S (ψ (k * E p + j)) m) + noise (k * E p + (E p - 1)) m)) ((i - d) / E p))) ∧
        t.seenByWfs.sum = ∑ p ∈ Finset.range (nCommands dms), t.cmds.getD p 0 • shape p := by
  set nC := nCommands dms with hnC
  obtain ⟨s', ts, hrun⟩ := C16_run_completes sys (speedsPlant nMeas e w (fun i corr => S (φ i - corr.sum)) noise) dms nMeas nActs d (fun _ => 0) (List.replicate n dms) (fun c hc => by rw [List.eq_of_mem_replicate hc])
    (fun k m hk c hc => ⟨_, hsurf k m hk c hc⟩)
    (fun m hm => by
      obtain ⟨c, e1, e2, _⟩ := tdot_get nC cmat m (by rw [hrows, hm]) hcols
      exact ⟨c, by rw [hprod]; exact e1, e2⟩)
    (fun x i c _ => by
      exact ⟨_, _, rfl, by simp⟩) hN hd hstore
  obtain ⟨hlen, _⟩ := C16_who_sees_what sys _ dms nMeas nActs n _ s' ts hrun
  have hslopes := speeds_slopes sys nMeas e he w (fun i corr => S (φ i - corr.sum)) noise dms (fun i => ((ts[i]?).map Trace.seenByWfs).getD []) n _ s' ts hrun
    (by simp [initial]) (fun i t ht => by simp [initial, ht])
  simp only [initial, Nat.zero_add] at hslopes
  have hrunC := closed_run sys _ dms hne hclosed nMeas nActs d n _ hd shape gain hsurf hgain cmat hrows hcols hprod s' ts hrun (fun t ht => by
    obtain ⟨i, hi⟩ := List.mem_iff_getElem?.mp ht
    rw [hslopes i t hi]
    simp)
  refine ⟨s', ts, hrun, hlen, ?_⟩
  set b : ℕ → ℕ → ℚ := fun p k => ∑ m ∈ Finset.range nMeas, (cmat.getD m []).getD p 0 * ((∑ j ∈ Finset.range (E p), W p j * S (ψ (k * E p + j)) m) + noise (k * E p + (E p - 1)) m) with hb
  have hP : ∀ p q, p < nC → q < nC → ∑ m ∈ Finset.range nMeas, S (shape p) m * (cmat.getD m []).getD q 0 = if p = q then 1 else 0 := by
    intro p q hp hq
    rw [← hinv p q hp hq]
    refine Finset.sum_congr rfl fun m _ => ?_
    rw [zero_sub, map_neg, Pi.neg_apply, neg_neg]
  -- what is reconstructed from a measurement
  have hlin : ∀ (c : ℕ → ℚ) (x : V) p, p < nC → ∑ m ∈ Finset.range nMeas, (cmat.getD m []).getD p 0 * S (x + ∑ q ∈ Finset.range nC, c q • shape q) m =
      (∑ m ∈ Finset.range nMeas, (cmat.getD m []).getD p 0 * S x m) + c p := by
    intro c x p hp
    have : ∀ m, S (x + ∑ q ∈ Finset.range nC, c q • shape q) m = S x m + ∑ q ∈ Finset.range nC, c q * S (shape q) m := by
      intro m
      simp [map_add, map_sum, map_smul, Finset.sum_apply]
    simp only [this, mul_add, Finset.sum_add_distrib]
    congr 1
    simp only [Finset.mul_sum]
    rw [Finset.sum_comm]
    have : ∀ q ∈ Finset.range nC, ∑ m ∈ Finset.range nMeas, (cmat.getD m []).getD p 0 * (c q * S (shape q) m) = c q * if q = p then 1 else 0 := by
      intro q hq
      rw [← hP q p (Finset.mem_range.mp hq) hp, Finset.mul_sum]
      exact Finset.sum_congr rfl fun m _ => by ring
    rw [Finset.sum_congr rfl this]
    simp [hp]
  have main : ∀ (i : ℕ) (t : Trace V), ts[i]? = some t → ∀ p, p < nC → t.cmds[p]? = some (hold (E p) d (gain p) (W p) (fun k => a k p) (b p) ((i - d) / E p)) := by
    intro i
    induction i using Nat.strong_induction_on with
    | _ i ih =>
      intro t ht p hp
      have hi : i < n := by
        by_contra hcon
        rw [List.getElem?_eq_none (by omega)] at ht; cases ht
      rw [(hrunC i t ht).1 p hp]
      congr 1
      have hep := hE p
      have tele : ∀ N, N ≤ i - d → ∑ q ∈ Finset.range N, gain p * ∑ m ∈ Finset.range nMeas, (cmat.getD m []).getD p 0 * (((ts[q]?).map Trace.slopes).getD []).getD m 0 =
          hold (E p) d (gain p) (W p) (fun k => a k p) (b p) (N / E p) := by
        intro N
        induction N with
        | zero => intro _; rw [Nat.zero_div, hold]; simp
        | succ N ihN =>
          intro hNi
          rw [Finset.sum_range_succ, ihN (by omega)]
          have hNl : N < ts.length := by omega
          have hN? := List.getElem?_eq_getElem hNl
          simp only [hN?, Option.map_some, Option.getD_some]
          rw [hslopes N _ hN?]
          -- only sensors of the speed of the actuator count
          have hcount : ∀ m ∈ Finset.range nMeas, (cmat.getD m []).getD p 0 * (((List.range nMeas).map fun m => if e m ∣ N + 1 then (∑ j ∈ Finset.range (e m), w m j * S (φ (N + 1 - e m + j) - (((ts[N + 1 - e m + j]?).map Trace.seenByWfs).getD []).sum) m) + noise N m else 0).getD m 0) =
              (cmat.getD m []).getD p 0 * if E p ∣ N + 1 then (∑ j ∈ Finset.range (E p), W p j * S (φ (N + 1 - E p + j) - (((ts[N + 1 - E p + j]?).map Trace.seenByWfs).getD []).sum) m) + noise N m else 0 := by
            intro m hm
            have hm' := Finset.mem_range.mp hm
            by_cases hz : (cmat.getD m []).getD p 0 = 0
            · rw [hz, zero_mul, zero_mul]
            · obtain ⟨o1, o2⟩ := hown m p hm' hp hz
              rw [List.getD_eq_getElem?_getD (l := (List.range nMeas).map _), List.getElem?_map, List.getElem?_range hm', Option.map_some, Option.getD_some, o1, o2]
          rw [Finset.sum_congr rfl hcount]
          by_cases hread : E p ∣ N + 1
          · simp only [if_pos hread]
            rw [Nat.succ_div_of_dvd hread, hold_succ]
            obtain ⟨k', hk'⟩ := hread
            obtain ⟨k, rfl⟩ : ∃ k, k' = k + 1 := ⟨k' - 1, by
              rcases k' with _ | k'
              · omega
              · omega⟩
            have hNe : N = k * E p + (E p - 1) := by
              have : E p * (k + 1) = k * E p + E p := by ring
              omega
            have hdiv : N / E p = k := by
              rw [hNe, Nat.add_comm, Nat.add_mul_div_right _ _ hep, Nat.div_eq_of_lt (by omega), Nat.zero_add]
            rw [hdiv]
            congr 2
            have hstart : N + 1 - E p = k * E p := by omega
            rw [hstart]
            -- the mirror while the frames were exposed
            have hframe : ∀ j, j < E p → φ (k * E p + j) - (((ts[k * E p + j]?).map Trace.seenByWfs).getD []).sum =
                ψ (k * E p + j) + ∑ q ∈ Finset.range nC, (a (k * E p + j) q - hold (E q) d (gain q) (W q) (fun k => a k q) (b q) ((k * E p + j - d) / E q)) • shape q := by
              intro j hj
              have hjl : k * E p + j < ts.length := by omega
              have hj? := List.getElem?_eq_getElem hjl
              rw [hj?, Option.map_some, Option.getD_some, (hrunC _ _ hj?).2, hφ, add_sub_assoc, ← Finset.sum_sub_distrib]
              congr 1
              refine Finset.sum_congr rfl fun q hq => ?_
              rw [sub_smul, List.getD_eq_getElem?_getD, ih (k * E p + j) (by omega) _ hj? q (Finset.mem_range.mp hq)]
              simp
            have hget : ∀ m ∈ Finset.range nMeas, (cmat.getD m []).getD p 0 * ((∑ j ∈ Finset.range (E p), W p j * S (φ (k * E p + j) - (((ts[k * E p + j]?).map Trace.seenByWfs).getD []).sum) m) + noise N m) =
                (cmat.getD m []).getD p 0 * ((∑ j ∈ Finset.range (E p), W p j * S (ψ (k * E p + j) + ∑ q ∈ Finset.range nC, (a (k * E p + j) q - hold (E q) d (gain q) (W q) (fun k => a k q) (b q) ((k * E p + j - d) / E q)) • shape q) m) + noise (k * E p + (E p - 1)) m) := by
              intro m _
              rw [← hNe]
              congr 2
              refine Finset.sum_congr rfl fun j hj => ?_
              rw [hframe j (Finset.mem_range.mp hj)]
            rw [Finset.sum_congr rfl hget]
            rw [show b p k = ∑ m ∈ Finset.range nMeas, (cmat.getD m []).getD p 0 * ((∑ j ∈ Finset.range (E p), W p j * S (ψ (k * E p + j)) m) + noise (k * E p + (E p - 1)) m) from rfl]
            simp only [mul_add, Finset.sum_add_distrib, Finset.mul_sum]
            rw [← add_assoc]
            congr 1
            rw [Finset.sum_comm, Finset.sum_comm (s := Finset.range nMeas), ← Finset.sum_add_distrib]
            refine Finset.sum_congr rfl fun j _ => ?_
            have h1 := hlin (fun q => a (k * E p + j) q - hold (E q) d (gain q) (W q) (fun k => a k q) (b q) ((k * E p + j - d) / E q)) (ψ (k * E p + j)) p hp
            have h2 : ∀ (y : ℕ → ℚ), ∑ m ∈ Finset.range nMeas, (cmat.getD m []).getD p 0 * (W p j * y m) = W p j * ∑ m ∈ Finset.range nMeas, (cmat.getD m []).getD p 0 * y m := by
              intro y
              rw [Finset.mul_sum]
              exact Finset.sum_congr rfl fun m _ => by ring
            rw [h2, h2, h1]
            ring
          · simp only [if_neg hread]
            rw [Nat.succ_div_of_not_dvd hread]
            simp
      exact tele (i - d) (le_refl _)
  exact fun i t ht => ⟨main i t ht, (hrunC i t ht).2⟩

/-- What a sensor that averages has returned in whole exposures: the sum over all frames divided by the length of an exposure. -/
theorem exposures_sum (e K : ℕ) (he : 0 < e) (x : ℕ → ℚ) :
    ∑ q ∈ Finset.range (K * e), (if e ∣ q + 1 then ∑ j ∈ Finset.range e, meanOf e j * x (q + 1 - e + j) else 0) = (∑ q ∈ Finset.range (K * e), x q) / e := by
  induction K with
  | zero => simp
  | succ K ih =>
    rw [Nat.succ_mul, Finset.sum_range_add, Finset.sum_range_add, ih, add_div]
    congr 1
    rw [Finset.sum_eq_single (e - 1)]
    · rw [if_pos ⟨K + 1, by rw [show e * (K + 1) = K * e + e by ring]; omega⟩, show K * e + (e - 1) + 1 - e = K * e by omega, Finset.sum_div]
      refine Finset.sum_congr rfl fun j _ => ?_
      rw [meanOf]; ring
    · intro j hj hne
      rw [if_neg]
      rintro ⟨c, hc⟩
      rw [Finset.mem_range] at hj
      have h1 : (K * e + j + 1) % e = j + 1 := by
        rw [show K * e + j + 1 = j + 1 + K * e by ring, Nat.add_mul_mod_self_right, Nat.mod_eq_of_lt (by omega)]
      rw [hc, Nat.mul_mod_right] at h1
      omega
    · intro h
      exact absurd (Finset.mem_range.mpr (by omega)) h

/-- **C160 (balance).** In any run with averaging sensors of different speed: after a number `N` of frames in which all exposures are complete, and the delay, every command is its gain times what the control matrix makes of the sums over all frames,
each sensor divided by the number of frames of its exposure. -/
theorem C160_balance (sys : Sys V) (dms : List DmCtl) (hne : dms ≠ []) (hclosed : ∀ m ∈ dms, m.closed = true)
    (nMeas nActs d n : ℕ) (e : ℕ → ℕ) (he : ∀ m, 0 < e m) (hd : sys.loopDelay = d)
    (shape : ℕ → V) (see : ℕ → List V → ℕ → ℚ) (gain : ℕ → ℚ)
    (hsurf : ∀ (k : ℕ) (m : DmCtl), dms[k]? = some m → ∀ c : List ℚ, c.length = m.nValid →
      sys.surface k c = .ok (∑ j ∈ Finset.range m.nValid, c.getD j 0 • shape (firstCommand dms k + j)))
    (hgain : ∀ (k : ℕ) (m : DmCtl), dms[k]? = some m → ∀ j, j < m.nValid → gain (firstCommand dms k + j) = m.gain)
    (cmat : List (List ℚ)) (hrows : cmat.length = nMeas) (hcols : ∀ r ∈ cmat, r.length = nCommands dms)
    (hprod : sys.product = tdot (nCommands dms) cmat)
    (s' : Loop.State (ℕ → ℚ) V) (ts : List (Trace V))
    (hrun : runLoop sys (speedsPlant nMeas e (fun m => meanOf (e m)) see fun _ _ => 0) (initial sys dms nMeas nActs fun _ => 0) (List.replicate n dms) = .ok (s', ts)) (N : ℕ) (hN : ∀ m, m < nMeas → e m ∣ N) (t : Trace V) (ht : ts[N + d]? = some t) (p : ℕ) (hp : p < nCommands dms) :
    t.cmds[p]? = some (gain p * ∑ m ∈ Finset.range nMeas, (cmat.getD m []).getD p 0 / e m * ∑ q ∈ Finset.range N, see q (((ts[q]?).map Trace.seenByWfs).getD []) m) := by
  obtain ⟨hlen, _⟩ := C16_who_sees_what sys _ dms nMeas nActs n _ s' ts hrun
  have hslopes := speeds_slopes sys nMeas e he (fun m => meanOf (e m)) see (fun _ _ => 0) dms (fun i => ((ts[i]?).map Trace.seenByWfs).getD []) n _ s' ts hrun
    (by simp [initial]) (fun i t ht => by simp [initial, ht])
  simp only [initial, Nat.zero_add, add_zero] at hslopes
  have hrunC := closed_run sys _ dms hne hclosed nMeas nActs d n _ hd shape gain hsurf hgain cmat hrows hcols hprod s' ts hrun (fun t ht => by
    obtain ⟨i, hi⟩ := List.mem_iff_getElem?.mp ht
    rw [hslopes i t hi]
    simp)
  have hNd : N + d < ts.length := by
    by_contra hcon
    rw [List.getElem?_eq_none (by omega)] at ht; cases ht
  rw [(hrunC _ _ ht).1 p hp, Nat.add_sub_cancel, ← Finset.mul_sum, Finset.sum_comm]
  congr 2
  refine Finset.sum_congr rfl fun m hm => ?_
  have hm' := Finset.mem_range.mp hm
  rw [← Finset.mul_sum, div_mul_eq_mul_div, mul_div_assoc]
  congr 1
  obtain ⟨K, hK⟩ := hN m hm'
  have := exposures_sum (e m) K (he m) fun q => see q (((ts[q]?).map Trace.seenByWfs).getD []) m
  rw [show K * e m = N by rw [hK, Nat.mul_comm]] at this
  rw [← this]
  refine Finset.sum_congr rfl fun q hq => ?_
  rw [Finset.mem_range] at hq
  have hq? := List.getElem?_eq_getElem (show q < ts.length by omega)
  rw [hq?, Option.map_some, Option.getD_some, hslopes q _ hq?, List.getD_eq_getElem?_getD, List.getElem?_map, List.getElem?_range hm', Option.map_some, Option.getD_some]

/-- **C160 (average).** So as long as a command stays below `B`, what the control matrix makes of the mean measurements, each sensor divided by the number of frames of its exposure, is at most `B / (gain N)`: this combination is what the loop drives to zero, not the one of the control matrix. -/
theorem C160_average (sys : Sys V) (dms : List DmCtl) (hne : dms ≠ []) (hclosed : ∀ m ∈ dms, m.closed = true)
    (nMeas nActs d n : ℕ) (e : ℕ → ℕ) (he : ∀ m, 0 < e m) (hd : sys.loopDelay = d)
    (shape : ℕ → V) (see : ℕ → List V → ℕ → ℚ) (gain : ℕ → ℚ)
    (hsurf : ∀ (k : ℕ) (m : DmCtl), dms[k]? = some m → ∀ c : List ℚ, c.length = m.nValid →
      sys.surface k c = .ok (∑ j ∈ Finset.range m.nValid, c.getD j 0 • shape (firstCommand dms k + j)))
    (hgain : ∀ (k : ℕ) (m : DmCtl), dms[k]? = some m → ∀ j, j < m.nValid → gain (firstCommand dms k + j) = m.gain)
    (cmat : List (List ℚ)) (hrows : cmat.length = nMeas) (hcols : ∀ r ∈ cmat, r.length = nCommands dms)
    (hprod : sys.product = tdot (nCommands dms) cmat)
    (s' : Loop.State (ℕ → ℚ) V) (ts : List (Trace V))
    (hrun : runLoop sys (speedsPlant nMeas e (fun m => meanOf (e m)) see fun _ _ => 0) (initial sys dms nMeas nActs fun _ => 0) (List.replicate n dms) = .ok (s', ts)) (N : ℕ) (hN0 : 0 < N) (hN : ∀ m, m < nMeas → e m ∣ N) (t : Trace V) (ht : ts[N + d]? = some t) (p : ℕ) (hp : p < nCommands dms) (hgp : 0 < gain p) (B : ℚ) (hB : ∀ x, t.cmds[p]? = some x → |x| ≤ B) :
    |∑ m ∈ Finset.range nMeas, (cmat.getD m []).getD p 0 / e m * ((∑ q ∈ Finset.range N, see q (((ts[q]?).map Trace.seenByWfs).getD []) m) / N)| ≤ B / (gain p * N) := by
  have h := hB _ (C160_balance sys dms hne hclosed nMeas nActs d n e he hd shape see gain hsurf hgain cmat hrows hcols hprod s' ts hrun N hN t ht p hp)
  have hNq : (0 : ℚ) < N := by exact_mod_cast hN0
  have hsum : ∑ m ∈ Finset.range nMeas, (cmat.getD m []).getD p 0 / e m * ((∑ q ∈ Finset.range N, see q (((ts[q]?).map Trace.seenByWfs).getD []) m) / N) =
      (∑ m ∈ Finset.range nMeas, (cmat.getD m []).getD p 0 / e m * ∑ q ∈ Finset.range N, see q (((ts[q]?).map Trace.seenByWfs).getD []) m) / N := by
    rw [Finset.sum_div]
    exact Finset.sum_congr rfl fun m _ => by ring
  rw [hsum, le_div_iff₀ (by positivity), abs_div, abs_of_pos hNq]
  rw [abs_mul, abs_of_pos hgp] at h
  rw [show ∀ x : ℚ, x / N * (gain p * N) = gain p * x by intro x; field_simp]
  exact h

end

/-- The system of C79 with a fast sensor for the first mirror (two measurements) and a slow, averaging one for the second: both commands come to rest, each with its own stairs. -/
example (ε : ℚ) (hε : 0 < ε) : ∃ K, ∀ n, ∃ s' ts, runLoop convSys (speedsPlant 4 (fun m => if m < 2 then 1 else 3) (fun m => if m < 2 then meanOf 1 else meanOf 3) (fun _ corr => LinearMap.id (R := ℚ) ((0 + ∑ p ∈ Finset.range (nCommands convDms), ((p : ℚ) + 3) • convShape p) - corr.sum)) (fun _ _ => 0)) (initial convSys convDms 4 3 fun _ => 0) (List.replicate n convDms) = .ok (s', ts) ∧
    ts.length = n ∧ ∀ (i : ℕ) (t : Trace (ℕ → ℚ)), K ≤ i → ts[i]? = some t → (∃ c, t.cmds[0]? = some c ∧ |3 - c| < ε) ∧ ∃ c, t.cmds[2]? = some c ∧ |5 - c| < ε := by
  obtain ⟨K0, hK0⟩ := ((C159_mean_exact 1 1 (by norm_num) (by norm_num) (1 / 2) 3 (by norm_num)).2 (by norm_num) (by norm_num)) ε hε
  obtain ⟨K, hK⟩ := ((C159_mean_exact 3 1 (by norm_num) (by norm_num) (1 / 4) 5 (by norm_num)).2 (by norm_num) (by norm_num)) ε hε
  refine ⟨3 * K + K0 + 1, fun n => ?_⟩
  have h := C160_loop convSys convDms (by simp [convDms]) (by simp [convDms]) 4 3 1 n (fun m => if m < 2 then 1 else 3) (fun p => if p < 2 then 1 else 3) (by intro m; split_ifs <;> norm_num) (by intro p; split_ifs <;> norm_num)
    rfl (by decide) (fun _ => rfl) convShape LinearMap.id
    (fun _ => 0 + ∑ p ∈ Finset.range (nCommands convDms), ((p : ℚ) + 3) • convShape p) (fun _ => 0) (fun _ p => (p : ℚ) + 3)
    (fun _ _ => 0) (fun p => if p < 2 then 1 / 2 else 1 / 4) (fun m => if m < 2 then meanOf 1 else meanOf 3) (fun p => if p < 2 then meanOf 1 else meanOf 3)
    (by
      intro k m hk c _
      match k with
      | 0 => simp [convDms] at hk; subst hk; rfl
      | 1 => simp [convDms] at hk; subst hk; rfl
      | k + 2 => simp [convDms] at hk)
    (by
      intro k m hk j hj
      match k with
      | 0 => simp [convDms] at hk; subst hk; simp at hj; simp [firstCommand, hj]
      | 1 => simp [convDms] at hk; subst hk; simp at hj; subst hj; simp [firstCommand, convDms]
      | k + 2 => simp [convDms] at hk)
    [[1 / 2, 0, 0], [-1 / 2, 1, 0], [0, 0, 1 / 2], [0, 0, 1 / 2]] rfl (by simp [nCommands, convDms]) rfl
    (by
      have hn : nCommands convDms = 3 := rfl
      intro p q hp hq
      rw [hn] at hp hq
      have hp3 : p = 0 ∨ p = 1 ∨ p = 2 := by omega
      have hq3 : q = 0 ∨ q = 1 ∨ q = 2 := by omega
      rcases hp3 with rfl | rfl | rfl <;> rcases hq3 with rfl | rfl | rfl <;> simp [Finset.sum_range_succ, convShape] <;> norm_num)
    (by
      have hn : nCommands convDms = 3 := rfl
      intro m p hm hp hne
      rw [hn] at hp
      have hp3 : p = 0 ∨ p = 1 ∨ p = 2 := by omega
      have hm4 : m = 0 ∨ m = 1 ∨ m = 2 ∨ m = 3 := by omega
      rcases hp3 with rfl | rfl | rfl <;> rcases hm4 with rfl | rfl | rfl | rfl <;> simp_all)
    (fun _ => rfl)
  obtain ⟨s', ts, h1, h2, h3⟩ := h
  refine ⟨s', ts, h1, h2, fun i t hi ht => ⟨⟨_, (h3 i t ht).1 0 (by decide), ?_⟩, ⟨_, (h3 i t ht).1 2 (by decide), ?_⟩⟩⟩
  · have := hK0 (i - 1) (by omega)
    simpa using this
  · have := hK ((i - 1) / 3) (by omega)
    simpa [show ((2 : ℚ) + 3) = 5 by norm_num] using this

/-- One mirror with one actuator, fed by two sensors to equal parts, gain 1/2, no delay. -/
def sharedSys : Sys (ℕ → ℚ) where
  surface := fun _ c => .ok (∑ j ∈ Finset.range 1, c.getD j 0 • fun _ => (1 : ℚ))
  product := tdot 1 [[1 / 2], [1 / 2]]
  loopDelay := 0
  nIters := 100
  saveSlopes := false
  saveDmCommands := false

def sharedDms : List DmCtl := [⟨1, true, 1 / 2⟩]

/-- One sensor sees 0, the other 3, both minus the command. -/
def sharedSee (_ : ℕ) (corr : List (ℕ → ℚ)) (m : ℕ) : ℚ := (if m = 0 then 0 else 3) - corr.sum m

/-- **C160 (shared).** With sensors of equal speed the command comes as close as one likes to 3/2, the mean that the control matrix asks for; if the second sensor exposes two frames, it never gets beyond 8/7, in runs of any length. -/
theorem C160_shared (n : ℕ) (s' : Loop.State (ℕ → ℚ) (ℕ → ℚ)) (ts : List (Trace (ℕ → ℚ)))
    (hrun : runLoop sharedSys (speedsPlant 2 (fun m => if m = 0 then 1 else 2) (fun m => meanOf (if m = 0 then 1 else 2)) sharedSee fun _ _ => 0) (initial sharedSys sharedDms 2 1 fun _ => 0) (List.replicate n sharedDms) = .ok (s', ts))
    (i : ℕ) (t : Trace (ℕ → ℚ)) (ht : ts[i]? = some t) : ∃ x, t.cmds[0]? = some x ∧ 0 ≤ x ∧ x ≤ 8 / 7 := by
  obtain ⟨hlen, _⟩ := C16_who_sees_what sharedSys _ sharedDms 2 1 n _ s' ts hrun
  have hslopes := speeds_slopes sharedSys 2 (fun m => if m = 0 then 1 else 2) (by intro m; split_ifs <;> norm_num) (fun m => meanOf (if m = 0 then 1 else 2)) sharedSee (fun _ _ => 0) sharedDms (fun i => ((ts[i]?).map Trace.seenByWfs).getD []) n _ s' ts hrun
    (by simp [initial]) (fun i t ht => by simp [initial, ht])
  simp only [initial, Nat.zero_add, add_zero] at hslopes
  have hrunC := closed_run sharedSys _ sharedDms (by simp [sharedDms]) (by simp [sharedDms]) 2 1 0 n _ rfl (fun _ _ => (1 : ℚ)) (fun _ => 1 / 2)
    (by
      intro k m hk c _
      match k with
      | 0 => simp [sharedDms] at hk; subst hk; rfl
      | k + 1 => simp [sharedDms] at hk)
    (by
      intro k m hk j hj
      match k with
      | 0 => simp [sharedDms] at hk; subst hk; norm_num
      | k + 1 => simp [sharedDms] at hk)
    [[1 / 2], [1 / 2]] rfl (by simp [nCommands, sharedDms]) rfl s' ts hrun (fun t ht => by
    obtain ⟨i, hi⟩ := List.mem_iff_getElem?.mp ht
    rw [hslopes i t hi]
    simp)
  have hnC : nCommands sharedDms = 1 := rfl
  rw [hnC] at hrunC
  -- commands and measurements as sequences
  set X : ℕ → ℚ := fun i => (((ts[i]?).map Trace.cmds).getD []).getD 0 0 with hX
  have hcmd : ∀ i t, ts[i]? = some t → t.cmds[0]? = some (X i) := by
    intro i t ht
    have := (hrunC i t ht).1 0 (by norm_num)
    rw [this, hX]
    simp only [ht, Option.map_some, Option.getD_some, List.getD_eq_getElem?_getD, this]
  have hsee : ∀ i t, ts[i]? = some t → ∀ m, sharedSee i (((ts[i]?).map Trace.seenByWfs).getD []) m = (if m = 0 then 0 else 3) - X i := by
    intro i t ht m
    have h1 := (hrunC i t ht).2
    rw [ht, Option.map_some, Option.getD_some, sharedSee, h1]
    rw [Finset.sum_range_one, List.getD_eq_getElem?_getD, hcmd i t ht]
    simp
  have hX0 : 0 < ts.length → X 0 = 0 := by
    intro h
    have := (hrunC 0 _ (List.getElem?_eq_getElem h)).1 0 (by norm_num)
    rw [hcmd 0 _ (List.getElem?_eq_getElem h)] at this
    simpa using this
  have hstep : ∀ i, i + 1 < ts.length → X (i + 1) = X i + 1 / 4 * (-X i + if 2 ∣ i + 1 then 3 - (X (i - 1) + X i) / 2 else 0) := by
    intro i hi
    have g0 := List.getElem?_eq_getElem (show i < ts.length by omega)
    have g1 := List.getElem?_eq_getElem hi
    have a0 := (hrunC i _ g0).1 0 (by norm_num)
    have a1 := (hrunC (i + 1) _ g1).1 0 (by norm_num)
    rw [hcmd i _ g0, Option.some.injEq] at a0
    rw [hcmd (i + 1) _ g1, Option.some.injEq] at a1
    simp only [Nat.sub_zero] at a0 a1
    rw [Finset.sum_range_succ, ← a0] at a1
    rw [a1]
    congr 1
    rw [g0, Option.map_some, Option.getD_some, hslopes i _ g0]
    have hs0 : ((List.range 2).map fun m => if (if m = 0 then 1 else 2) ∣ i + 1 then ∑ j ∈ Finset.range (if m = 0 then 1 else 2), meanOf (if m = 0 then 1 else 2) j * sharedSee (i + 1 - (if m = 0 then 1 else 2) + j) (((ts[i + 1 - (if m = 0 then 1 else 2) + j]?).map Trace.seenByWfs).getD []) m else 0) =
        [-X i, if 2 ∣ i + 1 then 3 - (X (i - 1) + X i) / 2 else 0] := by
      refine List.ext_getElem? fun m => ?_
      match m with
      | 0 =>
        have := hsee i _ g0 0
        simp [meanOf, this]
      | 1 =>
        have s1 := hsee i _ g0 1
        rw [List.getElem?_map, List.getElem?_range (by norm_num)]
        simp only [Option.map_some, List.getElem?_cons_succ, List.getElem?_cons_zero, Option.some.injEq, one_ne_zero, if_false]
        by_cases h2 : 2 ∣ i + 1
        · have g2 := List.getElem?_eq_getElem (show i - 1 < ts.length by omega)
          have s2 := hsee (i - 1) _ g2 1
          rw [if_pos h2, if_pos h2, Finset.sum_range_succ, Finset.sum_range_one, show i + 1 - 2 + 0 = i - 1 by omega, show i + 1 - 2 + 1 = i by omega, s1, s2]
          simp only [meanOf, one_ne_zero, if_false]
          push_cast
          ring
        · rw [if_neg h2, if_neg h2]
      | m + 2 => simp
    rw [hs0]
    simp only [Finset.sum_range_succ, Finset.sum_range_zero, List.getD_cons_zero, List.getD_cons_succ]
    ring
  -- the bound, two frames at a time
  have pair : ∀ k, (2 * k < ts.length → 0 ≤ X (2 * k) ∧ X (2 * k) ≤ 8 / 7) ∧ (2 * k + 1 < ts.length → X (2 * k + 1) = 3 / 4 * X (2 * k)) := by
    intro k
    have odd : ∀ k, 2 * k + 1 < ts.length → X (2 * k + 1) = 3 / 4 * X (2 * k) := by
      intro k h
      rw [hstep (2 * k) h, if_neg (by omega)]
      ring
    refine ⟨?_, odd k⟩
    induction k with
    | zero => intro h; rw [Nat.mul_zero, hX0 (by omega)]; norm_num
    | succ k ih =>
      intro h
      have h1 := ih (by omega)
      have h2 := odd k (by omega)
      have h3 := hstep (2 * k + 1) (by omega)
      rw [if_pos (by omega), Nat.add_sub_cancel, h2] at h3
      rw [show 2 * (k + 1) = 2 * k + 1 + 1 by omega, h3]
      constructor <;> linarith
  refine ⟨X i, hcmd i t ht, ?_⟩
  have hi : i < ts.length := by
    by_contra hcon
    rw [List.getElem?_eq_none (by omega)] at ht; cases ht
  rcases Nat.even_or_odd' i with ⟨k, rfl | rfl⟩
  · exact (pair k).1 hi
  · have h1 := (pair k).1 (by omega)
    rw [(pair k).2 hi]
    constructor <;> linarith

/-- With equal speeds it does come to 3/2. -/
example (ε : ℚ) (hε : 0 < ε) : ∃ K, ∀ n, ∃ s' ts, runLoop sharedSys (speedsPlant 2 (fun _ => 2) (fun _ => meanOf 2) (fun _ corr => LinearMap.id (R := ℚ) (((fun m => if m = 0 then -3 / 2 else 3 / 2) + ∑ p ∈ Finset.range (nCommands sharedDms), (3 / 2 : ℚ) • fun _ => 1) - corr.sum)) fun _ _ => 0) (initial sharedSys sharedDms 2 1 fun _ => 0) (List.replicate n sharedDms) = .ok (s', ts) ∧
    ts.length = n ∧ ∀ (i : ℕ) (t : Trace (ℕ → ℚ)), K ≤ i → ts[i]? = some t → ∃ x, t.cmds[0]? = some x ∧ |3 / 2 - x| < ε := by
  obtain ⟨K, hK⟩ := ((C159_mean_exact 2 0 (by norm_num) (by norm_num) (1 / 2) (3 / 2) (by norm_num)).2 (by norm_num) (by norm_num)) ε hε
  refine ⟨2 * K, fun n => ?_⟩
  obtain ⟨s', ts, h1, h2, h3⟩ := C160_loop sharedSys sharedDms (by simp [sharedDms]) (by simp [sharedDms]) 2 1 0 n (fun _ => 2) (fun _ => 2) (by norm_num) (by norm_num)
    rfl (by decide) (fun _ => rfl) (fun _ _ => (1 : ℚ)) LinearMap.id (fun _ => (fun m => if m = 0 then -3 / 2 else 3 / 2) + ∑ p ∈ Finset.range (nCommands sharedDms), (3 / 2 : ℚ) • fun _ => 1) (fun _ m => if m = 0 then -3 / 2 else 3 / 2) (fun _ _ => 3 / 2)
    (fun _ _ => 0) (fun _ => 1 / 2) (fun _ => meanOf 2) (fun _ => meanOf 2)
    (by
      intro k m hk c _
      match k with
      | 0 => simp [sharedDms] at hk; subst hk; rfl
      | k + 1 => simp [sharedDms] at hk)
    (by
      intro k m hk j hj
      match k with
      | 0 => simp [sharedDms] at hk; subst hk; norm_num
      | k + 1 => simp [sharedDms] at hk)
    [[1 / 2], [1 / 2]] rfl (by simp [nCommands, sharedDms]) rfl
    (by
      have hn : nCommands sharedDms = 1 := rfl
      intro p q hp hq
      rw [hn] at hp hq
      have h1 : p = 0 := by omega
      have h2 : q = 0 := by omega
      subst h1 h2
      simp [Finset.sum_range_succ]
      norm_num)
    (fun _ _ _ _ _ => ⟨rfl, rfl⟩) (fun _ => rfl)
  refine ⟨s', ts, h1, h2, fun i t hi ht => ⟨_, (h3 i t ht).1 0 (by decide), ?_⟩⟩
  have hb : (fun k : ℕ => ∑ m ∈ Finset.range 2, ((([[1 / 2], [1 / 2]] : List (List ℚ)).getD m []).getD 0 0) * ((∑ j ∈ Finset.range 2, meanOf 2 j * (LinearMap.id (R := ℚ) (fun m : ℕ => if m = 0 then (-3 / 2 : ℚ) else 3 / 2)) m) + 0)) = fun _ => 0 := by
    funext k
    simp [Finset.sum_range_succ, meanOf]
    norm_num
  rw [hb]
  exact hK ((i - 0) / 2) (by omega)

end Soapy.Props
