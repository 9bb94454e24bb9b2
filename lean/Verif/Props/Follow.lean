/-
Property theorems C110: the closed loop follows a changing aberration, and errors of the measurements stay bounded.
-/
import Mathlib.Algebra.Ring.GeomSum
import Verif.Props.Converge

namespace Soapy.Props

open Soapy.Loop Soapy.Control Soapy.Vec

/-- What is left of a component of the aberration that is `a n` in frame `n`, if the correction grows in every frame after the first `d + 1` by `g` times what was measured of it `d` frames ago: what was left, with an error `b`. -/
def lag (d : ℕ) (g : ℚ) (a b : ℕ → ℚ) : ℕ → ℚ
  | 0 => a 0
  | n + 1 => lag d g a b n + (a (n + 1) - a n) - if d ≤ n then g * (lag d g a b (n - d) + b (n - d)) else 0
termination_by n => n
decreasing_by all_goals omega

theorem lag_sum (d : ℕ) (g : ℚ) (a b : ℕ → ℚ) (m : ℕ) : lag d g a b m = a m - ∑ t ∈ Finset.range (m - d), g * (lag d g a b t + b t) := by
  induction m with
  | zero => rw [lag]; simp
  | succ m ih =>
    rw [lag, ih]
    by_cases h : d ≤ m
    · rw [if_pos h, show m + 1 - d = (m - d) + 1 by omega, Finset.sum_range_succ]
      ring
    · rw [if_neg h, show m + 1 - d = 0 by omega, show m - d = 0 by omega]
      simp

/-- A static aberration measured without error is the case of C79. -/
theorem lag_static (d : ℕ) (g a : ℚ) (n : ℕ) : lag d g (fun _ => a) (fun _ => 0) n = leftOver d g a n := by
  induction n using Nat.strong_induction_on with
  | _ n ih =>
    cases n with
    | zero => rw [lag, leftOver]
    | succ n =>
      rw [lag, leftOver, ih n (by omega), ih (n - d) (by omega)]
      split_ifs <;> ring

section

variable {V : Type} [AddCommGroup V] [Module ℚ V]

omit [Module ℚ V] in
theorem run_slopes_at (sys : Sys V) (pl : Plant Unit V) (meas : ℕ → List V → List ℚ) (hs : ∀ i c, pl.sense () i c = .ok ((), meas i c)) (dms : List DmCtl) :
    ∀ (n : ℕ) (s s' : State Unit V) (ts : List (Trace V)), runLoop sys pl s (List.replicate n dms) = .ok (s', ts) →
    ∀ (i : ℕ) (t : Trace V), ts[i]? = some t → t.slopes = meas (s.iters + i) t.seenByWfs := by
  intro n
  induction n with
  | zero =>
    intro s s' ts h i t ht
    simp [runLoop] at h
    obtain ⟨_, rfl⟩ := h
    simp at ht
  | succ n ih =>
    intro s s' ts h i t ht
    rw [List.replicate_succ] at h
    obtain ⟨u, t0, us, h1, h2, rfl⟩ := runLoop_cons sys pl s s' dms _ ts h
    obtain ⟨_, _, _, e4, e5, _, _, _, e9, _⟩ := loopFrame_ok sys pl dms s u t0 h1
    cases i with
    | zero =>
      simp at ht; subst ht
      have hp : s.plant = () := rfl
      rw [hp, hs] at e4
      simp only [Except.ok.injEq, Prod.mk.injEq] at e4
      rw [e5, ← e4.2]
      rfl
    | succ i =>
      have := ih u s' us h2 i t (by simpa using ht)
      rw [this, e9]
      congr 1
      omega

/-- **C110 (the loop).** Closed-loop mirrors with linear surfaces, a linear sensor `S` that looks in frame `i` at the aberration `φ i` minus the surfaces and errs by `err i`, a command matrix that inverts the interaction matrix, loop delay `d`:
the run completes, and in frame `i` what is left of component `p` is `lag d` of its course, the error being the reconstructed error of the measurements and of what the mirrors cannot make. -/
theorem C110_loop (sys : Sys V) (pl : Plant Unit V) (dms : List DmCtl) (hne : dms ≠ []) (hclosed : ∀ m ∈ dms, m.closed = true)
    (nMeas nActs d n : ℕ) (hd : sys.loopDelay = d) (hN : 1 ≤ sys.nIters) (hstore : sys.saveDmCommands = true → nActs = nCommands dms)
    (shape : ℕ → V) (S : V →ₗ[ℚ] (ℕ → ℚ)) (φ ψ : ℕ → V) (a err : ℕ → ℕ → ℚ) (gain : ℕ → ℚ)
    (hsurf : ∀ (k : ℕ) (m : DmCtl), dms[k]? = some m → ∀ c : List ℚ, c.length = m.nValid →
      sys.surface k c = .ok (∑ j ∈ Finset.range m.nValid, c.getD j 0 • shape (firstCommand dms k + j)))
    (hgain : ∀ (k : ℕ) (m : DmCtl), dms[k]? = some m → ∀ j, j < m.nValid → gain (firstCommand dms k + j) = m.gain)
    (hsense : ∀ i corr, pl.sense () i corr = .ok ((), (List.range nMeas).map fun m => S (φ i - corr.sum) m + err i m))
    (cmat : List (List ℚ)) (hrows : cmat.length = nMeas) (hcols : ∀ r ∈ cmat, r.length = nCommands dms)
    (hprod : sys.product = tdot (nCommands dms) cmat)
    (hinv : ∀ p q, p < nCommands dms → q < nCommands dms →
      ∑ m ∈ Finset.range nMeas, (-(S (0 - shape p)) m) * (cmat.getD m []).getD q 0 = if p = q then 1 else 0)
    (hφ : ∀ i, φ i = ψ i + ∑ p ∈ Finset.range (nCommands dms), a i p • shape p) :
    ∃ s' ts, runLoop sys pl (initial sys dms nMeas nActs ()) (List.replicate n dms) = .ok (s', ts) ∧ ts.length = n ∧
      ∀ (i : ℕ) (t : Trace V), ts[i]? = some t →
        (∀ p, p < nCommands dms → t.cmds[p]? = some (a i p - lag d (gain p) (fun k => a k p) (fun k => ∑ m ∈ Finset.range nMeas, (cmat.getD m []).getD p 0 * (S (ψ k) m + err k m)) i)) ∧
        φ i - t.seenByWfs.sum = ψ i + ∑ p ∈ Finset.range (nCommands dms), lag d (gain p) (fun k => a k p) (fun k => ∑ m ∈ Finset.range nMeas, (cmat.getD m []).getD p 0 * (S (ψ k) m + err k m)) i • shape p := by
  set nC := nCommands dms with hnC
  have hsum : (dms.map DmCtl.nValid).sum = nC := rfl
  -- the run completes
  obtain ⟨s', ts, hrun⟩ := C16_run_completes sys pl dms nMeas nActs d () (List.replicate n dms) (fun c hc => by rw [List.eq_of_mem_replicate hc])
    (fun k m hk c hc => ⟨_, hsurf k m hk c hc⟩)
    (fun m hm => by
      obtain ⟨c, e1, e2, _⟩ := tdot_get nC cmat m (by rw [hrows, hm]) hcols
      exact ⟨c, by rw [hprod]; exact e1, e2⟩)
    (fun x i c _ => ⟨(), _, hsense i c, by simp⟩) hN hd hstore
  obtain ⟨hlen, hsees⟩ := C16_who_sees_what sys pl dms nMeas nActs n () s' ts hrun
  obtain ⟨r, cs, hrec, hcs, hcmds⟩ := C17_latency sys pl d hd dms hne nMeas nActs n () s' ts hrun
  have hslopes := run_slopes_at sys pl (fun i c => (List.range nMeas).map fun m => S (φ i - c.sum) m + err i m) hsense dms n _ s' ts hrun
  simp only [initial, Nat.zero_add] at hslopes
  refine ⟨s', ts, hrun, hlen, ?_⟩
  -- measurements of frame t, as the reconstructor gets them in frame t + 1
  let meas : ℕ → List ℚ := fun t => if t = 0 then zeros nMeas else ((ts[t - 1]?).map Trace.slopes).getD []
  have hmeas : (zeros nMeas :: ts.map Trace.slopes).take n = (List.range n).map meas := by
    apply List.ext_getElem?
    intro i
    rw [List.getElem?_take, List.getElem?_map]
    by_cases hi : i < n
    · rw [if_pos hi, List.getElem?_range hi]
      cases i with
      | zero => simp [meas]
      | succ i =>
        have : i < ts.length := by omega
        simp [meas, List.getElem?_eq_getElem this]
    · rw [if_neg hi, List.getElem?_eq_none (by simp; omega)]
      rfl
  have hmlen : ∀ t, t < n → (meas t).length = nMeas := by
    intro t ht
    by_cases h0 : t = 0
    · simp [meas, h0, zeros]
    · have : t - 1 < ts.length := by omega
      simp only [meas, h0, if_false, List.getElem?_eq_getElem this, Option.map_some, Option.getD_some]
      rw [hslopes (t - 1) _ (List.getElem?_eq_getElem this)]
      simp
  have hu : ∀ t, t < n → ∃ c, tdot nC cmat (meas t) = .ok c ∧ c.length = nC ∧ ∀ p, p < nC →
      c.getD p 0 = ∑ i ∈ Finset.range cmat.length, (cmat.getD i []).getD p 0 * (meas t).getD i 0 :=
    fun t ht => tdot_get nC cmat (meas t) (by rw [hrows, hmlen t ht]) hcols
  let u : ℕ → List ℚ := fun t => match tdot nC cmat (meas t) with | .ok c => c | .error _ => []
  have hu1 : ∀ t, t < n → sys.product (meas t) = .ok (u t) := by
    intro t ht
    obtain ⟨c, e, _⟩ := hu t ht
    rw [hprod, e]
    simp [u, e]
  have hu2 : ∀ t, t < n → (u t).length = nC := by
    intro t ht
    obtain ⟨c, e, l, _⟩ := hu t ht
    simp [u, e, l]
  have hu3 : ∀ t, t < n → ∀ p, p < nC → (u t).getD p 0 = ∑ i ∈ Finset.range nMeas, (cmat.getD i []).getD p 0 * (meas t).getD i 0 := by
    intro t ht p hp
    obtain ⟨c, e, _, g⟩ := hu t ht
    have : u t = c := by simp [u, e]
    rw [this, g p hp, hrows]
  obtain ⟨r', cs', hrec', _, hint⟩ := C10_closed_integrates dms sys.product n meas u hu1 hu2
  rw [← hmeas, hrec] at hrec'
  simp only [Except.ok.injEq, Prod.mk.injEq] at hrec'
  obtain ⟨_, rfl⟩ := hrec'
  -- commands in frame i as sums
  have hcmd : ∀ (i : ℕ) (t : Trace V), ts[i]? = some t → i < n → ∀ p, p < nC →
      t.cmds[p]? = some (∑ q ∈ Finset.range (if i < d then 0 else i - d + 1), gain p * (u q).getD p 0) := by
    intro i t ht hi p hp
    obtain ⟨⟨k, j⟩, ⟨m, hk, hj, hpe⟩, _⟩ := C11_blocks_partition dms p hp
    dsimp only at hk hj hpe
    have hc := hcmds i hi
    rw [ht, Option.map_some] at hc
    by_cases hid : i < d
    · rw [if_pos hid] at hc
      obtain ⟨c, e1, e2⟩ := hint k m hk (hclosed m (List.mem_of_getElem? hk)) j hj i hi
      rw [e1, Option.map_some, Option.some.injEq] at hc
      rw [hc, hpe, List.getElem?_map, e2, if_pos hid]
      simp
    · rw [if_neg hid] at hc
      obtain ⟨c, e1, e2⟩ := hint k m hk (hclosed m (List.mem_of_getElem? hk)) j hj (i - d) (by omega)
      rw [e1, Option.some.injEq] at hc
      rw [hc, hpe, e2, if_neg hid, hgain k m hk j hj]
      simp only [List.getD_eq_getElem?_getD]
  -- what the sensors see
  have hseen : ∀ (i : ℕ) (t : Trace V), ts[i]? = some t → i < n →
      φ i - t.seenByWfs.sum = ψ i + ∑ p ∈ Finset.range nC, (a i p - t.cmds.getD p 0) • shape p := by
    intro i t ht hi
    obtain ⟨h1, _, h3⟩ := hsees i t ht
    have hclen : nC ≤ t.cmds.length := by
      by_contra hcon
      have := hcmd i t ht hi t.cmds.length (by omega)
      rw [List.getElem?_eq_none (le_refl _)] at this
      cases this
    have := sum_blocks_shape shape t.cmds dms 0 t.seenByWfs h1 (fun k m hk => by
      obtain ⟨x, x1, x2, _⟩ := h3 k m hk
      rw [x2, if_pos (hclosed m (List.mem_of_getElem? hk))]
      have hle : firstCommand dms k + m.nValid ≤ nC := by
        by_cases hz : m.nValid = 0
        · have : firstCommand dms k ≤ nC := by
            simp only [hnC, firstCommand, nCommands]
            conv_rhs => rw [← List.take_append_drop k dms, List.map_append, List.sum_append]
            omega
          omega
        · have := offset_lt dms k (m.nValid - 1) m hk (by omega)
          simp only [offset] at this
          simp only [hnC, firstCommand, nCommands]
          omega
      have hsl : (slice t.cmds (firstCommand dms k) (firstCommand dms k + m.nValid)).length = m.nValid := by
        simp [slice]; omega
      rw [hsurf k m hk _ hsl] at x1
      simp only [Except.ok.injEq] at x1
      rw [← x1]
      congr 1
      refine Finset.sum_congr rfl fun j hj => ?_
      rw [Finset.mem_range] at hj
      rw [Nat.zero_add]
      congr 1
      simp only [slice, List.getD_eq_getElem?_getD, List.getElem?_take, List.getElem?_drop]
      rw [if_pos (by omega)])
    rw [this, hφ i, add_sub_assoc, ← Finset.sum_sub_distrib]
    congr 1
    refine Finset.sum_congr rfl fun p _ => ?_
    rw [Nat.zero_add, sub_smul]
  -- the update computed from frame t's measurements is what was left in frame t and the error of its measurements
  have hupd : ∀ (i : ℕ) (t : Trace V), ts[i]? = some t → i + 1 < n → ∀ p, p < nC →
      (u (i + 1)).getD p 0 = a i p - t.cmds.getD p 0 + ∑ m ∈ Finset.range nMeas, (cmat.getD m []).getD p 0 * (S (ψ i) m + err i m) := by
    intro i t ht hi p hp
    rw [hu3 (i + 1) hi p hp]
    have hm : ∀ k, k < nMeas → (meas (i + 1)).getD k 0 = (S (ψ i) k + err i k) + ∑ q ∈ Finset.range nC, (a i q - t.cmds.getD q 0) * (-(S (0 - shape q)) k) := by
      intro k hk
      simp only [meas, Nat.add_sub_cancel, Nat.succ_ne_zero, if_false, ht, Option.map_some, Option.getD_some]
      rw [hslopes i t ht, hseen i t ht (by omega)]
      simp only [List.getD_eq_getElem?_getD, List.getElem?_map, List.getElem?_range hk, Option.map_some, Option.getD_some]
      rw [map_add, Pi.add_apply, map_sum, Finset.sum_apply]
      have : ∑ q ∈ Finset.range nC, S ((a i q - (t.cmds[q]?).getD 0) • shape q) k = ∑ q ∈ Finset.range nC, (a i q - (t.cmds[q]?).getD 0) * (-(S (0 - shape q)) k) := by
        refine Finset.sum_congr rfl fun q _ => ?_
        rw [map_smul, zero_sub, map_neg, Pi.smul_apply, Pi.neg_apply, neg_neg, smul_eq_mul]
      simp only [this]
      ring
    rw [Finset.sum_congr rfl fun k hk => by rw [hm k (Finset.mem_range.mp hk)]]
    simp only [mul_add (_ : ℚ) (S (ψ i) _ + err i _), Finset.sum_add_distrib, Finset.mul_sum]
    rw [Finset.sum_comm]
    have : ∀ q ∈ Finset.range nC, ∑ k ∈ Finset.range nMeas,
        (cmat.getD k []).getD p 0 * ((a i q - t.cmds.getD q 0) * (-(S (0 - shape q)) k)) = if q = p then a i p - t.cmds.getD p 0 else 0 := by
      intro q hq
      have := hinv q p (Finset.mem_range.mp hq) hp
      rw [Finset.sum_congr rfl fun k _ => show (cmat.getD k []).getD p 0 * ((a i q - t.cmds.getD q 0) * (-(S (0 - shape q)) k)) =
        (a i q - t.cmds.getD q 0) * ((-(S (0 - shape q)) k) * (cmat.getD k []).getD p 0) by ring, ← Finset.mul_sum, this]
      split_ifs with h
      · rw [h, mul_one]
      · rw [mul_zero]
    rw [Finset.sum_congr rfl this, Finset.sum_ite_eq' (Finset.range nC) p, if_pos (Finset.mem_range.mpr hp), add_comm]
  have hu0 : 0 < n → ∀ p, p < nC → (u 0).getD p 0 = 0 := by
    intro h0 p hp
    rw [hu3 0 h0 p hp]
    refine Finset.sum_eq_zero fun k hk => ?_
    have : (meas 0).getD k 0 = 0 := by
      simp only [meas, if_true, zeros, List.getD_eq_getElem?_getD, List.getElem?_replicate]
      split_ifs <;> rfl
    rw [this, mul_zero]
  -- induction over frames
  have main : ∀ (i : ℕ) (t : Trace V), ts[i]? = some t → ∀ p, p < nC → t.cmds[p]? = some (a i p - lag d (gain p) (fun k => a k p) (fun k => ∑ m ∈ Finset.range nMeas, (cmat.getD m []).getD p 0 * (S (ψ k) m + err k m)) i) := by
    intro i
    induction i using Nat.strong_induction_on with
    | _ i ih =>
      intro t ht p hp
      have hi : i < n := by
        by_contra hcon
        rw [List.getElem?_eq_none (by omega)] at ht; cases ht
      rw [hcmd i t ht hi p hp, lag_sum]
      congr 1
      by_cases hid : i < d
      · rw [if_pos hid, show i - d = 0 by omega]
        simp
      · rw [if_neg hid, Finset.sum_range_succ', hu0 (by omega) p hp, mul_zero, add_zero, sub_sub_cancel]
        refine Finset.sum_congr rfl fun q hq => ?_
        rw [Finset.mem_range] at hq
        have hq' : q < ts.length := by omega
        have hg := List.getElem?_eq_getElem hq'
        rw [hupd q _ hg (by omega) p hp, List.getD_eq_getElem?_getD, ih q (by omega) _ hg p hp]
        simp
  intro i t ht
  refine ⟨main i t ht, ?_⟩
  have hi : i < n := by
    by_contra hcon
    rw [List.getElem?_eq_none (by omega)] at ht; cases ht
  rw [hseen i t ht hi]
  congr 1
  refine Finset.sum_congr rfl fun p hp => ?_
  rw [List.getD_eq_getElem?_getD, main i t ht p (Finset.mem_range.mp hp)]
  simp

end

/-! ### How large it gets -/

/-- One step in terms of what was left in a window of `2 d + 1` frames. -/
theorem lag_window (d : ℕ) (g : ℚ) (a b : ℕ → ℚ) (n : ℕ) (h : 2 * d ≤ n) :
    lag d g a b (n + 1) = (1 - g) * lag d g a b n + (a (n + 1) - a n) - g * b (n - d) + g * (a n - a (n - d)) - g ^ 2 * (∑ k ∈ Finset.range d, b (n - 2 * d + k))
      - g ^ 2 * ∑ k ∈ Finset.range d, lag d g a b (n - 2 * d + k) := by
  have hstep : ∀ m, d ≤ m → lag d g a b (m + 1) = lag d g a b m + (a (m + 1) - a m) - g * (lag d g a b (m - d) + b (m - d)) := by
    intro m hm; rw [lag, if_pos hm]
  have hdiff : ∀ j, j ≤ d → lag d g a b (n - d + j) - lag d g a b (n - d) = (a (n - d + j) - a (n - d)) - g * ∑ k ∈ Finset.range j, (lag d g a b (n - 2 * d + k) + b (n - 2 * d + k)) := by
    intro j hj
    induction j with
    | zero => simp
    | succ j ih =>
      rw [← Nat.add_assoc, hstep (n - d + j) (by omega), Finset.sum_range_succ, show n - d + j - d = n - 2 * d + j by omega]
      have := ih (by omega)
      linear_combination this
  have h2 := hdiff d (le_refl d)
  rw [show n - d + d = n by omega, Finset.sum_add_distrib] at h2
  rw [hstep n (by omega)]
  linear_combination g * h2

private theorem drift (a : ℕ → ℚ) (δ : ℚ) (ha : ∀ n, |a (n + 1) - a n| ≤ δ) (n k : ℕ) : |a (n + k) - a n| ≤ k * δ := by
  induction k with
  | zero => simp
  | succ k ih =>
    have e : a (n + (k + 1)) - a n = (a (n + k + 1) - a (n + k)) + (a (n + k) - a n) := by rw [← Nat.add_assoc]; ring
    rw [e]
    refine (abs_add_le _ _).trans ?_
    have := ha (n + k)
    push_cast
    linarith

/-- **C110 (bounded).** If the aberration changes by at most `δ` from frame to frame and its measurements err by at most `ε`, then with a gain of at most 1 and less than `1 / d` what is left gets, geometrically, below `(1 + g d) (δ / g + ε) / (1 - g d)` — without delay `δ / g + ε` — and it stays there, for ever. -/
theorem C110_bounded (d : ℕ) (g δ ε : ℚ) (a b : ℕ → ℚ) (h0 : 0 < g) (h1 : g ≤ 1) (hd : g * d < 1) (ha : ∀ n, |a (n + 1) - a n| ≤ δ) (hb : ∀ n, |b n| ≤ ε) (q n : ℕ) (hq : q * (2 * d + 1) ≤ n) :
    |lag d g a b n| ≤ (1 - g + g ^ 2 * d) ^ q * (|a 0| + 4 * d * δ + ε) + (1 + g * d) * (δ / g + ε) / (1 - g * d) := by
  set ρ := 1 - g + g ^ 2 * d with hρ
  set K := (1 + g * d) * (δ / g + ε) / (1 - g * d) with hK
  set M := |a 0| + 4 * d * δ + ε with hM
  have hδ : 0 ≤ δ := (abs_nonneg _).trans (ha 0)
  have hε : 0 ≤ ε := (abs_nonneg _).trans (hb 0)
  have hdq : (0 : ℚ) ≤ d := Nat.cast_nonneg d
  have hgd : 0 ≤ g * d := by positivity
  have h1d : 0 < 1 - g * d := by linarith
  have hρ0 : 0 ≤ ρ := by
    have : 0 ≤ g ^ 2 * d := by positivity
    rw [hρ]; linarith
  have hρe : 1 - ρ = g * (1 - g * d) := by rw [hρ]; ring
  have hρ1 : ρ < 1 := by
    have : 0 < g * (1 - g * d) := mul_pos h0 h1d
    linarith
  have hK0 : 0 ≤ K := by rw [hK]; positivity
  have hKe : (1 - ρ) * K = (1 + g * d) * (δ + g * ε) := by
    rw [hρe, hK]
    field_simp
  have hM0 : 0 ≤ M := by rw [hM]; positivity
  have step : ∀ (n : ℕ) (B : ℚ), 2 * d ≤ n → (∀ k, n - 2 * d ≤ k → k ≤ n → |lag d g a b k| ≤ B) → |lag d g a b (n + 1)| ≤ ρ * B + (1 - ρ) * K := by
    intro n B hn hB
    rw [lag_window d g a b n hn, hKe]
    have b1 : |(1 - g) * lag d g a b n| ≤ (1 - g) * B := by
      rw [abs_mul, abs_of_nonneg (by linarith : 0 ≤ 1 - g)]
      exact mul_le_mul_of_nonneg_left (hB n (by omega) (le_refl n)) (by linarith)
    have b2 : |∑ k ∈ Finset.range d, lag d g a b (n - 2 * d + k)| ≤ d * B := by
      refine (Finset.abs_sum_le_sum_abs _ _).trans ?_
      refine (Finset.sum_le_sum fun k hk => hB (n - 2 * d + k) (by omega) ?_).trans ?_
      · rw [Finset.mem_range] at hk; omega
      · simp
    have b3 : |g ^ 2 * ∑ k ∈ Finset.range d, lag d g a b (n - 2 * d + k)| ≤ g ^ 2 * (d * B) := by
      rw [abs_mul, abs_of_nonneg (by positivity : 0 ≤ g ^ 2)]
      exact mul_le_mul_of_nonneg_left b2 (by positivity)
    have b4 : |∑ k ∈ Finset.range d, b (n - 2 * d + k)| ≤ d * ε := by
      refine (Finset.abs_sum_le_sum_abs _ _).trans ?_
      refine (Finset.sum_le_sum fun k _ => hb (n - 2 * d + k)).trans ?_
      simp
    have b5 : |g ^ 2 * ∑ k ∈ Finset.range d, b (n - 2 * d + k)| ≤ g ^ 2 * (d * ε) := by
      rw [abs_mul, abs_of_nonneg (by positivity : 0 ≤ g ^ 2)]
      exact mul_le_mul_of_nonneg_left b4 (by positivity)
    have b6 : |g * (a n - a (n - d))| ≤ g * (d * δ) := by
      rw [abs_mul, abs_of_pos h0]
      have := drift a δ ha (n - d) d
      rw [show n - d + d = n by omega] at this
      exact mul_le_mul_of_nonneg_left this h0.le
    have b7 : |g * b (n - d)| ≤ g * ε := by
      rw [abs_mul, abs_of_pos h0]
      exact mul_le_mul_of_nonneg_left (hb _) h0.le
    have b8 := ha n
    have e1 : ρ * B + (1 + g * d) * (δ + g * ε) = (1 - g) * B + δ + g * ε + g * (d * δ) + g ^ 2 * (d * ε) + g ^ 2 * (d * B) := by rw [hρ]; ring
    rw [e1]
    rw [abs_le] at b1 b3 b5 b6 b7 b8 ⊢
    constructor <;> linarith [b1.1, b1.2, b3.1, b3.2, b5.1, b5.2, b6.1, b6.2, b7.1, b7.2, b8.1, b8.2]
  have hone : ∀ n, n ≤ 2 * d → |a n| ≤ |a 0| + 2 * d * δ := by
    intro n hn
    have := drift a δ ha 0 n
    rw [Nat.zero_add] at this
    have hn' : (n : ℚ) ≤ 2 * d := by exact_mod_cast hn
    have h3 : (n : ℚ) * δ ≤ 2 * d * δ := mul_le_mul_of_nonneg_right hn' hδ
    have h4 : |a n| ≤ |a n - a 0| + |a 0| := by
      have := abs_add_le (a n - a 0) (a 0)
      rwa [sub_add_cancel] at this
    linarith
  have early : ∀ n, n ≤ 2 * d → |lag d g a b n| ≤ M := by
    intro n hn
    have hear : ∀ t, t ≤ d → lag d g a b t = a t := by
      intro t ht
      rw [lag_sum, show t - d = 0 by omega]; simp
    by_cases hle : n ≤ d
    · rw [hear n hle]
      have := hone n hn
      have : 0 ≤ 2 * (d : ℚ) * δ := by positivity
      rw [hM]; linarith
    · rw [lag_sum, Finset.sum_congr rfl fun t ht => by rw [hear t (by rw [Finset.mem_range] at ht; omega)]]
      have hk : ((n - d : ℕ) : ℚ) ≤ d := by exact_mod_cast (show n - d ≤ d by omega)
      have hk0 : (0 : ℚ) ≤ ((n - d : ℕ) : ℚ) := Nat.cast_nonneg _
      have e : a n - ∑ t ∈ Finset.range (n - d), g * (a t + b t) = (1 - ((n - d : ℕ) : ℚ) * g) * a n + ∑ t ∈ Finset.range (n - d), g * ((a n - a t) - b t) := by
        have e1 : ∑ t ∈ Finset.range (n - d), g * ((a n - a t) - b t) = ((n - d : ℕ) : ℚ) * (g * a n) - ∑ t ∈ Finset.range (n - d), g * (a t + b t) := by
          rw [eq_sub_iff_add_eq, ← Finset.sum_add_distrib, Finset.sum_congr rfl (fun t _ => show g * ((a n - a t) - b t) + g * (a t + b t) = g * a n by ring)]
          simp
        rw [e1]; ring
      rw [e]
      have c1 : |1 - ((n - d : ℕ) : ℚ) * g| ≤ 1 := by
        rw [abs_le]
        constructor <;> nlinarith
      have c2 : |(1 - ((n - d : ℕ) : ℚ) * g) * a n| ≤ |a 0| + 2 * d * δ := by
        rw [abs_mul]
        have := hone n hn
        nlinarith [abs_nonneg (a n)]
      have c3 : |∑ t ∈ Finset.range (n - d), g * ((a n - a t) - b t)| ≤ ((n - d : ℕ) : ℚ) * (g * (2 * d * δ + ε)) := by
        refine (Finset.abs_sum_le_sum_abs _ _).trans ?_
        have : ∀ t ∈ Finset.range (n - d), |g * ((a n - a t) - b t)| ≤ g * (2 * d * δ + ε) := by
          intro t ht
          rw [Finset.mem_range] at ht
          rw [abs_mul, abs_of_pos h0]
          apply mul_le_mul_of_nonneg_left _ h0.le
          have h5 := drift a δ ha t (n - t)
          rw [show t + (n - t) = n by omega] at h5
          have h6 : ((n - t : ℕ) : ℚ) ≤ 2 * d := by exact_mod_cast (show n - t ≤ 2 * d by omega)
          have h7 : ((n - t : ℕ) : ℚ) * δ ≤ 2 * d * δ := mul_le_mul_of_nonneg_right h6 hδ
          have h8 := hb t
          have := abs_sub (a n - a t) (b t)
          linarith
        refine (Finset.sum_le_sum this).trans ?_
        simp
      have c4 : ((n - d : ℕ) : ℚ) * (g * (2 * d * δ + ε)) ≤ 2 * d * δ + ε := by
        have : ((n - d : ℕ) : ℚ) * g ≤ 1 := by nlinarith
        have h9 : 0 ≤ 2 * (d : ℚ) * δ + ε := by positivity
        nlinarith
      refine (abs_add_le _ _).trans ?_
      rw [hM]; linarith
  have all : ∀ n, |lag d g a b n| ≤ M + K := by
    intro n
    induction n using Nat.strong_induction_on with
    | _ n ih =>
      by_cases hle : n ≤ 2 * d
      · have := early n hle
        linarith
      · obtain ⟨m, rfl⟩ : ∃ m, n = m + 1 := ⟨n - 1, by omega⟩
        have := step m (M + K) (by omega) (fun k _ hk => ih k (by omega))
        nlinarith
  revert n
  induction q with
  | zero => intro n _; simpa using all n
  | succ q ih =>
    intro n hn
    rw [Nat.succ_mul] at hn
    obtain ⟨m, rfl⟩ : ∃ m, n = m + 1 := ⟨n - 1, by omega⟩
    have := step m (ρ ^ q * M + K) (by omega) (fun k hk _ => ih k (by omega))
    rw [pow_succ']
    nlinarith

/-- One frame of delay, gain 0.4: never more than a transient and `7/3 (2.5 δ + ε)`. -/
example (a b : ℕ → ℚ) (ha : ∀ n, |a (n + 1) - a n| ≤ 1 / 100) (hb : ∀ n, |b n| ≤ 0) (n : ℕ) (hn : 10 * (2 * 1 + 1) ≤ n) :
    |lag 1 (2 / 5) a b n| ≤ (19 / 25) ^ 10 * (|a 0| + 1 / 25) + 7 / 120 := by
  have := C110_bounded 1 (2 / 5) (1 / 100) 0 a b (by norm_num) (by norm_num) (by norm_num) ha hb 10 n hn
  norm_num at this ⊢
  linarith

/-- **C110 (steady drift).** For an aberration that grows by `v` in every frame, measured with a constant error `β`, what is left tends to `v / gain - β`, whatever the delay. -/
theorem C110_ramp (d : ℕ) (g a₀ v β : ℚ) (h0 : 0 < g) (h1 : g ≤ 1) (hd : g * d < 1) : Settles fun n => lag d g (fun k => a₀ + k * v) (fun _ => β) n - (v / g - β) := by
  -- relative to the limit it is a static problem with errors in the first frames only
  set s : ℕ → ℚ := fun n => lag d g (fun k => a₀ + k * v) (fun _ => β) n - (v / g - β) with hs
  have hstep : ∀ n, d ≤ n → s (n + 1) = s n - g * s (n - d) := by
    intro n hn
    simp only [hs]
    rw [lag, if_pos hn]
    generalize lag d g (fun k : ℕ => a₀ + (k : ℚ) * v) (fun _ => β) n = x
    generalize lag d g (fun k : ℕ => a₀ + (k : ℚ) * v) (fun _ => β) (n - d) = y
    push_cast
    field_simp
    ring
  -- what follows frame d is the response to a history that stands still
  set M := ∑ k ∈ Finset.range (2 * d + 1), |s k| with hM
  have hdq : (0 : ℚ) ≤ d := Nat.cast_nonneg d
  set ρ := 1 - g + g ^ 2 * d with hρ
  have hρ0 : 0 ≤ ρ := by
    have : 0 ≤ g ^ 2 * d := by positivity
    rw [hρ]; linarith
  have hρ1 : ρ < 1 := by
    have : g * (g * d) < g * 1 := mul_lt_mul_of_pos_left hd h0
    rw [hρ]; nlinarith
  have hwin : ∀ n, 2 * d ≤ n → s (n + 1) = (1 - g) * s n - g ^ 2 * ∑ k ∈ Finset.range d, s (n - 2 * d + k) := by
    intro n h
    have hdiff : ∀ j, j ≤ d → s (n - d + j) - s (n - d) = -g * ∑ k ∈ Finset.range j, s (n - 2 * d + k) := by
      intro j hj
      induction j with
      | zero => simp
      | succ j ih =>
        rw [← Nat.add_assoc, hstep (n - d + j) (by omega), Finset.sum_range_succ, show n - d + j - d = n - 2 * d + j by omega]
        have := ih (by omega)
        linear_combination this
    have h2 := hdiff d (le_refl d)
    rw [show n - d + d = n by omega] at h2
    rw [hstep n (by omega)]
    linear_combination g * h2
  have step : ∀ (n : ℕ) (B : ℚ), 2 * d ≤ n → (∀ k, n - 2 * d ≤ k → k ≤ n → |s k| ≤ B) → |s (n + 1)| ≤ ρ * B := by
    intro n B hn hB
    rw [hwin n hn]
    have b1 : |(1 - g) * s n| ≤ (1 - g) * B := by
      rw [abs_mul, abs_of_nonneg (by linarith : 0 ≤ 1 - g)]
      exact mul_le_mul_of_nonneg_left (hB n (by omega) (le_refl n)) (by linarith)
    have b2 : |∑ k ∈ Finset.range d, s (n - 2 * d + k)| ≤ d * B := by
      refine (Finset.abs_sum_le_sum_abs _ _).trans ?_
      refine (Finset.sum_le_sum fun k hk => hB (n - 2 * d + k) (by omega) ?_).trans ?_
      · rw [Finset.mem_range] at hk; omega
      · simp
    have b3 : |g ^ 2 * ∑ k ∈ Finset.range d, s (n - 2 * d + k)| ≤ g ^ 2 * (d * B) := by
      rw [abs_mul, abs_of_nonneg (by positivity : 0 ≤ g ^ 2)]
      exact mul_le_mul_of_nonneg_left b2 (by positivity)
    refine (abs_sub _ _).trans ?_
    rw [hρ]
    nlinarith
  have hM0 : 0 ≤ M := Finset.sum_nonneg fun _ _ => abs_nonneg _
  have all : ∀ n, |s n| ≤ M := by
    intro n
    induction n using Nat.strong_induction_on with
    | _ n ih =>
      by_cases hle : n ≤ 2 * d
      · exact Finset.single_le_sum (f := fun k => |s k|) (fun _ _ => abs_nonneg _) (Finset.mem_range.mpr (by omega))
      · obtain ⟨m, rfl⟩ : ∃ m, n = m + 1 := ⟨n - 1, by omega⟩
        have := step m M (by omega) (fun k _ hk => ih k (by omega))
        nlinarith
  have geo : ∀ q n, q * (2 * d + 1) ≤ n → |s n| ≤ ρ ^ q * M := by
    intro q
    induction q with
    | zero => intro n _; simpa using all n
    | succ q ih =>
      intro n hn
      rw [Nat.succ_mul] at hn
      obtain ⟨m, rfl⟩ : ∃ m, n = m + 1 := ⟨n - 1, by omega⟩
      have := step m (ρ ^ q * M) (by omega) (fun k hk _ => ih k (by omega))
      rw [pow_succ']
      linarith
  intro ε hε
  obtain ⟨Q, hQ⟩ := pow_small ρ M ε hρ0 hρ1 hε
  exact ⟨Q * (2 * d + 1), fun n hn => lt_of_le_of_lt (geo Q n hn) (hQ Q (le_refl Q))⟩

/-- The bound is sharp without delay: a steady drift of `δ` leaves `δ / g`. -/
example (a₀ δ : ℚ) : Settles fun n => lag 0 (1 / 2) (fun k => a₀ + k * δ) (fun _ => 0) n - (δ / (1 / 2) - 0) :=
  C110_ramp 0 (1 / 2) a₀ δ 0 (by norm_num) (by norm_num) (by norm_num)

/-- The system of C79 looking at an aberration that grows, with an error of the third measurement in odd frames. -/
def followPlant : Plant Unit (ℕ → ℚ) where
  sense := fun _ i corr => .ok ((), (List.range 4).map fun m =>
    ((0 + ∑ p ∈ Finset.range (nCommands convDms), ((p : ℚ) + 3 + i / 10) • convShape p) - corr.sum) m + if m = 2 ∧ i % 2 = 1 then 1 / 5 else 0)

/-- What is left of the third component there stays below 2, after any number of frames. -/
example (n : ℕ) : ∃ s' ts, runLoop convSys followPlant (initial convSys convDms 4 3 ()) (List.replicate n convDms) = .ok (s', ts) ∧ ts.length = n ∧
    ∀ (i : ℕ) (t : Trace (ℕ → ℚ)), 60 ≤ i → ts[i]? = some t → ∃ c, t.cmds[2]? = some c ∧ |(5 + i / 10 : ℚ) - c| ≤ 2 := by
  have h := C110_loop convSys followPlant convDms (by simp [convDms]) (by simp [convDms]) 4 3 1 n rfl (by decide) (fun _ => rfl) convShape LinearMap.id
    (fun i => 0 + ∑ p ∈ Finset.range (nCommands convDms), ((p : ℚ) + 3 + i / 10) • convShape p) (fun _ => 0) (fun i p => (p : ℚ) + 3 + i / 10)
    (fun i m => if m = 2 ∧ i % 2 = 1 then 1 / 5 else 0) (fun p => if p < 2 then 1 / 2 else 1 / 4)
    (by
      intro k m hk c _
      match k with
      | 0 => simp [convDms] at hk; subst hk; rfl
      | 1 => simp [convDms] at hk; subst hk; rfl
      | k + 2 => simp [convDms] at hk)
    (by
      intro k m hk j hj
      match k with
      | 0 => simp [convDms] at hk; subst hk; simp at hj; simp [firstCommand, hj]
      | 1 => simp [convDms] at hk; subst hk; simp at hj; subst hj; simp [firstCommand, convDms]
      | k + 2 => simp [convDms] at hk)
    (fun _ _ => rfl) [[1 / 2, 0, 0], [-1 / 2, 1, 0], [0, 0, 1 / 2], [0, 0, 1 / 2]] rfl (by simp [nCommands, convDms]) rfl
    (by
      have hn : nCommands convDms = 3 := rfl
      intro p q hp hq
      rw [hn] at hp hq
      have hp3 : p = 0 ∨ p = 1 ∨ p = 2 := by omega
      have hq3 : q = 0 ∨ q = 1 ∨ q = 2 := by omega
      rcases hp3 with rfl | rfl | rfl <;> rcases hq3 with rfl | rfl | rfl <;> simp [Finset.sum_range_succ, convShape] <;> norm_num)
    (fun _ => rfl)
  obtain ⟨s', ts, h1, h2, h3⟩ := h
  refine ⟨s', ts, h1, h2, fun i t hi ht => ⟨_, (h3 i t ht).1 2 (by decide), ?_⟩⟩
  have hb := C110_bounded 1 (1 / 4) (1 / 10) (1 / 10) (fun k : ℕ => ((2 : ℕ) : ℚ) + 3 + k / 10)
    (fun k => ∑ m ∈ Finset.range 4, ((([[1 / 2, 0, 0], [-1 / 2, 1, 0], [0, 0, 1 / 2], [0, 0, 1 / 2]] : List (List ℚ)).getD m []).getD 2 0) * ((LinearMap.id (R := ℚ) (0 : ℕ → ℚ)) m + if m = 2 ∧ k % 2 = 1 then 1 / 5 else 0))
    (by norm_num) (by norm_num) (by norm_num)
    (fun k => by
      push_cast
      rw [show ((2 : ℚ) + 3 + (k + 1) / 10 - (2 + 3 + k / 10)) = 1 / 10 by ring]
      norm_num)
    (fun k => by
      by_cases hk : k % 2 = 1 <;> simp [Finset.sum_range_succ, hk] <;> norm_num [abs_of_pos])
    20 i (by omega)
  refine le_trans (le_of_eq ?_) (hb.trans ?_)
  · simp only [show ¬ (2 < 2) by omega, if_false]
    congr 1
    push_cast
    ring
  · norm_num

/-! ### Noise -/

/-- Without delay: what is left of a static aberration, and what the errors of the measurements make. -/
theorem lag_noise (g a : ℚ) (b : ℕ → ℚ) (n : ℕ) : lag 0 g (fun _ => a) b n = (1 - g) ^ n * a - g * ∑ k ∈ Finset.range n, (1 - g) ^ (n - 1 - k) * b k := by
  induction n with
  | zero => rw [lag]; simp
  | succ n ih =>
    rw [lag, if_pos (Nat.zero_le n), Nat.sub_zero, ih, Finset.sum_range_succ]
    have e : ∑ k ∈ Finset.range n, (1 - g) ^ (n + 1 - 1 - k) * b k = (1 - g) * ∑ k ∈ Finset.range n, (1 - g) ^ (n - 1 - k) * b k := by
      rw [Finset.mul_sum]
      refine Finset.sum_congr rfl fun k hk => ?_
      rw [Finset.mem_range] at hk
      rw [show n + 1 - 1 - k = (n - 1 - k) + 1 by omega, pow_succ]
      ring
    rw [e]
    simp
    ring

/-- **C110 (noise).** Without delay, for errors of the measurements that have variance `σ²` and are uncorrelated from frame to frame (over any finite set of runs `Ω` with weights `P`), the mean square of what they leave in frame `n` is `g / (2 - g) (1 - (1 - g)^(2 n)) σ²`. -/
theorem C110_noise {Ω : Type} [Fintype Ω] (P : Ω → ℚ) (b : Ω → ℕ → ℚ) (σ2 : ℚ) (n : ℕ) (hvar : ∀ k < n, ∑ ω, P ω * (b ω k * b ω k) = σ2) (hcov : ∀ k < n, ∀ l < n, k ≠ l → ∑ ω, P ω * (b ω k * b ω l) = 0) (g : ℚ) (hg : g ≠ 2) :
    ∑ ω, P ω * (lag 0 g (fun _ => 0) (b ω) n) ^ 2 = g / (2 - g) * (1 - (1 - g) ^ (2 * n)) * σ2 := by
  have h2 : (2 : ℚ) - g ≠ 0 := fun h => hg (by linarith)
  have e1 : ∑ ω, P ω * (lag 0 g (fun _ => 0) (b ω) n) ^ 2 = g ^ 2 * ∑ k ∈ Finset.range n, ∑ l ∈ Finset.range n, (1 - g) ^ (n - 1 - k) * (1 - g) ^ (n - 1 - l) * ∑ ω, P ω * (b ω k * b ω l) := by
    have : ∀ ω, P ω * (lag 0 g (fun _ => 0) (b ω) n) ^ 2 = g ^ 2 * ∑ k ∈ Finset.range n, ∑ l ∈ Finset.range n, (1 - g) ^ (n - 1 - k) * (1 - g) ^ (n - 1 - l) * (P ω * (b ω k * b ω l)) := by
      intro ω
      rw [lag_noise, mul_zero, zero_sub, neg_sq, mul_pow, sq (∑ k ∈ Finset.range n, _), Finset.sum_mul_sum]
      rw [mul_left_comm, Finset.mul_sum]
      congr 1
      refine Finset.sum_congr rfl fun k _ => ?_
      rw [Finset.mul_sum]
      exact Finset.sum_congr rfl fun l _ => by ring
    rw [Finset.sum_congr rfl fun ω _ => this ω, ← Finset.mul_sum, Finset.sum_comm]
    congr 1
    refine Finset.sum_congr rfl fun k _ => ?_
    rw [Finset.sum_comm]
    exact Finset.sum_congr rfl fun l _ => by rw [Finset.mul_sum]
  rw [e1]
  have e2 : ∀ k ∈ Finset.range n, ∑ l ∈ Finset.range n, (1 - g) ^ (n - 1 - k) * (1 - g) ^ (n - 1 - l) * ∑ ω, P ω * (b ω k * b ω l) = ((1 - g) ^ 2) ^ (n - 1 - k) * σ2 := by
    intro k hk
    rw [Finset.sum_eq_single k]
    · rw [hvar k (Finset.mem_range.mp hk), ← pow_mul, ← pow_add]; congr 2; ring
    · intro l hm hl
      rw [hcov k (Finset.mem_range.mp hk) l (Finset.mem_range.mp hm) (Ne.symm hl), mul_zero]
    · intro h; exact absurd hk h
  rw [Finset.sum_congr rfl e2, ← Finset.sum_mul, Finset.sum_range_reflect (fun k => ((1 - g) ^ 2) ^ k) n]
  have e3 : g * (2 - g) * ∑ k ∈ Finset.range n, ((1 - g) ^ 2) ^ k = 1 - (1 - g) ^ (2 * n) := by
    have := geom_sum_mul ((1 - g) ^ 2) n
    rw [pow_mul]
    linear_combination -this
  rw [← e3]
  field_simp

/-- Two equally likely signs in two frames. -/
example : ∑ ω : Bool × Bool, (1 / 4 : ℚ) * (lag 0 (1 / 2) (fun _ => 0) (fun k => if (if k = 0 then ω.1 else ω.2) then 1 else -1) 2) ^ 2 = 5 / 16 := by
  rw [← Finset.mul_sum, Finset.mul_sum, C110_noise (fun _ => 1 / 4) (fun (ω : Bool × Bool) k => if (if k = 0 then ω.1 else ω.2) then 1 else -1) 1 2 ?_ ?_ (1 / 2) (by norm_num)]
  · norm_num
  · intro k hk
    obtain rfl | rfl : k = 0 ∨ k = 1 := by omega
    all_goals simp [Fintype.sum_prod_type]; try norm_num
  · intro k hk l hl hne
    obtain ⟨rfl, rfl⟩ | ⟨rfl, rfl⟩ : (k = 0 ∧ l = 1) ∨ (k = 1 ∧ l = 0) := by omega
    all_goals simp [Fintype.sum_prod_type]

end Soapy.Props
