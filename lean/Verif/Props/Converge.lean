/-
Property theorem C79: the closed loop removes a static aberration.
-/
import Verif.Props.Loop
import Verif.Props.Tomo
import Mathlib.Algebra.Module.LinearMap.Basic
import Mathlib.Algebra.Module.BigOperators
import Mathlib.Algebra.Order.Archimedean.Basic
import Mathlib.Algebra.Order.Field.Rat
import Mathlib.Data.Rat.Floor
import Mathlib.Tactic.Linarith
import Mathlib.Tactic.LinearCombination

namespace Soapy.Props

open Soapy.Loop Soapy.Control Soapy.Vec

/-- What is left of an aberration `a` in frame `n`, if in every frame after the first `d + 1` the correction grows by `g` times what was left `d` frames ago. -/
def leftOver (d : ℕ) (g a : ℚ) : ℕ → ℚ
  | 0 => a
  | n + 1 => leftOver d g a n - if d ≤ n then g * leftOver d g a (n - d) else 0
termination_by n => n
decreasing_by all_goals omega

theorem leftOver_sum (d : ℕ) (g a : ℚ) (m : ℕ) :
    leftOver d g a m = a - ∑ t ∈ Finset.range (m - d), g * leftOver d g a t := by
  induction m with
  | zero => rw [leftOver]; simp
  | succ m ih =>
    rw [leftOver, ih]
    by_cases h : d ≤ m
    · rw [if_pos h, show m + 1 - d = (m - d) + 1 by omega, Finset.sum_range_succ]
      ring
    · rw [if_neg h, show m + 1 - d = 0 by omega, show m - d = 0 by omega]
      simp

section

variable {V : Type} [AddCommGroup V] [Module ℚ V]

/-- The surfaces of all mirrors together are the sum over all commands. -/
theorem sum_blocks_shape (shape : ℕ → V) (c : List ℚ) : ∀ (dms : List DmCtl) (off : ℕ) (corr : List V), corr.length = dms.length →
    (∀ (k : ℕ) (m : DmCtl), dms[k]? = some m → corr[k]? = some (∑ j ∈ Finset.range m.nValid,
      c.getD (off + firstCommand dms k + j) 0 • shape (off + firstCommand dms k + j))) →
    corr.sum = ∑ p ∈ Finset.range (nCommands dms), c.getD (off + p) 0 • shape (off + p)
  | [], _, corr, hl, _ => by
    have : corr = [] := by simpa using hl
    simp [this, nCommands]
  | m :: dms, off, [], hl, _ => by simp at hl
  | m :: dms, off, x :: corr, hl, h => by
    have h0 := h 0 m rfl
    simp only [List.getElem?_cons_zero, Option.some.injEq, firstCommand, List.take_zero, List.map_nil, List.sum_nil, Nat.add_zero] at h0
    have ih := sum_blocks_shape shape c dms (off + m.nValid) corr (by simpa using hl) (fun k m' hk => by
      have := h (k + 1) m' (by simpa using hk)
      simp only [List.getElem?_cons_succ] at this
      rw [this]
      congr 1
      refine Finset.sum_congr rfl fun j _ => ?_
      have e : off + firstCommand (m :: dms) (k + 1) + j = off + m.nValid + firstCommand dms k + j := by
        simp [firstCommand]; omega
      rw [e])
    rw [List.sum_cons, ih, h0]
    have e : nCommands (m :: dms) = m.nValid + nCommands dms := by simp [nCommands]
    rw [e, Finset.sum_range_add]
    congr 1
    exact Finset.sum_congr rfl fun p _ => by rw [Nat.add_assoc]

omit [Module ℚ V] in
theorem run_slopes (sys : Sys V) (pl : Plant Unit V) (meas : List V → List ℚ) (hs : ∀ i c, pl.sense () i c = .ok ((), meas c)) (dms : List DmCtl) :
    ∀ (n : ℕ) (s s' : State Unit V) (ts : List (Trace V)), runLoop sys pl s (List.replicate n dms) = .ok (s', ts) →
    ∀ (i : ℕ) (t : Trace V), ts[i]? = some t → t.slopes = meas t.seenByWfs := by
  intro n
  induction n with
  | zero =>
    intro s s' ts h i t ht
    simp [runLoop] at h
    obtain ⟨_, rfl⟩ := h
    simp at ht
  | succ n ih =>
    intro s s' ts h i t ht
    rw [List.replicate_succ] at h
    obtain ⟨u, t0, us, h1, h2, rfl⟩ := runLoop_cons sys pl s s' dms _ ts h
    cases i with
    | zero =>
      simp at ht; subst ht
      obtain ⟨_, _, _, e4, e5, _⟩ := loopFrame_ok sys pl dms s u t0 h1
      have hp : s.plant = () := rfl
      rw [hp, hs] at e4
      simp only [Except.ok.injEq, Prod.mk.injEq] at e4
      rw [e5, ← e4.2]
    | succ i => exact ih u s' us h2 i t (by simpa using ht)

/-- **C79 (the loop).** Any number of closed-loop mirrors with linear surfaces, a linear sensor `S` looking at the aberration `φ` minus the surfaces, a command matrix that inverts the interaction matrix (whose rows are minus
the measurements of minus the shape, as the code makes them), loop delay `d`: the run completes, and in frame `i` what is left of component `p` of the aberration is `leftOver d` of the mirror's gain, in the commands, and in the wavefront seen by the sensors. -/
theorem C79_loop (sys : Sys V) (pl : Plant Unit V) (dms : List DmCtl) (hne : dms ≠ []) (hclosed : ∀ m ∈ dms, m.closed = true)
    (nMeas nActs d n : ℕ) (hd : sys.loopDelay = d) (hN : 1 ≤ sys.nIters) (hstore : sys.saveDmCommands = true → nActs = nCommands dms)
    (shape : ℕ → V) (S : V →ₗ[ℚ] (ℕ → ℚ)) (φ ψ : V) (a gain : ℕ → ℚ)
    (hsurf : ∀ (k : ℕ) (m : DmCtl), dms[k]? = some m → ∀ c : List ℚ, c.length = m.nValid →
      sys.surface k c = .ok (∑ j ∈ Finset.range m.nValid, c.getD j 0 • shape (firstCommand dms k + j)))
    (hgain : ∀ (k : ℕ) (m : DmCtl), dms[k]? = some m → ∀ j, j < m.nValid → gain (firstCommand dms k + j) = m.gain)
    (hsense : ∀ i corr, pl.sense () i corr = .ok ((), (List.range nMeas).map (S (φ - corr.sum))))
    (cmat : List (List ℚ)) (hrows : cmat.length = nMeas) (hcols : ∀ r ∈ cmat, r.length = nCommands dms)
    (hprod : sys.product = tdot (nCommands dms) cmat)
    (hinv : ∀ p q, p < nCommands dms → q < nCommands dms →
      ∑ m ∈ Finset.range nMeas, (-(S (0 - shape p)) m) * (cmat.getD m []).getD q 0 = if p = q then 1 else 0)
    (hφ : φ = ψ + ∑ p ∈ Finset.range (nCommands dms), a p • shape p) (hψ : ∀ m, m < nMeas → S ψ m = 0) :
    ∃ s' ts, runLoop sys pl (initial sys dms nMeas nActs ()) (List.replicate n dms) = .ok (s', ts) ∧ ts.length = n ∧
      ∀ (i : ℕ) (t : Trace V), ts[i]? = some t →
        (∀ p, p < nCommands dms → t.cmds[p]? = some (a p - leftOver d (gain p) (a p) i)) ∧
        φ - t.seenByWfs.sum = ψ + ∑ p ∈ Finset.range (nCommands dms), leftOver d (gain p) (a p) i • shape p := by
  set nC := nCommands dms with hnC
  have hsum : (dms.map DmCtl.nValid).sum = nC := rfl
  -- the run completes
  obtain ⟨s', ts, hrun⟩ := C16_run_completes sys pl dms nMeas nActs d () (List.replicate n dms) (fun c hc => by rw [List.eq_of_mem_replicate hc])
    (fun k m hk c hc => ⟨_, hsurf k m hk c hc⟩)
    (fun m hm => by
      obtain ⟨c, e1, e2, _⟩ := tdot_get nC cmat m (by rw [hrows, hm]) hcols
      exact ⟨c, by rw [hprod]; exact e1, e2⟩)
    (fun x i c _ => ⟨(), _, hsense i c, by simp⟩) hN hd hstore
  obtain ⟨hlen, hsees⟩ := C16_who_sees_what sys pl dms nMeas nActs n () s' ts hrun
  obtain ⟨r, cs, hrec, hcs, hcmds⟩ := C17_latency sys pl d hd dms hne nMeas nActs n () s' ts hrun
  have hslopes := run_slopes sys pl (fun c => (List.range nMeas).map (S (φ - c.sum))) hsense dms n _ s' ts hrun
  refine ⟨s', ts, hrun, hlen, ?_⟩
  -- measurements of frame t, as the reconstructor gets them in frame t + 1
  let meas : ℕ → List ℚ := fun t => if t = 0 then zeros nMeas else ((ts[t - 1]?).map Trace.slopes).getD []
  have hmeas : (zeros nMeas :: ts.map Trace.slopes).take n = (List.range n).map meas := by
    apply List.ext_getElem?
    intro i
    rw [List.getElem?_take, List.getElem?_map]
    by_cases hi : i < n
    · rw [if_pos hi, List.getElem?_range hi]
      cases i with
      | zero => simp [meas]
      | succ i =>
        have : i < ts.length := by omega
        simp [meas, List.getElem?_eq_getElem this]
    · rw [if_neg hi, List.getElem?_eq_none (by simp; omega)]
      rfl
  have hmlen : ∀ t, t < n → (meas t).length = nMeas := by
    intro t ht
    by_cases h0 : t = 0
    · simp [meas, h0, zeros]
    · have : t - 1 < ts.length := by omega
      simp only [meas, h0, if_false, List.getElem?_eq_getElem this, Option.map_some, Option.getD_some]
      rw [hslopes (t - 1) _ (List.getElem?_eq_getElem this)]
      simp
  have hu : ∀ t, t < n → ∃ c, tdot nC cmat (meas t) = .ok c ∧ c.length = nC ∧ ∀ p, p < nC →
      c.getD p 0 = ∑ i ∈ Finset.range cmat.length, (cmat.getD i []).getD p 0 * (meas t).getD i 0 :=
    fun t ht => tdot_get nC cmat (meas t) (by rw [hrows, hmlen t ht]) hcols
  let u : ℕ → List ℚ := fun t => match tdot nC cmat (meas t) with | .ok c => c | .error _ => []
  have hu1 : ∀ t, t < n → sys.product (meas t) = .ok (u t) := by
    intro t ht
    obtain ⟨c, e, _⟩ := hu t ht
    rw [hprod, e]
    simp [u, e]
  have hu2 : ∀ t, t < n → (u t).length = nC := by
    intro t ht
    obtain ⟨c, e, l, _⟩ := hu t ht
    simp [u, e, l]
  have hu3 : ∀ t, t < n → ∀ p, p < nC → (u t).getD p 0 = ∑ i ∈ Finset.range nMeas, (cmat.getD i []).getD p 0 * (meas t).getD i 0 := by
    intro t ht p hp
    obtain ⟨c, e, _, g⟩ := hu t ht
    have : u t = c := by simp [u, e]
    rw [this, g p hp, hrows]
  obtain ⟨r', cs', hrec', _, hint⟩ := C10_closed_integrates dms sys.product n meas u hu1 hu2
  rw [← hmeas, hrec] at hrec'
  simp only [Except.ok.injEq, Prod.mk.injEq] at hrec'
  obtain ⟨_, rfl⟩ := hrec'
  -- commands in frame i as sums
  have hcmd : ∀ (i : ℕ) (t : Trace V), ts[i]? = some t → i < n → ∀ p, p < nC →
      t.cmds[p]? = some (∑ q ∈ Finset.range (if i < d then 0 else i - d + 1), gain p * (u q).getD p 0) := by
    intro i t ht hi p hp
    obtain ⟨⟨k, j⟩, ⟨m, hk, hj, hpe⟩, _⟩ := C11_blocks_partition dms p hp
    dsimp only at hk hj hpe
    have hc := hcmds i hi
    rw [ht, Option.map_some] at hc
    by_cases hid : i < d
    · rw [if_pos hid] at hc
      obtain ⟨c, e1, e2⟩ := hint k m hk (hclosed m (List.mem_of_getElem? hk)) j hj i hi
      rw [e1, Option.map_some, Option.some.injEq] at hc
      rw [hc, hpe, List.getElem?_map, e2, if_pos hid]
      simp
    · rw [if_neg hid] at hc
      obtain ⟨c, e1, e2⟩ := hint k m hk (hclosed m (List.mem_of_getElem? hk)) j hj (i - d) (by omega)
      rw [e1, Option.some.injEq] at hc
      rw [hc, hpe, e2, if_neg hid, hgain k m hk j hj]
      simp only [List.getD_eq_getElem?_getD]
  -- what the sensors see
  have hseen : ∀ (i : ℕ) (t : Trace V), ts[i]? = some t → i < n →
      φ - t.seenByWfs.sum = ψ + ∑ p ∈ Finset.range nC, (a p - t.cmds.getD p 0) • shape p := by
    intro i t ht hi
    obtain ⟨h1, _, h3⟩ := hsees i t ht
    have hclen : nC ≤ t.cmds.length := by
      by_contra hcon
      have := hcmd i t ht hi t.cmds.length (by omega)
      rw [List.getElem?_eq_none (le_refl _)] at this
      cases this
    have := sum_blocks_shape shape t.cmds dms 0 t.seenByWfs h1 (fun k m hk => by
      obtain ⟨x, x1, x2, _⟩ := h3 k m hk
      rw [x2, if_pos (hclosed m (List.mem_of_getElem? hk))]
      have hle : firstCommand dms k + m.nValid ≤ nC := by
        by_cases hz : m.nValid = 0
        · have : firstCommand dms k ≤ nC := by
            simp only [hnC, firstCommand, nCommands]
            conv_rhs => rw [← List.take_append_drop k dms, List.map_append, List.sum_append]
            omega
          omega
        · have := offset_lt dms k (m.nValid - 1) m hk (by omega)
          simp only [offset] at this
          simp only [hnC, firstCommand, nCommands]
          omega
      have hsl : (slice t.cmds (firstCommand dms k) (firstCommand dms k + m.nValid)).length = m.nValid := by
        simp [slice]; omega
      rw [hsurf k m hk _ hsl] at x1
      simp only [Except.ok.injEq] at x1
      rw [← x1]
      congr 1
      refine Finset.sum_congr rfl fun j hj => ?_
      rw [Finset.mem_range] at hj
      rw [Nat.zero_add]
      congr 1
      simp only [slice, List.getD_eq_getElem?_getD, List.getElem?_take, List.getElem?_drop]
      rw [if_pos (by omega)])
    rw [this, hφ, add_sub_assoc, ← Finset.sum_sub_distrib]
    congr 1
    refine Finset.sum_congr rfl fun p _ => ?_
    rw [Nat.zero_add, sub_smul]
  -- the update computed from frame t's measurements is what was left in frame t
  have hupd : ∀ (i : ℕ) (t : Trace V), ts[i]? = some t → i + 1 < n → ∀ p, p < nC →
      (u (i + 1)).getD p 0 = a p - t.cmds.getD p 0 := by
    intro i t ht hi p hp
    rw [hu3 (i + 1) hi p hp]
    have hm : ∀ k, k < nMeas → (meas (i + 1)).getD k 0 = ∑ q ∈ Finset.range nC, (a q - t.cmds.getD q 0) * (-(S (0 - shape q)) k) := by
      intro k hk
      simp only [meas, Nat.add_sub_cancel, Nat.succ_ne_zero, if_false, ht, Option.map_some, Option.getD_some]
      rw [hslopes i t ht, hseen i t ht (by omega)]
      simp only [List.getD_eq_getElem?_getD, List.getElem?_map, List.getElem?_range hk, Option.map_some, Option.getD_some]
      rw [map_add, Pi.add_apply, hψ k hk, zero_add, map_sum, Finset.sum_apply]
      refine Finset.sum_congr rfl fun q _ => ?_
      rw [map_smul, zero_sub, map_neg, Pi.smul_apply, Pi.neg_apply, neg_neg, smul_eq_mul]
    rw [Finset.sum_congr rfl fun k hk => by rw [hm k (Finset.mem_range.mp hk)]]
    simp only [Finset.mul_sum]
    rw [Finset.sum_comm]
    have : ∀ q ∈ Finset.range nC, ∑ k ∈ Finset.range nMeas,
        (cmat.getD k []).getD p 0 * ((a q - t.cmds.getD q 0) * (-(S (0 - shape q)) k)) = if q = p then a p - t.cmds.getD p 0 else 0 := by
      intro q hq
      have := hinv q p (Finset.mem_range.mp hq) hp
      rw [Finset.sum_congr rfl fun k _ => show (cmat.getD k []).getD p 0 * ((a q - t.cmds.getD q 0) * (-(S (0 - shape q)) k)) =
        (a q - t.cmds.getD q 0) * ((-(S (0 - shape q)) k) * (cmat.getD k []).getD p 0) by ring, ← Finset.mul_sum, this]
      split_ifs with h
      · rw [h, mul_one]
      · rw [mul_zero]
    rw [Finset.sum_congr rfl this, Finset.sum_ite_eq' (Finset.range nC) p, if_pos (Finset.mem_range.mpr hp)]
  have hu0 : 0 < n → ∀ p, p < nC → (u 0).getD p 0 = 0 := by
    intro h0 p hp
    rw [hu3 0 h0 p hp]
    refine Finset.sum_eq_zero fun k hk => ?_
    have : (meas 0).getD k 0 = 0 := by
      simp only [meas, if_true, zeros, List.getD_eq_getElem?_getD, List.getElem?_replicate]
      split_ifs <;> rfl
    rw [this, mul_zero]
  -- induction over frames
  have main : ∀ (i : ℕ) (t : Trace V), ts[i]? = some t → ∀ p, p < nC → t.cmds[p]? = some (a p - leftOver d (gain p) (a p) i) := by
    intro i
    induction i using Nat.strong_induction_on with
    | _ i ih =>
      intro t ht p hp
      have hi : i < n := by
        by_contra hcon
        rw [List.getElem?_eq_none (by omega)] at ht; cases ht
      rw [hcmd i t ht hi p hp, leftOver_sum]
      congr 1
      by_cases hid : i < d
      · rw [if_pos hid, show i - d = 0 by omega]
        simp
      · rw [if_neg hid, Finset.sum_range_succ', hu0 (by omega) p hp, mul_zero, add_zero, sub_sub_cancel]
        refine Finset.sum_congr rfl fun q hq => ?_
        rw [Finset.mem_range] at hq
        have hq' : q < ts.length := by omega
        have hg := List.getElem?_eq_getElem hq'
        rw [hupd q _ hg (by omega) p hp, List.getD_eq_getElem?_getD, ih q (by omega) _ hg p hp]
        simp
  intro i t ht
  refine ⟨main i t ht, ?_⟩
  have hi : i < n := by
    by_contra hcon
    rw [List.getElem?_eq_none (by omega)] at ht; cases ht
  rw [hseen i t ht hi]
  congr 1
  refine Finset.sum_congr rfl fun p hp => ?_
  rw [List.getD_eq_getElem?_getD, main i t ht p (Finset.mem_range.mp hp)]
  simp

end

/-- Gets and stays below every bound. -/
def Settles (e : ℕ → ℚ) : Prop := ∀ ε : ℚ, 0 < ε → ∃ N, ∀ n, N ≤ n → |e n| < ε

theorem pow_small (r B ε : ℚ) (h0 : 0 ≤ r) (h1 : r < 1) (hε : 0 < ε) : ∃ N : ℕ, ∀ n, N ≤ n → r ^ n * B < ε := by
  rcases le_or_gt B 0 with hB | hB
  · refine ⟨0, fun n _ => lt_of_le_of_lt ?_ hε⟩
    exact mul_nonpos_of_nonneg_of_nonpos (pow_nonneg h0 n) hB
  · obtain ⟨N, hN⟩ := exists_pow_lt_of_lt_one (div_pos hε hB) h1
    refine ⟨N, fun n hn => ?_⟩
    have : r ^ n ≤ r ^ N := pow_le_pow_of_le_one h0 h1.le hn
    rw [← lt_div_iff₀ hB]
    exact lt_of_le_of_lt this hN

/-- **C79 (no delay).** Without delay `(1 - gain)^n` of the aberration is left after `n` frames. -/
theorem C79_no_delay (g a : ℚ) (n : ℕ) : leftOver 0 g a n = (1 - g) ^ n * a := by
  induction n with
  | zero => rw [leftOver]; simp
  | succ n ih => rw [leftOver, if_pos (Nat.zero_le n), Nat.sub_zero, ih]; ring

/-- **C79 (no delay: stability).** It goes away exactly for gains between 0 and 2. -/
theorem C79_no_delay_stable (g a : ℚ) (ha : a ≠ 0) : Settles (leftOver 0 g a) ↔ 0 < g ∧ g < 2 := by
  have habs : 0 < |a| := abs_pos.mpr ha
  have key : ∀ n, |leftOver 0 g a n| = |1 - g| ^ n * |a| := fun n => by rw [C79_no_delay, abs_mul, abs_pow]
  constructor
  · intro h
    by_contra hcon
    have hge : 1 ≤ |1 - g| := by
      rcases not_and_or.mp hcon with h' | h'
      · rw [abs_of_nonneg (by linarith)]; linarith
      · rw [abs_of_nonpos (by linarith)]; linarith
    obtain ⟨N, hN⟩ := h |a| habs
    have := hN N (le_refl N)
    rw [key] at this
    have h1 : 1 ≤ |1 - g| ^ N := one_le_pow₀ hge
    nlinarith
  · rintro ⟨h0, h2⟩ ε hε
    obtain ⟨N, hN⟩ := pow_small |1 - g| |a| ε (abs_nonneg _) (by rw [abs_lt]; constructor <;> linarith) hε
    exact ⟨N, fun n hn => by rw [key]; exact hN n hn⟩

theorem leftOver_early (d : ℕ) (g a : ℚ) (m : ℕ) (h : m ≤ d) : leftOver d g a m = a := by
  rw [leftOver_sum, show m - d = 0 by omega]; simp

/-- One step in terms of what was left in a window of `2 d + 1` frames. -/
theorem leftOver_window (d : ℕ) (g a : ℚ) (n : ℕ) (h : 2 * d ≤ n) :
    leftOver d g a (n + 1) = (1 - g) * leftOver d g a n - g ^ 2 * ∑ k ∈ Finset.range d, leftOver d g a (n - 2 * d + k) := by
  have hstep : ∀ m, d ≤ m → leftOver d g a (m + 1) = leftOver d g a m - g * leftOver d g a (m - d) := by
    intro m hm; rw [leftOver, if_pos hm]
  have hdiff : ∀ j, j ≤ d → leftOver d g a (n - d + j) - leftOver d g a (n - d) = -g * ∑ k ∈ Finset.range j, leftOver d g a (n - 2 * d + k) := by
    intro j hj
    induction j with
    | zero => simp
    | succ j ih =>
      rw [← Nat.add_assoc, hstep (n - d + j) (by omega), Finset.sum_range_succ, show n - d + j - d = n - 2 * d + j by omega]
      have := ih (by omega)
      linear_combination this
  have h2 := hdiff d (le_refl d)
  rw [show n - d + d = n by omega] at h2
  rw [hstep n (by omega)]
  linear_combination g * h2

/-- **C79 (delay).** With a delay of `d` frames every aberration goes away if the gain is between 0 and 1 and less than `1 / d`, geometrically.
For `d = 1` these are all stable gains (`C79_delay_one_stable`); for longer delays some larger gains are stable too. -/
theorem C79_delay_stable (d : ℕ) (g a : ℚ) (h0 : 0 < g) (h1 : g ≤ 1) (hd : g * d < 1) :
    Settles (leftOver d g a) ∧
    ∀ q n, q * (2 * d + 1) ≤ n → |leftOver d g a n| ≤ (1 - g + g ^ 2 * d) ^ q * |a| := by
  set ρ := 1 - g + g ^ 2 * d with hρ
  have hdq : (0 : ℚ) ≤ d := Nat.cast_nonneg d
  have hρ0 : 0 ≤ ρ := by have : 0 ≤ g ^ 2 * d := by positivity
                         rw [hρ]; linarith
  have hρ1 : ρ < 1 := by have : g * (g * d) < g * 1 := mul_lt_mul_of_pos_left hd h0
                         rw [hρ]; nlinarith
  have step : ∀ (n : ℕ) (M : ℚ), 2 * d ≤ n → (∀ k, n - 2 * d ≤ k → k ≤ n → |leftOver d g a k| ≤ M) → |leftOver d g a (n + 1)| ≤ ρ * M := by
    intro n M hn hM
    rw [leftOver_window d g a n hn]
    have b1 : |(1 - g) * leftOver d g a n| ≤ (1 - g) * M := by
      rw [abs_mul, abs_of_nonneg (by linarith : 0 ≤ 1 - g)]
      exact mul_le_mul_of_nonneg_left (hM n (by omega) (le_refl n)) (by linarith)
    have b2 : |∑ k ∈ Finset.range d, leftOver d g a (n - 2 * d + k)| ≤ d * M := by
      refine (Finset.abs_sum_le_sum_abs _ _).trans ?_
      refine (Finset.sum_le_sum fun k hk => hM (n - 2 * d + k) (by omega) ?_).trans ?_
      · rw [Finset.mem_range] at hk; omega
      · simp
    have b3 : |g ^ 2 * ∑ k ∈ Finset.range d, leftOver d g a (n - 2 * d + k)| ≤ g ^ 2 * (d * M) := by
      rw [abs_mul, abs_of_nonneg (by positivity : 0 ≤ g ^ 2)]
      exact mul_le_mul_of_nonneg_left b2 (by positivity)
    refine (abs_sub _ _).trans ?_
    rw [hρ]
    nlinarith
  have early : ∀ n, n ≤ 2 * d → |leftOver d g a n| ≤ |a| := by
    intro n hn
    by_cases hle : n ≤ d
    · rw [leftOver_early d g a n hle]
    · have e : leftOver d g a n = (1 - ((n - d : ℕ) : ℚ) * g) * a := by
        rw [leftOver_sum, Finset.sum_congr rfl fun t ht => by rw [leftOver_early d g a t (by rw [Finset.mem_range] at ht; omega)]]
        simp
        ring
      rw [e, abs_mul]
      have hk : ((n - d : ℕ) : ℚ) ≤ d := by exact_mod_cast (show n - d ≤ d by omega)
      have hk0 : (0 : ℚ) ≤ ((n - d : ℕ) : ℚ) := Nat.cast_nonneg _
      have : |1 - ((n - d : ℕ) : ℚ) * g| ≤ 1 := by
        rw [abs_le]
        constructor <;> nlinarith
      nlinarith [abs_nonneg a]
  have all : ∀ n, |leftOver d g a n| ≤ |a| := by
    intro n
    induction n using Nat.strong_induction_on with
    | _ n ih =>
      by_cases hle : n ≤ 2 * d
      · exact early n hle
      · obtain ⟨m, rfl⟩ : ∃ m, n = m + 1 := ⟨n - 1, by omega⟩
        have := step m |a| (by omega) (fun k _ hk => ih k (by omega))
        nlinarith [abs_nonneg a]
  have geo : ∀ q n, q * (2 * d + 1) ≤ n → |leftOver d g a n| ≤ ρ ^ q * |a| := by
    intro q
    induction q with
    | zero => intro n _; simpa using all n
    | succ q ih =>
      intro n hn
      rw [Nat.succ_mul] at hn
      obtain ⟨m, rfl⟩ : ∃ m, n = m + 1 := ⟨n - 1, by omega⟩
      have := step m (ρ ^ q * |a|) (by omega) (fun k hk _ => ih k (by omega))
      rw [pow_succ']
      linarith
  refine ⟨fun ε hε => ?_, geo⟩
  obtain ⟨Q, hQ⟩ := pow_small ρ |a| ε hρ0 hρ1 hε
  exact ⟨Q * (2 * d + 1), fun n hn => lt_of_le_of_lt (geo Q n hn) (hQ Q (le_refl Q))⟩

/-- **C79 (one frame of delay: stability).** Exactly for gains between 0 and 1. -/
theorem C79_delay_one_stable (g a : ℚ) (ha : a ≠ 0) : Settles (leftOver 1 g a) ↔ 0 < g ∧ g < 1 := by
  constructor
  · intro h
    have hpos : 0 < g := by
      by_contra hcon
      have hg : g ≤ 0 := by linarith
      -- what is left grows
      have grow : ∀ n, 1 ≤ leftOver 1 g a n / a := by
        intro n
        induction n using Nat.strong_induction_on with
        | _ n ih =>
          cases n with
          | zero => rw [leftOver, div_self ha]
          | succ n =>
            rw [leftOver]
            split_ifs with h1
            · have e1 := ih n (by omega)
              have e2 := ih (n - 1) (by omega)
              rw [sub_div, mul_div_assoc]
              nlinarith
            · rw [sub_zero]; exact ih n (by omega)
      obtain ⟨N, hN⟩ := h |a| (abs_pos.mpr ha)
      have h1 := hN N (le_refl N)
      have h2 := grow N
      have h3 : |a| * 1 ≤ |a| * |leftOver 1 g a N / a| := mul_le_mul_of_nonneg_left (h2.trans (le_abs_self _)) (abs_nonneg a)
      rw [← abs_mul, mul_div_cancel₀ _ ha] at h3
      linarith
    refine ⟨hpos, ?_⟩
    by_contra hcon
    have hg : 1 ≤ g := by linarith
    -- a quadratic form that grows by the factor g
    have form : ∀ n, leftOver 1 g a (n + 1) ^ 2 - leftOver 1 g a (n + 1) * leftOver 1 g a n + g * leftOver 1 g a n ^ 2 = g ^ n * (g * a ^ 2) := by
      intro n
      induction n with
      | zero =>
        rw [leftOver_early 1 g a 1 (le_refl 1), leftOver_early 1 g a 0 (by omega)]
        ring
      | succ n ih =>
        rw [leftOver, if_pos (by omega), Nat.add_sub_cancel, pow_succ']
        linear_combination g * ih
    have ha2 : 0 < a ^ 2 := by positivity
    -- choose a small bound
    set ε := |a| / 2 with hε
    have hεpos : 0 < ε := by rw [hε]; have := abs_pos.mpr ha; linarith
    obtain ⟨N, hN⟩ := h ε hεpos
    have x1 := hN (N + 1) (by omega)
    have x2 := hN N (le_refl N)
    have f := form N
    have hpow : 1 ≤ g ^ N := one_le_pow₀ hg
    set x := leftOver 1 g a (N + 1)
    set y := leftOver 1 g a N
    have hx : x ^ 2 < ε ^ 2 := by rw [← sq_abs x]; nlinarith [abs_nonneg x]
    have hy : y ^ 2 < ε ^ 2 := by rw [← sq_abs y]; nlinarith [abs_nonneg y]
    have hεsq : ε ^ 2 = a ^ 2 / 4 := by rw [hε, div_pow, sq_abs]; norm_num
    have hxy : -(x * y) ≤ (x ^ 2 + y ^ 2) / 2 := by nlinarith [sq_nonneg (x + y)]
    have up : x ^ 2 - x * y + g * y ^ 2 ≤ (3 / 2) * (a ^ 2 / 4) + (g + 1 / 2) * (a ^ 2 / 4) := by nlinarith
    have low : g * a ^ 2 ≤ g ^ N * (g * a ^ 2) := by nlinarith [mul_pos hpos ha2]
    nlinarith
  · rintro ⟨h0, h1⟩
    exact (C79_delay_stable 1 g a h0 h1.le (by simpa using h1)).1

/-- **C79 (no overshoot).** With a delay of `d` frames and a gain of at most `d^d / (d+1)^(d+1)` the correction never overshoots and improves in every frame after the first `d`. -/
theorem C79_no_overshoot (d : ℕ) (g a : ℚ) (ha : 0 < a) (h0 : 0 < g) (hg : g * ((d : ℚ) + 1) ^ (d + 1) ≤ (d : ℚ) ^ d) (n : ℕ) :
    0 ≤ leftOver d g a n ∧ leftOver d g a (n + 1) ≤ leftOver d g a n ∧ (d ≤ n → leftOver d g a (n + 1) ≤ (1 - g) * leftOver d g a n) := by
  have hdq : (0 : ℚ) ≤ d := Nat.cast_nonneg d
  have hd1 : (0 : ℚ) < (d : ℚ) + 1 := by linarith
  -- invariant: not negative, decreasing, and by no more than the factor d / (d + 1)
  have inv : ∀ n, (∀ k, k ≤ n → 0 ≤ leftOver d g a k) ∧
      (∀ k, k < n → leftOver d g a (k + 1) ≤ leftOver d g a k ∧ (d : ℚ) * leftOver d g a k ≤ ((d : ℚ) + 1) * leftOver d g a (k + 1)) := by
    intro n
    induction n with
    | zero =>
      refine ⟨fun k hk => ?_, fun k hk => by omega⟩
      rw [leftOver_early d g a k (by omega)]; exact ha.le
    | succ n ih =>
      obtain ⟨i1, i2⟩ := ih
      have new : leftOver d g a (n + 1) ≤ leftOver d g a n ∧ (d : ℚ) * leftOver d g a n ≤ ((d : ℚ) + 1) * leftOver d g a (n + 1) ∧
          0 ≤ leftOver d g a (n + 1) := by
        by_cases hdn : d ≤ n
        · -- what was left d frames ago
          have back : ∀ j, j ≤ d → (d : ℚ) ^ j * leftOver d g a (n - j) ≤ ((d : ℚ) + 1) ^ j * leftOver d g a n := by
            intro j hj
            induction j with
            | zero => simp
            | succ j ihj =>
              have e := (i2 (n - (j + 1)) (by omega)).2
              rw [show n - (j + 1) + 1 = n - j by omega] at e
              have e2 := ihj (by omega)
              have p1 : (0 : ℚ) ≤ (d : ℚ) ^ j := pow_nonneg hdq j
              calc (d : ℚ) ^ (j + 1) * leftOver d g a (n - (j + 1)) = (d : ℚ) ^ j * ((d : ℚ) * leftOver d g a (n - (j + 1))) := by ring
                _ ≤ (d : ℚ) ^ j * (((d : ℚ) + 1) * leftOver d g a (n - j)) := mul_le_mul_of_nonneg_left e p1
                _ = ((d : ℚ) + 1) * ((d : ℚ) ^ j * leftOver d g a (n - j)) := by ring
                _ ≤ ((d : ℚ) + 1) * (((d : ℚ) + 1) ^ j * leftOver d g a n) := mul_le_mul_of_nonneg_left e2 hd1.le
                _ = _ := by ring
          have b := back d (le_refl d)
          have hold := i1 (n - d) (by omega)
          have hnow := i1 n (le_refl n)
          rw [leftOver, if_pos hdn]
          have hpow : (0 : ℚ) < ((d : ℚ) + 1) ^ d := pow_pos hd1 d
          -- (d+1) g e_{n-d} ≤ e_n
          have main : ((d : ℚ) + 1) * (g * leftOver d g a (n - d)) ≤ leftOver d g a n := by
            have h1 : g * ((d : ℚ) + 1) ^ (d + 1) * leftOver d g a (n - d) ≤ (d : ℚ) ^ d * leftOver d g a (n - d) := mul_le_mul_of_nonneg_right hg hold
            have h2 : ((d : ℚ) + 1) ^ d * (((d : ℚ) + 1) * (g * leftOver d g a (n - d))) ≤ ((d : ℚ) + 1) ^ d * leftOver d g a n := by
              calc _ = g * ((d : ℚ) + 1) ^ (d + 1) * leftOver d g a (n - d) := by ring
                _ ≤ _ := h1
                _ ≤ _ := b
            exact le_of_mul_le_mul_left h2 hpow
          have hgo : 0 ≤ g * leftOver d g a (n - d) := mul_nonneg h0.le hold
          have lower : (d : ℚ) * leftOver d g a n ≤ ((d : ℚ) + 1) * (leftOver d g a n - g * leftOver d g a (n - d)) := by nlinarith
          refine ⟨by linarith, lower, ?_⟩
          have : 0 ≤ ((d : ℚ) + 1) * (leftOver d g a n - g * leftOver d g a (n - d)) := le_trans (mul_nonneg hdq hnow) lower
          exact nonneg_of_mul_nonneg_right this hd1
        · rw [leftOver_early d g a (n + 1) (by omega), leftOver_early d g a n (by omega)]
          refine ⟨le_refl _, by nlinarith, ha.le⟩
      refine ⟨fun k hk => ?_, fun k hk => ?_⟩
      · rcases Nat.lt_or_ge k (n + 1) with h | h
        · exact i1 k (by omega)
        · rw [show k = n + 1 by omega]; exact new.2.2
      · rcases Nat.lt_or_ge k n with h | h
        · exact i2 k h
        · rw [show k = n by omega]; exact ⟨new.1, new.2.1⟩
  have hn := (inv (n + 1)).2 n (by omega)
  refine ⟨(inv n).1 n (le_refl n), hn.1, fun hdn => ?_⟩
  have mono : ∀ j, j ≤ n → leftOver d g a n ≤ leftOver d g a (n - j) := by
    intro j hj
    induction j with
    | zero => exact le_refl _
    | succ j ihj =>
      have := ((inv n).2 (n - (j + 1)) (by omega)).1
      rw [show n - (j + 1) + 1 = n - j by omega] at this
      exact (ihj (by omega)).trans this
  have hm := mono d hdn
  rw [leftOver, if_pos hdn]
  nlinarith

/-- Two frames of delay, gain 1/10: within the condition of `C79_no_overshoot` (4/27). -/
example : (1 / 10 : ℚ) * ((2 : ℕ) + 1) ^ (2 + 1) ≤ ((2 : ℕ) : ℚ) ^ 2 := by norm_num

/-- A mirror with two actuators and a tip-tilt-like mirror with one, seen by a sensor of four measurements. -/
def convShape : ℕ → (ℕ → ℚ)
  | 0 => fun m => if m = 0 then 2 else 0
  | 1 => fun m => if m = 0 then 1 else if m = 1 then 1 else 0
  | _ => fun m => if m = 2 then 1 else if m = 3 then 1 else 0

def convDms : List DmCtl := [⟨2, true, 1 / 2⟩, ⟨1, true, 1 / 4⟩]

def convPhi : ℕ → ℚ := 0 + ∑ p ∈ Finset.range (nCommands convDms), ((p : ℚ) + 3) • convShape p

def convSys : Sys (ℕ → ℚ) where
  surface := fun k c => .ok (∑ j ∈ Finset.range (if k = 0 then 2 else 1), c.getD j 0 • convShape (firstCommand convDms k + j))
  product := tdot 3 [[1 / 2, 0, 0], [-1 / 2, 1, 0], [0, 0, 1 / 2], [0, 0, 1 / 2]]
  loopDelay := 1
  nIters := 5
  saveSlopes := true
  saveDmCommands := true

def convPlant : Plant Unit (ℕ → ℚ) where
  sense := fun _ _ corr => .ok ((), (List.range 4).map (convPhi - corr.sum))

/-- All hypotheses of `C79_loop` are met, for any number of frames. -/
example (n : ℕ) : ∃ s' ts, runLoop convSys convPlant (initial convSys convDms 4 3 ()) (List.replicate n convDms) = .ok (s', ts) ∧ ts.length = n ∧
    ∀ (i : ℕ) (t : Trace (ℕ → ℚ)), ts[i]? = some t → t.cmds[2]? = some (5 - leftOver 1 (1 / 4) 5 i) := by
  have h := C79_loop convSys convPlant convDms (by simp [convDms]) (by simp [convDms]) 4 3 1 n rfl (by decide) (fun _ => rfl) convShape LinearMap.id
    convPhi 0 (fun p => (p : ℚ) + 3) (fun p => if p < 2 then 1 / 2 else 1 / 4)
    (by
      intro k m hk c _
      match k with
      | 0 => simp [convDms] at hk; subst hk; rfl
      | 1 => simp [convDms] at hk; subst hk; rfl
      | k + 2 => simp [convDms] at hk)
    (by
      intro k m hk j hj
      match k with
      | 0 => simp [convDms] at hk; subst hk; simp at hj; simp [firstCommand, hj]
      | 1 => simp [convDms] at hk; subst hk; simp at hj; subst hj; simp [firstCommand, convDms]
      | k + 2 => simp [convDms] at hk)
    (fun _ _ => rfl) [[1 / 2, 0, 0], [-1 / 2, 1, 0], [0, 0, 1 / 2], [0, 0, 1 / 2]] rfl (by simp [nCommands, convDms]) rfl
    (by
      have hn : nCommands convDms = 3 := rfl
      intro p q hp hq
      rw [hn] at hp hq
      have hp3 : p = 0 ∨ p = 1 ∨ p = 2 := by omega
      have hq3 : q = 0 ∨ q = 1 ∨ q = 2 := by omega
      rcases hp3 with rfl | rfl | rfl <;> rcases hq3 with rfl | rfl | rfl <;>
        simp [Finset.sum_range_succ, convShape] <;> norm_num)
    rfl (by simp)
  obtain ⟨s', ts, h1, h2, h3⟩ := h
  refine ⟨s', ts, h1, h2, fun i t ht => ?_⟩
  have := (h3 i t ht).1 2 (by decide)
  norm_num at this
  exact this

end Soapy.Props
