/-
Property theorems C157: open-loop and closed-loop mirrors in one simulation.
-/
import Verif.Props.WholeFit

namespace Soapy.Props

open Soapy.Loop Soapy.Control Soapy.Vec

/-- The command that an open-loop mirror is given after the measurements of `n` frames with the values `f`: in every frame the new value with weight `g` and the command before with weight `1 - g`. -/
def smooth (g : ℚ) (f : ℕ → ℚ) : ℕ → ℚ
  | 0 => 0
  | n + 1 => g * f n + (1 - g) * smooth g f n

theorem smooth_sum (g : ℚ) (f : ℕ → ℚ) (n : ℕ) : smooth g f n = ∑ q ∈ Finset.range n, g * (1 - g) ^ (n - 1 - q) * f q := by
  induction n with
  | zero => rfl
  | succ n ih =>
    rw [smooth, ih, Finset.sum_range_succ, Nat.add_sub_cancel, Nat.sub_self, pow_zero, mul_one, Finset.mul_sum, add_comm]
    congr 1
    refine Finset.sum_congr rfl fun q hq => ?_
    rw [Finset.mem_range] at hq
    rw [show n - q = (n - 1 - q) + 1 by omega, pow_succ]
    ring

section

variable {V : Type} [AddCommGroup V] [Module ℚ V]

/-- **C157 (the loop).** Mirrors with linear surfaces, some in closed and some in open loop, a linear sensor that looks at the aberration minus the closed-loop surfaces and errs by `err`, a command matrix that inverts the interaction matrix of all mirrors, loop delay `d`: the run completes;
the commands of a closed-loop mirror are those of C110, whatever the open-loop mirrors do, and the command of an open-loop mirror is the weighted mean (`smooth`) of its component of the aberration and the errors, late by the delay, whatever the closed-loop mirrors do. -/
theorem C157_loop (sys : Sys V) (pl : Plant Unit V) (dms : List DmCtl) (hne : dms ≠ [])
    (nMeas nActs d n : ℕ) (hd : sys.loopDelay = d) (hN : 1 ≤ sys.nIters) (hstore : sys.saveDmCommands = true → nActs = nCommands dms)
    (shape : ℕ → V) (S : V →ₗ[ℚ] (ℕ → ℚ)) (φ ψ : ℕ → V) (a err : ℕ → ℕ → ℚ) (gain : ℕ → ℚ) (closed : ℕ → Bool)
    (hsurf : ∀ (k : ℕ) (m : DmCtl), dms[k]? = some m → ∀ c : List ℚ, c.length = m.nValid →
      sys.surface k c = .ok (∑ j ∈ Finset.range m.nValid, c.getD j 0 • shape (firstCommand dms k + j)))
    (hgain : ∀ (k : ℕ) (m : DmCtl), dms[k]? = some m → ∀ j, j < m.nValid → gain (firstCommand dms k + j) = m.gain)
    (hclosed : ∀ (k : ℕ) (m : DmCtl), dms[k]? = some m → ∀ j, j < m.nValid → closed (firstCommand dms k + j) = m.closed)
    (hsense : ∀ i corr, pl.sense () i corr = .ok ((), (List.range nMeas).map fun m => S (φ i - corr.sum) m + err i m))
    (cmat : List (List ℚ)) (hrows : cmat.length = nMeas) (hcols : ∀ r ∈ cmat, r.length = nCommands dms)
    (hprod : sys.product = tdot (nCommands dms) cmat)
    (hinv : ∀ p q, p < nCommands dms → q < nCommands dms →
      ∑ m ∈ Finset.range nMeas, (-(S (0 - shape p)) m) * (cmat.getD m []).getD q 0 = if p = q then 1 else 0)
    (hφ : ∀ i, φ i = ψ i + ∑ p ∈ Finset.range (nCommands dms), a i p • shape p) :
    ∃ s' ts, runLoop sys pl (initial sys dms nMeas nActs ()) (List.replicate n dms) = .ok (s', ts) ∧ ts.length = n ∧
      ∀ (i : ℕ) (t : Trace V), ts[i]? = some t →
        (∀ p, p < nCommands dms → t.cmds[p]? = some (if closed p then a i p - lag d (gain p) (fun k => a k p) (fun k => ∑ m ∈ Finset.range nMeas, (cmat.getD m []).getD p 0 * (S (ψ k) m + err k m)) i
          else smooth (gain p) (fun k => a k p + ∑ m ∈ Finset.range nMeas, (cmat.getD m []).getD p 0 * (S (ψ k) m + err k m)) (i - d))) ∧
        t.seenByWfs.sum = ∑ p ∈ Finset.range (nCommands dms), (if closed p then t.cmds.getD p 0 else 0) • shape p ∧
        t.seenBySci.sum = ∑ p ∈ Finset.range (nCommands dms), t.cmds.getD p 0 • shape p := by
  set nC := nCommands dms with hnC
  have hsum : (dms.map DmCtl.nValid).sum = nC := rfl
  -- the run completes
  obtain ⟨s', ts, hrun⟩ := C16_run_completes sys pl dms nMeas nActs d () (List.replicate n dms) (fun c hc => by rw [List.eq_of_mem_replicate hc])
    (fun k m hk c hc => ⟨_, hsurf k m hk c hc⟩)
    (fun m hm => by
      obtain ⟨c, e1, e2, _⟩ := tdot_get nC cmat m (by rw [hrows, hm]) hcols
      exact ⟨c, by rw [hprod]; exact e1, e2⟩)
    (fun x i c _ => ⟨(), _, hsense i c, by simp⟩) hN hd hstore
  obtain ⟨hlen, hsees⟩ := C16_who_sees_what sys pl dms nMeas nActs n () s' ts hrun
  obtain ⟨r, cs, hrec, hcs, hcmds⟩ := C17_latency sys pl d hd dms hne nMeas nActs n () s' ts hrun
  have hslopes := run_slopes_at sys pl (fun i c => (List.range nMeas).map fun m => S (φ i - c.sum) m + err i m) hsense dms n _ s' ts hrun
  simp only [initial, Nat.zero_add] at hslopes
  refine ⟨s', ts, hrun, hlen, ?_⟩
  -- measurements of frame t, as the reconstructor gets them in frame t + 1
  let meas : ℕ → List ℚ := fun t => if t = 0 then zeros nMeas else ((ts[t - 1]?).map Trace.slopes).getD []
  have hmeas : (zeros nMeas :: ts.map Trace.slopes).take n = (List.range n).map meas := by
    apply List.ext_getElem?
    intro i
    rw [List.getElem?_take, List.getElem?_map]
    by_cases hi : i < n
    · rw [if_pos hi, List.getElem?_range hi]
      cases i with
      | zero => simp [meas]
      | succ i =>
        have : i < ts.length := by omega
        simp [meas, List.getElem?_eq_getElem this]
    · rw [if_neg hi, List.getElem?_eq_none (by simp; omega)]
      rfl
  have hmlen : ∀ t, t < n → (meas t).length = nMeas := by
    intro t ht
    by_cases h0 : t = 0
    · simp [meas, h0, zeros]
    · have : t - 1 < ts.length := by omega
      simp only [meas, h0, if_false, List.getElem?_eq_getElem this, Option.map_some, Option.getD_some]
      rw [hslopes (t - 1) _ (List.getElem?_eq_getElem this)]
      simp
  have hu : ∀ t, t < n → ∃ c, tdot nC cmat (meas t) = .ok c ∧ c.length = nC ∧ ∀ p, p < nC →
      c.getD p 0 = ∑ i ∈ Finset.range cmat.length, (cmat.getD i []).getD p 0 * (meas t).getD i 0 :=
    fun t ht => tdot_get nC cmat (meas t) (by rw [hrows, hmlen t ht]) hcols
  let u : ℕ → List ℚ := fun t => match tdot nC cmat (meas t) with | .ok c => c | .error _ => []
  have hu1 : ∀ t, t < n → sys.product (meas t) = .ok (u t) := by
    intro t ht
    obtain ⟨c, e, _⟩ := hu t ht
    rw [hprod, e]
    simp [u, e]
  have hu2 : ∀ t, t < n → (u t).length = nC := by
    intro t ht
    obtain ⟨c, e, l, _⟩ := hu t ht
    simp [u, e, l]
  have hu3 : ∀ t, t < n → ∀ p, p < nC → (u t).getD p 0 = ∑ i ∈ Finset.range nMeas, (cmat.getD i []).getD p 0 * (meas t).getD i 0 := by
    intro t ht p hp
    obtain ⟨c, e, _, g⟩ := hu t ht
    have : u t = c := by simp [u, e]
    rw [this, g p hp, hrows]
  obtain ⟨r', cs', hrec', _, hint⟩ := C10_closed_integrates dms sys.product n meas u hu1 hu2
  rw [← hmeas, hrec] at hrec'
  simp only [Except.ok.injEq, Prod.mk.injEq] at hrec'
  obtain ⟨_, rfl⟩ := hrec'
  obtain ⟨r'', cs'', hrec'', _, hopen⟩ := C10_open_averages dms sys.product n meas u hu1 hu2
  rw [← hmeas, hrec] at hrec''
  simp only [Except.ok.injEq, Prod.mk.injEq] at hrec''
  obtain ⟨_, rfl⟩ := hrec''
  -- commands in frame i as sums
  have hcmd : ∀ (i : ℕ) (t : Trace V), ts[i]? = some t → i < n → ∀ p, p < nC →
      t.cmds[p]? = some (if closed p then ∑ q ∈ Finset.range (if i < d then 0 else i - d + 1), gain p * (u q).getD p 0
        else ∑ q ∈ Finset.range (if i < d then 0 else i - d + 1), gain p * (1 - gain p) ^ (i - d - q) * (u q).getD p 0) := by
    intro i t ht hi p hp
    obtain ⟨⟨k, j⟩, ⟨m, hk, hj, hpe⟩, _⟩ := C11_blocks_partition dms p hp
    dsimp only at hk hj hpe
    have hc := hcmds i hi
    rw [ht, Option.map_some] at hc
    have hcl := hclosed k m hk j hj
    rw [← hpe] at hcl
    cases hmc : m.closed with
    | true =>
      rw [hcl, hmc, if_pos rfl]
      by_cases hid : i < d
      · rw [if_pos hid] at hc
        obtain ⟨c, e1, e2⟩ := hint k m hk hmc j hj i hi
        rw [e1, Option.map_some, Option.some.injEq] at hc
        rw [hc, hpe, List.getElem?_map, e2, if_pos hid]
        simp
      · rw [if_neg hid] at hc
        obtain ⟨c, e1, e2⟩ := hint k m hk hmc j hj (i - d) (by omega)
        rw [e1, Option.some.injEq] at hc
        rw [hc, hpe, e2, if_neg hid, hgain k m hk j hj]
        simp only [List.getD_eq_getElem?_getD]
    | false =>
      rw [hcl, hmc, if_neg Bool.false_ne_true]
      by_cases hid : i < d
      · rw [if_pos hid] at hc
        obtain ⟨c, e1, e2⟩ := hopen k m hk hmc j hj i hi
        rw [e1, Option.map_some, Option.some.injEq] at hc
        rw [hc, hpe, List.getElem?_map, e2, if_pos hid]
        simp
      · rw [if_neg hid] at hc
        obtain ⟨c, e1, e2⟩ := hopen k m hk hmc j hj (i - d) (by omega)
        rw [e1, Option.some.injEq] at hc
        rw [hc, hpe, e2, if_neg hid, hgain k m hk j hj]
        simp only [List.getD_eq_getElem?_getD]
  have hfit : ∀ (k : ℕ) (m : DmCtl), dms[k]? = some m → firstCommand dms k + m.nValid ≤ nC := by
    intro k m hk
    by_cases hz : m.nValid = 0
    · have : firstCommand dms k ≤ nC := by
        simp only [hnC, firstCommand, nCommands]
        conv_rhs => rw [← List.take_append_drop k dms, List.map_append, List.sum_append]
        omega
      omega
    · have := offset_lt dms k (m.nValid - 1) m hk (by omega)
      simp only [offset] at this
      simp only [hnC, firstCommand, nCommands]
      omega
  -- what everybody sees
  have hboth : ∀ (i : ℕ) (t : Trace V), ts[i]? = some t → i < n →
      t.seenByWfs.sum = ∑ p ∈ Finset.range nC, (if closed p then t.cmds.getD p 0 else 0) • shape p ∧ t.seenBySci.sum = ∑ p ∈ Finset.range nC, t.cmds.getD p 0 • shape p := by
    intro i t ht hi
    obtain ⟨h1, h2, h3⟩ := hsees i t ht
    have hclen : nC ≤ t.cmds.length := by
      by_contra hcon
      have := hcmd i t ht hi t.cmds.length (by omega)
      rw [List.getElem?_eq_none (le_refl _)] at this
      cases this
    have hx : ∀ (k : ℕ) (m : DmCtl), dms[k]? = some m → ∀ x, sys.surface k (slice t.cmds (firstCommand dms k) (firstCommand dms k + m.nValid)) = .ok x →
        x = ∑ j ∈ Finset.range m.nValid, t.cmds.getD (firstCommand dms k + j) 0 • shape (firstCommand dms k + j) := by
      intro k m hk x x1
      have hle := hfit k m hk
      have hsl : (slice t.cmds (firstCommand dms k) (firstCommand dms k + m.nValid)).length = m.nValid := by
        simp [slice]; omega
      rw [hsurf k m hk _ hsl] at x1
      simp only [Except.ok.injEq] at x1
      rw [← x1]
      refine Finset.sum_congr rfl fun j hj => ?_
      rw [Finset.mem_range] at hj
      congr 1
      simp only [slice, List.getD_eq_getElem?_getD, List.getElem?_take, List.getElem?_drop]
      rw [if_pos (by omega)]
    constructor
    · have := sum_blocks_shape shape ((List.range nC).map fun p => if closed p then t.cmds.getD p 0 else 0) dms 0 t.seenByWfs h1 (fun k m hk => by
        obtain ⟨x, x1, x2, _⟩ := h3 k m hk
        have hle := hfit k m hk
        rw [x2, hx k m hk x x1]
        congr 1
        split_ifs with hmc
        · refine Finset.sum_congr rfl fun j hj => ?_
          rw [Finset.mem_range] at hj
          rw [Nat.zero_add, List.getD_eq_getElem?_getD (l := List.map _ _), List.getElem?_map, List.getElem?_range (by omega), Option.map_some, Option.getD_some, hclosed k m hk j hj, if_pos hmc]
        · refine (Finset.sum_eq_zero fun j hj => ?_).symm
          rw [Finset.mem_range] at hj
          rw [Nat.zero_add, List.getD_eq_getElem?_getD (l := List.map _ _), List.getElem?_map, List.getElem?_range (by omega), Option.map_some, Option.getD_some, hclosed k m hk j hj, if_neg hmc, zero_smul])
      rw [this]
      refine Finset.sum_congr rfl fun p hp => ?_
      rw [Finset.mem_range] at hp
      rw [Nat.zero_add, List.getD_eq_getElem?_getD (l := List.map _ _), List.getElem?_map, List.getElem?_range hp, Option.map_some, Option.getD_some]
    · have := sum_blocks_shape shape t.cmds dms 0 t.seenBySci h2 (fun k m hk => by
        obtain ⟨x, x1, _, x3⟩ := h3 k m hk
        rw [x3, hx k m hk x x1]
        simp only [Nat.zero_add])
      rw [this]
      simp only [Nat.zero_add]
      rfl
  have hseen : ∀ (i : ℕ) (t : Trace V), ts[i]? = some t → i < n →
      φ i - t.seenByWfs.sum = ψ i + ∑ p ∈ Finset.range nC, (a i p - if closed p then t.cmds.getD p 0 else 0) • shape p := by
    intro i t ht hi
    rw [(hboth i t ht hi).1, hφ i, add_sub_assoc, ← Finset.sum_sub_distrib]
    congr 1
    refine Finset.sum_congr rfl fun p _ => ?_
    rw [sub_smul]
  let E : Trace V → ℕ → ℚ := fun t p => if closed p then t.cmds.getD p 0 else 0
  have hseen' : ∀ (i : ℕ) (t : Trace V), ts[i]? = some t → i < n → φ i - t.seenByWfs.sum = ψ i + ∑ p ∈ Finset.range nC, (a i p - E t p) • shape p := hseen
  -- the update computed from frame t's measurements is what was left in frame t and the error of its measurements
  have hupd : ∀ (i : ℕ) (t : Trace V), ts[i]? = some t → i + 1 < n → ∀ p, p < nC →
      (u (i + 1)).getD p 0 = a i p - E t p + ∑ m ∈ Finset.range nMeas, (cmat.getD m []).getD p 0 * (S (ψ i) m + err i m) := by
    intro i t ht hi p hp
    rw [hu3 (i + 1) hi p hp]
    have hm : ∀ k, k < nMeas → (meas (i + 1)).getD k 0 = (S (ψ i) k + err i k) + ∑ q ∈ Finset.range nC, (a i q - E t q) * (-(S (0 - shape q)) k) := by
      intro k hk
      simp only [meas, Nat.add_sub_cancel, Nat.succ_ne_zero, if_false, ht, Option.map_some, Option.getD_some]
      rw [hslopes i t ht, hseen' i t ht (by omega)]
      simp only [List.getD_eq_getElem?_getD, List.getElem?_map, List.getElem?_range hk, Option.map_some, Option.getD_some]
      rw [map_add, Pi.add_apply, map_sum, Finset.sum_apply]
      have : ∑ q ∈ Finset.range nC, S ((a i q - E t q) • shape q) k = ∑ q ∈ Finset.range nC, (a i q - E t q) * (-(S (0 - shape q)) k) := by
        refine Finset.sum_congr rfl fun q _ => ?_
        rw [map_smul, zero_sub, map_neg, Pi.smul_apply, Pi.neg_apply, neg_neg, smul_eq_mul]
      simp only [this]
      ring
    rw [Finset.sum_congr rfl fun k hk => by rw [hm k (Finset.mem_range.mp hk)]]
    simp only [mul_add (_ : ℚ) (S (ψ i) _ + err i _), Finset.sum_add_distrib, Finset.mul_sum]
    rw [Finset.sum_comm]
    have : ∀ q ∈ Finset.range nC, ∑ k ∈ Finset.range nMeas,
        (cmat.getD k []).getD p 0 * ((a i q - E t q) * (-(S (0 - shape q)) k)) = if q = p then a i p - E t p else 0 := by
      intro q hq
      have := hinv q p (Finset.mem_range.mp hq) hp
      rw [Finset.sum_congr rfl fun k _ => show (cmat.getD k []).getD p 0 * ((a i q - E t q) * (-(S (0 - shape q)) k)) =
        (a i q - E t q) * ((-(S (0 - shape q)) k) * (cmat.getD k []).getD p 0) by ring, ← Finset.mul_sum, this]
      split_ifs with h
      · rw [h, mul_one]
      · rw [mul_zero]
    rw [Finset.sum_congr rfl this, Finset.sum_ite_eq' (Finset.range nC) p, if_pos (Finset.mem_range.mpr hp), add_comm]
  have hu0 : 0 < n → ∀ p, p < nC → (u 0).getD p 0 = 0 := by
    intro h0 p hp
    rw [hu3 0 h0 p hp]
    refine Finset.sum_eq_zero fun k hk => ?_
    have : (meas 0).getD k 0 = 0 := by
      simp only [meas, if_true, zeros, List.getD_eq_getElem?_getD, List.getElem?_replicate]
      split_ifs <;> rfl
    rw [this, mul_zero]
  -- induction over frames
  have main : ∀ (i : ℕ) (t : Trace V), ts[i]? = some t → ∀ p, p < nC → t.cmds[p]? = some (if closed p then a i p - lag d (gain p) (fun k => a k p) (fun k => ∑ m ∈ Finset.range nMeas, (cmat.getD m []).getD p 0 * (S (ψ k) m + err k m)) i
      else smooth (gain p) (fun k => a k p + ∑ m ∈ Finset.range nMeas, (cmat.getD m []).getD p 0 * (S (ψ k) m + err k m)) (i - d)) := by
    intro i
    induction i using Nat.strong_induction_on with
    | _ i ih =>
      intro t ht p hp
      have hi : i < n := by
        by_contra hcon
        rw [List.getElem?_eq_none (by omega)] at ht; cases ht
      rw [hcmd i t ht hi p hp]
      congr 1
      cases hcl : closed p with
      | true =>
        rw [if_pos rfl, if_pos rfl, lag_sum]
        by_cases hid : i < d
        · rw [if_pos hid, show i - d = 0 by omega]
          simp
        · rw [if_neg hid, Finset.sum_range_succ', hu0 (by omega) p hp, mul_zero, add_zero, sub_sub_cancel]
          refine Finset.sum_congr rfl fun q hq => ?_
          rw [Finset.mem_range] at hq
          have hq' : q < ts.length := by omega
          have hg := List.getElem?_eq_getElem hq'
          have hE : E ts[q] p = ts[q].cmds.getD p 0 := by simp only [E, hcl, if_true]
          rw [hupd q _ hg (by omega) p hp, hE, List.getD_eq_getElem?_getD, ih q (by omega) _ hg p hp, hcl, if_pos rfl]
          simp
      | false =>
        rw [if_neg Bool.false_ne_true, if_neg Bool.false_ne_true, smooth_sum]
        by_cases hid : i < d
        · rw [if_pos hid, show i - d = 0 by omega]
          simp
        · rw [if_neg hid, Finset.sum_range_succ', hu0 (by omega) p hp, mul_zero, add_zero]
          refine Finset.sum_congr rfl fun q hq => ?_
          rw [Finset.mem_range] at hq
          have hq' : q < ts.length := by omega
          have hg := List.getElem?_eq_getElem hq'
          have hE : E ts[q] p = 0 := by simp only [E, hcl, Bool.false_eq_true, if_false]
          rw [hupd q _ hg (by omega) p hp, hE, sub_zero, show i - d - (q + 1) = i - d - 1 - q by omega]
  intro i t ht
  have hi : i < n := by
    by_contra hcon
    rw [List.getElem?_eq_none (by omega)] at ht; cases ht
  exact ⟨main i t ht, hboth i t ht hi⟩

end

/-! ### The whole simulation -/

section

open Soapy.Mirror Soapy.Interp Soapy.Los Soapy.Whole

/-- Whether the mirror of a command is in closed loop. -/
def closedOf : List DmCtl → ℕ → Bool
  | [], _ => false
  | m :: ms, p => if p < m.nValid then m.closed else closedOf ms (p - m.nValid)

theorem closedOf_get : ∀ (ms : List DmCtl) (k : ℕ) (m : DmCtl), ms[k]? = some m → ∀ j, j < m.nValid → closedOf ms (firstCommand ms k + j) = m.closed
  | [], _, _, h, _, _ => by simp at h
  | x :: ms, 0, m, h, j, hj => by
    simp at h; subst h
    simp [firstCommand, closedOf, hj]
  | x :: ms, k + 1, m, h, j, hj => by
    have := closedOf_get ms k m (by simpa using h) j hj
    simp only [firstCommand] at this ⊢
    rw [List.take_succ_cons, List.map_cons, List.sum_cons, closedOf, if_neg (by omega), ← this]
    congr 1
    omega

theorem mixedControls_get (dms : List Persist.Dm) (modes : List (Bool × ℚ)) (hg : modes.length = dms.length) (k : ℕ) (m : DmCtl) (h : (mixedControls dms modes)[k]? = some m) :
    ∃ d, dms[k]? = some d ∧ m.nValid = d.shapes.length ∧ modes[k]? = some (m.closed, m.gain) := by
  unfold mixedControls at h
  rw [List.getElem?_zipWith] at h
  cases h1 : dms[k]? with
  | none => simp [h1] at h
  | some d =>
    cases h2 : modes[k]? with
    | none => simp [h1, h2] at h
    | some g =>
      simp [h1, h2] at h
      subst h
      exact ⟨d, rfl, rfl, rfl⟩

theorem mixedControls_valid (dms : List Persist.Dm) (modes : List (Bool × ℚ)) (hg : modes.length = dms.length) : (mixedControls dms modes).map DmCtl.nValid = dms.map fun d => d.shapes.length := by
  induction dms generalizing modes with
  | nil => simp [mixedControls]
  | cons d ds ih =>
    cases modes with
    | nil => simp at hg
    | cons g gs =>
      have := ih gs (by simpa using hg)
      simpa [mixedControls] using this

/-- The general form: the sensors measure what is left of the atmosphere behind the closed-loop mirrors, with the errors `err`. -/
theorem mixed_any (o : Optics) (ho : Optics.Sound o) (totalActs : ℕ) (dms dms' : List Persist.Dm) (M : List (List ℚ)) (hcal : o.calibrate totalActs dms = .ok (dms', M))
    (hne : dms ≠ []) (hdms : ∀ d ∈ dms, d.shapes.length = d.nActs ∧ (o.scrn + d.nElem) % 2 = 0) (hkept : ∀ d ∈ dms', d.shapes ≠ [])
    (P : List (List ℚ)) (hrows : P.length = o.totalMeas) (hcols : ∀ r ∈ P, r.length = M.length) (hinv : Undoes P M)
    (modes : List (Bool × ℚ)) (hg : modes.length = dms.length) (d nIters nActs n : ℕ) (hN : 1 ≤ nIters) (saveSlopes saveDm : Bool) (hstore : saveDm = true → nActs = M.length) (turb : ℕ → ℕ → ℕ → ℕ → ℚ) (pl : Plant Unit Stack) (err : ℕ → ℕ → ℚ)
    (hpl : ∀ i corr, pl.sense () i corr = .ok ((), (List.range o.totalMeas).map fun m => senses o ((turb i, 0) - corr.sum) m + err i m)) :
    ∃ s' ts, runLoop (o.sys dms' P d nIters saveSlopes saveDm) pl (initial (o.sys dms' P d nIters saveSlopes saveDm) (mixedControls dms' modes) o.totalMeas nActs ()) (List.replicate n (mixedControls dms' modes)) = .ok (s', ts) ∧
      ts.length = n ∧ ∀ (i : ℕ) (t : Trace Stack), ts[i]? = some t →
        (∀ p, p < M.length → t.cmds[p]? = some (if closedOf (mixedControls dms' modes) p
          then reconstructed P (o.uncorrected (turb i)) p - lag d (gainOf (mixedControls dms' modes) p) (fun k => reconstructed P (o.uncorrected (turb k)) p) (fun k => ∑ m ∈ Finset.range o.totalMeas, (P.getD m []).getD p 0 * err k m) i
          else smooth (gainOf (mixedControls dms' modes) p) (fun k => reconstructed P (o.uncorrected (turb k)) p + ∑ m ∈ Finset.range o.totalMeas, (P.getD m []).getD p 0 * err k m) (i - d))) ∧
        (t.slopes = (List.range o.totalMeas).map fun m => (o.uncorrected (turb i)).getD m 0 - (∑ p ∈ Finset.range M.length, (if closedOf (mixedControls dms' modes) p then t.cmds.getD p 0 else 0) * (M.getD p []).getD m 0) + err i m) ∧
        t.seenBySci.sum = ∑ p ∈ Finset.range M.length, t.cmds.getD p 0 • shapeAt o 0 dms' p := by
  obtain ⟨hl, hML, hrow⟩ := calibrate_rows o ho totalActs dms dms' M hcal hdms
  have hg' : modes.length = dms'.length := by omega
  have hval := mixedControls_valid dms' modes hg'
  have hnC : nCommands (mixedControls dms' modes) = M.length := by rw [nCommands, hval, hML]
  have hfirst : ∀ k, firstCommand (mixedControls dms' modes) k = ((dms'.take k).map fun d => d.shapes.length).sum := by
    intro k
    rw [firstCommand, List.map_take, List.map_take, hval]
  have hsh : ∀ p, p < M.length → ∀ m, m < o.totalMeas → senses o (shapeAt o 0 dms' p) m = (M.getD p []).getD m 0 := by
    intro p hp m hm
    obtain ⟨⟨k, j⟩, ⟨c, hk, hj, hpe⟩, _⟩ := C11_blocks_partition (mixedControls dms' modes) p (by omega)
    dsimp only at hk hj hpe
    obtain ⟨d', hd', hv, _⟩ := mixedControls_get dms' modes hg' k c hk
    rw [hpe, hfirst, shapeAt_get o dms' 0 k d' j hd' (by omega), (hrow k d' hd').2 j (by omega) m hm, Nat.zero_add]
  have hunc : ∀ i m, m < o.totalMeas → (o.uncorrected (turb i)).getD m 0 = senses o (turb i, 0) m := by
    intro i m hm
    rw [uncorrected_get o ho, List.getD_eq_getElem?_getD, List.getElem?_map, List.getElem?_range hm]
    rfl
  set a : ℕ → ℕ → ℚ := fun i p => reconstructed P (o.uncorrected (turb i)) p with ha
  set ψ : ℕ → Stack := fun i => (turb i, 0) - ∑ p ∈ Finset.range M.length, a i p • shapeAt o 0 dms' p with hψ
  -- what the mirrors cannot make is not reconstructed
  have hSψ : ∀ i m, m < o.totalMeas → senses o (ψ i) m = (o.uncorrected (turb i)).getD m 0 - ∑ p ∈ Finset.range M.length, a i p * (M.getD p []).getD m 0 := by
    intro i m hm
    rw [hψ]
    dsimp only
    rw [map_sub, Pi.sub_apply, map_sum, Finset.sum_apply, hunc i m hm]
    congr 1
    refine Finset.sum_congr rfl fun p hp => ?_
    rw [map_smul, Pi.smul_apply, smul_eq_mul, hsh p (Finset.mem_range.mp hp) m hm]
  have hb : ∀ i p, p < M.length → ∑ m ∈ Finset.range o.totalMeas, (P.getD m []).getD p 0 * senses o (ψ i) m = 0 := by
    intro i p hp
    rw [Finset.sum_congr rfl fun m hm => by rw [hSψ i m (Finset.mem_range.mp hm), mul_sub, Finset.mul_sum], Finset.sum_sub_distrib, Finset.sum_comm]
    have : ∀ q ∈ Finset.range M.length, ∑ m ∈ Finset.range o.totalMeas, (P.getD m []).getD p 0 * (a i q * (M.getD q []).getD m 0) = if q = p then a i p else 0 := by
      intro q hq
      have := hinv q p (Finset.mem_range.mp hq) hp
      rw [hrows] at this
      rw [Finset.sum_congr rfl fun m _ => show (P.getD m []).getD p 0 * (a i q * (M.getD q []).getD m 0) = a i q * ((M.getD q []).getD m 0 * (P.getD m []).getD p 0) by ring, ← Finset.mul_sum, this]
      split_ifs with h
      · rw [h, mul_one]
      · rw [mul_zero]
    rw [Finset.sum_congr rfl this, Finset.sum_ite_eq' (Finset.range M.length) p, if_pos (Finset.mem_range.mpr hp), ha]
    dsimp only
    rw [reconstructed, hrows, sub_self]
  obtain ⟨s', ts, hrun, hlen, hts⟩ := C157_loop (o.sys dms' P d nIters saveSlopes saveDm) pl (mixedControls dms' modes)
    (by
      intro hcon
      have h1 : (mixedControls dms' modes).length = 0 := by rw [hcon]; rfl
      have h2 : dms.length ≠ 0 := by simpa using hne
      rw [show (mixedControls dms' modes).length = min dms'.length modes.length by simp [mixedControls]] at h1
      omega)
    o.totalMeas nActs d n rfl hN (by intro h; rw [hnC]; exact hstore h) (shapeAt o 0 dms') (senses o) (fun i => (turb i, 0)) ψ a err (gainOf (mixedControls dms' modes)) (closedOf (mixedControls dms' modes))
    (by
      intro k c hk cmd hc
      obtain ⟨d', hd', hv, _⟩ := mixedControls_get dms' modes hg' k c hk
      obtain ⟨x, x1, x2⟩ := surface_ok o k d' (hrow k d' hd').1 (hkept d' (List.mem_of_getElem? hd')) cmd (by omega)
      simp only [Optics.sys, hd', x1, x2, hv]
      congr 1
      refine Finset.sum_congr rfl fun j hj => ?_
      rw [hfirst, shapeAt_get o dms' 0 k d' j hd' (Finset.mem_range.mp hj), Nat.zero_add])
    (gainOf_get _) (closedOf_get _)
    hpl
    P hrows (by rw [hnC]; exact hcols)
    (by simp only [Optics.sys]; rw [hnC, hML])
    (by
      intro p q hp hq
      rw [hnC] at hp hq
      rw [← hinv p q hp hq, hrows]
      refine Finset.sum_congr rfl fun m hm => ?_
      rw [zero_sub, map_neg, Pi.neg_apply, neg_neg, hsh p hp m (Finset.mem_range.mp hm)])
    (by intro i; rw [hnC, hψ]; simp)
  refine ⟨s', ts, hrun, hlen, ?_⟩
  intro i t ht
  obtain ⟨g1, g2, g3⟩ := hts i t ht
  rw [hnC] at g1 g2 g3
  have hres : ∀ p, p < M.length → (fun k => ∑ m ∈ Finset.range o.totalMeas, (P.getD m []).getD p 0 * (senses o (ψ k) m + err k m)) = fun k => ∑ m ∈ Finset.range o.totalMeas, (P.getD m []).getD p 0 * err k m := by
    intro p hp
    funext k
    simp only [mul_add]
    rw [Finset.sum_add_distrib, hb k p hp, zero_add]
  refine ⟨fun p hp => ?_, ?_, g3⟩
  · rw [g1 p hp, hres p hp]
    have := fun k => congrFun (hres p hp) k
    simp only [this]
    rfl
  have := run_slopes_at _ pl (fun i corr => (List.range o.totalMeas).map fun m => senses o ((turb i, 0) - corr.sum) m + err i m) hpl (mixedControls dms' modes) n _ s' ts hrun i t ht
  simp only [initial, Nat.zero_add] at this
  rw [this]
  refine List.map_congr_left fun m hm => ?_
  rw [List.mem_range] at hm
  rw [g2, map_sub, Pi.sub_apply, map_sum, Finset.sum_apply, hunc i m hm]
  congr 2
  refine Finset.sum_congr rfl fun p hp => ?_
  rw [map_smul, Pi.smul_apply, smul_eq_mul, hsh p (Finset.mem_range.mp hp) m hm]


/-- The commands of mirror `k` are those from `first` on, `count` of them, if mirror `k` of `dms` has `count` shapes. -/
def OfMirror (dms : List Persist.Dm) (k first count : ℕ) : Prop := first = ((dms.take k).map fun d => d.shapes.length).sum ∧ ∃ d, dms[k]? = some d ∧ count = d.shapes.length

theorem mode_of (dms : List Persist.Dm) (modes : List (Bool × ℚ)) (hg : modes.length = dms.length) (k first count : ℕ) (hof : OfMirror dms k first count) (m : Bool × ℚ) (hm : modes[k]? = some m) (j : ℕ) (hj : j < count) :
    closedOf (mixedControls dms modes) (first + j) = m.1 ∧ gainOf (mixedControls dms modes) (first + j) = m.2 := by
  obtain ⟨hf, d, hd, hc⟩ := hof
  have hget : (mixedControls dms modes)[k]? = some ⟨d.shapes.length, m.1, m.2⟩ := by
    unfold mixedControls
    rw [List.getElem?_zipWith, hd, hm]
  have hfirst : firstCommand (mixedControls dms modes) k = first := by
    rw [firstCommand, List.map_take, mixedControls_valid dms modes hg, hf, List.map_take]
  rw [← hfirst]
  exact ⟨closedOf_get _ k _ hget j (by dsimp only; omega), gainOf_get _ k _ hget j (by dsimp only; omega)⟩

/-- Every command belongs to one of the mirrors. -/
theorem of_some (dms : List Persist.Dm) (p : ℕ) (hp : p < (dms.map fun d => d.shapes.length).sum) : ∃ k first count, OfMirror dms k first count ∧ ∃ j, j < count ∧ p = first + j := by
  have hg : (List.replicate dms.length (true, (0 : ℚ))).length = dms.length := by simp
  obtain ⟨⟨k, j⟩, ⟨c, hk, hj, hpe⟩, _⟩ := C11_blocks_partition (mixedControls dms (List.replicate dms.length (true, 0))) p (by rw [nCommands, mixedControls_valid dms _ hg]; exact hp)
  dsimp only at hk hj hpe
  obtain ⟨d, hd, hv, _⟩ := mixedControls_get dms _ hg k c hk
  refine ⟨k, _, d.shapes.length, ⟨rfl, d, hd, rfl⟩, j, by omega, ?_⟩
  rw [hpe, firstCommand, List.map_take, mixedControls_valid dms _ hg, List.map_take]

/-- **C157 (mirrors do not disturb each other).** In a simulation whose control matrix undoes the interaction matrix of all its mirrors, the commands that a mirror is given in a run do not depend on the mode (open or closed loop) and gain of the other mirrors: whatever these are,
the same turbulence and the same noise give the same commands, in every frame. In closed loop they follow what the control matrix reconstructs from the measurements without mirrors as if the mirror were alone (C110), in open loop they are its weighted mean, late by the delay. -/
theorem C157_apart (o : Optics) (ho : Optics.Sound o) (totalActs : ℕ) (dms dms' : List Persist.Dm) (M : List (List ℚ)) (hcal : o.calibrate totalActs dms = .ok (dms', M))
    (hne : dms ≠ []) (hdms : ∀ d ∈ dms, d.shapes.length = d.nActs ∧ (o.scrn + d.nElem) % 2 = 0) (hkept : ∀ d ∈ dms', d.shapes ≠ [])
    (P : List (List ℚ)) (hrows : P.length = o.totalMeas) (hcols : ∀ r ∈ P, r.length = M.length) (hinv : Undoes P M) (d nIters nActs n : ℕ) (hN : 1 ≤ nIters) (saveSlopes saveDm : Bool) (hstore : saveDm = true → nActs = M.length) (turb : ℕ → ℕ → ℕ → ℕ → ℚ) (err : ℕ → ℕ → ℚ)
    (k first count : ℕ) (hof : OfMirror dms' k first count) (closed : Bool) (g : ℚ) :
    ∃ course : ℕ → ℕ → ℚ,
      (∀ i j, course i j = if closed then reconstructed P (o.uncorrected (turb i)) (first + j) - lag d g (fun k => reconstructed P (o.uncorrected (turb k)) (first + j)) (fun k => reconstructed P ((List.range o.totalMeas).map (err k)) (first + j)) i
        else smooth g (fun k => reconstructed P (o.uncorrected (turb k)) (first + j) + reconstructed P ((List.range o.totalMeas).map (err k)) (first + j)) (i - d)) ∧
      ∀ modes : List (Bool × ℚ), modes.length = dms.length → modes[k]? = some (closed, g) →
      ∃ s' ts, runLoop (o.sys dms' P d nIters saveSlopes saveDm) (o.noisyPlant turb err) (initial (o.sys dms' P d nIters saveSlopes saveDm) (mixedControls dms' modes) o.totalMeas nActs ()) (List.replicate n (mixedControls dms' modes)) = .ok (s', ts) ∧
        ts.length = n ∧ ∀ (i : ℕ) (t : Trace Stack), ts[i]? = some t → ∀ j, j < count → t.cmds[first + j]? = some (course i j) := by
  obtain ⟨hl, hML, _⟩ := calibrate_rows o ho totalActs dms dms' M hcal hdms
  refine ⟨_, fun _ _ => rfl, fun modes hg hm => ?_⟩
  obtain ⟨s', ts, h1, h2, h3⟩ := mixed_any o ho totalActs dms dms' M hcal hne hdms hkept P hrows hcols hinv modes hg d nIters nActs n hN saveSlopes saveDm hstore turb (o.noisyPlant turb err) err (noisy_sense o ho turb err)
  refine ⟨s', ts, h1, h2, fun i t ht j hj => ?_⟩
  obtain ⟨c1, c2⟩ := mode_of dms' modes (by omega) k first count hof _ hm j hj
  have hlt : first + j < M.length := by
    obtain ⟨hf, dk, hdk, hc⟩ := hof
    rw [hML]
    conv_rhs => rw [← List.take_append_drop k dms', List.map_append, List.sum_append, List.drop_eq_getElem_cons (List.getElem?_eq_some_iff.mp hdk).1, List.map_cons, List.sum_cons]
    rw [(List.getElem?_eq_some_iff.mp hdk).2]
    omega
  have herr : ∀ q, reconstructed P ((List.range o.totalMeas).map (err q)) (first + j) = ∑ m ∈ Finset.range o.totalMeas, (P.getD m []).getD (first + j) 0 * err q m := by
    intro q
    rw [reconstructed, hrows]
    refine Finset.sum_congr rfl fun m hm => ?_
    rw [Finset.mem_range] at hm
    rw [List.getD_eq_getElem?_getD (l := List.map _ _), List.getElem?_map, List.getElem?_range hm, Option.map_some, Option.getD_some]
  rw [(h3 i t ht).1 _ hlt, c1, c2]
  simp only [herr]

/-- **C157 (what the sensors measure).** The measurements of a run are those that would be made without mirrors, minus the commands of the closed-loop mirrors times the interaction matrix, and the noise: open-loop mirrors are not seen. -/
theorem C157_measured (o : Optics) (ho : Optics.Sound o) (totalActs : ℕ) (dms dms' : List Persist.Dm) (M : List (List ℚ)) (hcal : o.calibrate totalActs dms = .ok (dms', M))
    (hne : dms ≠ []) (hdms : ∀ d ∈ dms, d.shapes.length = d.nActs ∧ (o.scrn + d.nElem) % 2 = 0) (hkept : ∀ d ∈ dms', d.shapes ≠ [])
    (P : List (List ℚ)) (hrows : P.length = o.totalMeas) (hcols : ∀ r ∈ P, r.length = M.length) (hinv : Undoes P M)
    (modes : List (Bool × ℚ)) (hg : modes.length = dms.length) (d nIters nActs n : ℕ) (hN : 1 ≤ nIters) (saveSlopes saveDm : Bool) (hstore : saveDm = true → nActs = M.length) (turb : ℕ → ℕ → ℕ → ℕ → ℚ) (err : ℕ → ℕ → ℚ) :
    ∃ (shut : ℕ → Bool) (s' : _) (ts : _), (∀ k first count m, OfMirror dms' k first count → modes[k]? = some m → ∀ j, j < count → shut (first + j) = m.1) ∧
      runLoop (o.sys dms' P d nIters saveSlopes saveDm) (o.noisyPlant turb err) (initial (o.sys dms' P d nIters saveSlopes saveDm) (mixedControls dms' modes) o.totalMeas nActs ()) (List.replicate n (mixedControls dms' modes)) = .ok (s', ts) ∧
      ts.length = n ∧ ∀ (i : ℕ) (t : Trace Stack), ts[i]? = some t →
        t.slopes = (List.range o.totalMeas).map fun m => (o.uncorrected (turb i)).getD m 0 - (∑ p ∈ Finset.range M.length, (if shut p then t.cmds.getD p 0 else 0) * (M.getD p []).getD m 0) + err i m := by
  obtain ⟨hl, _, _⟩ := calibrate_rows o ho totalActs dms dms' M hcal hdms
  obtain ⟨s', ts, h1, h2, h3⟩ := mixed_any o ho totalActs dms dms' M hcal hne hdms hkept P hrows hcols hinv modes hg d nIters nActs n hN saveSlopes saveDm hstore turb (o.noisyPlant turb err) err (noisy_sense o ho turb err)
  exact ⟨closedOf (mixedControls dms' modes), s', ts, fun k first count m hof hm j hj => (mode_of dms' modes (by omega) k first count hof m hm j hj).1, h1, h2, fun i t ht => (h3 i t ht).2.1⟩

theorem smooth_static (g a : ℚ) (n : ℕ) : smooth g (fun _ => a) n = a - (1 - g) ^ n * a := by
  induction n with
  | zero => simp [smooth]
  | succ n ih => rw [smooth, ih, pow_succ]; ring

/-- **C157 (error budget).** For every camera there are numbers `R`, one for every actuator and pixel, and a part `rest` of all turbulence, such that in every run, with any turbulence and noise and whichever mirrors are in open and which in closed loop, the camera sees `rest` of the turbulence of the
frame plus what every command misses of what the control matrix reconstructs from the measurements without mirrors, times its number. `rest` is linear and nothing for turbulence that the mirrors can make; without mirrors the camera sees `rest` and all reconstructed commands times their numbers. -/
theorem C157_budget (o : Optics) (ho : Optics.Sound o) (totalActs : ℕ) (dms dms' : List Persist.Dm) (M : List (List ℚ)) (hcal : o.calibrate totalActs dms = .ok (dms', M))
    (hne : dms ≠ []) (hdms : ∀ d ∈ dms, d.shapes.length = d.nActs ∧ (o.scrn + d.nElem) % 2 = 0) (hkept : ∀ d ∈ dms', d.shapes ≠ [])
    (P : List (List ℚ)) (hrows : P.length = o.totalMeas) (hcols : ∀ r ∈ P, r.length = M.length) (hinv : Undoes P M) (lam : ℕ → ℕ) (hconj : Conjugate o dms'.length lam) (g : Geom) (hgs : g.scrn = o.scrn) (k : ℚ) (hk : k ≠ 0) :
    ∃ (R : ℕ → ℕ → ℕ → ℚ) (rest : (ℕ → ℕ → ℕ → ℚ) → ℕ → ℕ → ℚ),
      (∀ (a : ℚ) (t u : ℕ → ℕ → ℕ → ℚ) (x y : ℕ), rest (fun l i j => a * t l i j + u l i j) x y = a * rest t x y + rest u x y) ∧
      (∀ c t, Makes o dms' lam c t → ∀ x y, rest t x y = 0) ∧
      (∀ t, ∃ st, o.look g k t [] = .ok st ∧ ∀ x y, x < g.nOut → y < g.nOut → st.phase.px x y = rest t x y + ∑ p ∈ Finset.range M.length, reconstructed P (o.uncorrected t) p * R p x y) ∧
      ∀ (modes : List (Bool × ℚ)) (d nIters nActs n : ℕ) (saveSlopes saveDm : Bool), modes.length = dms.length → 1 ≤ nIters → (saveDm = true → nActs = M.length) → ∀ (turb : ℕ → ℕ → ℕ → ℕ → ℚ) (err : ℕ → ℕ → ℚ),
        ∃ s' ts, runLoop (o.sys dms' P d nIters saveSlopes saveDm) (o.noisyPlant turb err) (initial (o.sys dms' P d nIters saveSlopes saveDm) (mixedControls dms' modes) o.totalMeas nActs ()) (List.replicate n (mixedControls dms' modes)) = .ok (s', ts) ∧
          ts.length = n ∧ ∀ (i : ℕ) (t : Trace Stack), ts[i]? = some t → ∃ st, o.look g k (turb i) t.seenBySci = .ok st ∧ st.phase.rows = g.nOut ∧ st.phase.cols = g.nOut ∧
            ∀ x y, x < g.nOut → y < g.nOut → st.phase.px x y = rest (turb i) x y + ∑ p ∈ Finset.range M.length, (reconstructed P (o.uncorrected (turb i)) p - t.cmds.getD p 0) * R p x y := by
  set w : LinWfs := ⟨g, k, 0, fun _ _ _ => 0⟩ with hw
  obtain ⟨hl, hML, hrow⟩ := calibrate_rows o ho totalActs dms dms' M hcal hdms
  have z : ∀ x y, view o w 0 x y = 0 := fun x y => by
    have := view_lin o w 1 0 0 x y
    simp only [smul_zero, add_zero, one_mul] at this
    linarith
  have sc : ∀ (a : ℚ) v x y, view o w (a • v) x y = a * view o w v x y := fun a v x y => by
    have := view_lin o w a v 0 x y
    rwa [add_zero, z, add_zero] at this
  refine ⟨fun p x y => view o w (shapeAt o 0 dms' p) x y, fun t x y => view o w (t, 0) x y - ∑ p ∈ Finset.range M.length, reconstructed P (o.uncorrected t) p * view o w (shapeAt o 0 dms' p) x y, ?_, ?_, ?_, ?_⟩
  · intro a t u x y
    have e : ((fun l i j => a * t l i j + u l i j, 0) : Stack) = a • ((t, 0) : Stack) + (u, 0) := by
      refine Prod.ext ?_ ?_
      · funext l i j
        simp
      · simp
    dsimp only
    rw [e, view_lin]
    simp only [reconstructed_lin o ho P hrows, add_mul, mul_assoc, Finset.sum_add_distrib, ← Finset.mul_sum]
    ring
  · intro c t hm x y
    dsimp only
    rw [makes_view o dms' (fun k d h => (hrow k d h).1) hkept lam hconj c t hm w, ← hML, ← Finset.sum_sub_distrib]
    refine Finset.sum_eq_zero fun p hp => ?_
    rw [(C155_finds o ho totalActs dms dms' M hcal hdms hkept P hrows hinv (List.replicate dms.length 0) (by simp) lam hconj c t hm p (Finset.mem_range.mp hp)).1, sub_self]
  · intro t
    obtain ⟨st, b1, _, _, b4⟩ := look_eq o ho.1 g hgs k hk t [] w rfl rfl
    refine ⟨st, b1, fun x y hx hy => ?_⟩
    rw [b4 x y hx hy, List.sum_nil, sub_zero, sub_add_cancel]
  · intro modes d nIters nActs n saveSlopes saveDm hg hN hstore turb err
    obtain ⟨s', ts, h1, h2, h3⟩ := mixed_any o ho totalActs dms dms' M hcal hne hdms hkept P hrows hcols hinv modes hg d nIters nActs n hN saveSlopes saveDm hstore turb (o.noisyPlant turb err) err (noisy_sense o ho turb err)
    refine ⟨s', ts, h1, h2, fun i t ht => ?_⟩
    obtain ⟨_, _, a4⟩ := h3 i t ht
    obtain ⟨st, b1, b2, b3, b4⟩ := look_eq o ho.1 g hgs k hk (turb i) t.seenBySci w rfl rfl
    refine ⟨st, b1, b2, b3, fun x y hx hy => ?_⟩
    have hv : view o w ((turb i, 0) - t.seenBySci.sum) x y = view o w (turb i, 0) x y - view o w t.seenBySci.sum x y := by
      have := view_lin o w (-1) t.seenBySci.sum (turb i, 0) x y
      rw [neg_one_smul, neg_one_mul, neg_add_eq_sub, neg_add_eq_sub] at this
      exact this
    rw [b4 x y hx hy, hv, a4, view_sum, sub_add, ← Finset.sum_sub_distrib]
    congr 1
    refine Finset.sum_congr rfl fun p hp => ?_
    rw [Finset.mem_range] at hp
    rw [sc]
    ring

/-- **C157 (in the end).** If the layers stand still, closed-loop mirrors have stable gains and open-loop mirrors gains between 0 and 2 — whatever the delay —, then what a camera sees comes and stays as close as one likes to a part of the turbulence that is linear in it,
nothing for turbulence that the mirrors can make, and the same for every choice of which mirrors are in open and which in closed loop. -/
theorem C157_end (o : Optics) (ho : Optics.Sound o) (totalActs : ℕ) (dms dms' : List Persist.Dm) (M : List (List ℚ)) (hcal : o.calibrate totalActs dms = .ok (dms', M))
    (hne : dms ≠ []) (hdms : ∀ d ∈ dms, d.shapes.length = d.nActs ∧ (o.scrn + d.nElem) % 2 = 0) (hkept : ∀ d ∈ dms', d.shapes ≠ [])
    (P : List (List ℚ)) (hrows : P.length = o.totalMeas) (hcols : ∀ r ∈ P, r.length = M.length) (hinv : Undoes P M) (lam : ℕ → ℕ) (hconj : Conjugate o dms'.length lam) (g : Geom) (hgs : g.scrn = o.scrn) (k : ℚ) (hk : k ≠ 0) :
    ∃ rest : (ℕ → ℕ → ℕ → ℚ) → ℕ → ℕ → ℚ, (∀ (a : ℚ) (t u : ℕ → ℕ → ℕ → ℚ) (x y : ℕ), rest (fun l i j => a * t l i j + u l i j) x y = a * rest t x y + rest u x y) ∧
      (∀ c t, Makes o dms' lam c t → ∀ x y, rest t x y = 0) ∧
      ∀ (modes : List (Bool × ℚ)) (d nIters nActs : ℕ) (saveSlopes saveDm : Bool), modes.length = dms.length → 1 ≤ nIters → (saveDm = true → nActs = M.length) →
      (∀ m ∈ modes, (m.1 = true → StableGain d m.2) ∧ (m.1 = false → 0 < m.2 ∧ m.2 < 2)) → ∀ (still : ℕ → ℕ → ℕ → ℚ) (ε : ℚ), 0 < ε →
      ∃ K, ∀ n, ∃ s' ts, runLoop (o.sys dms' P d nIters saveSlopes saveDm) (o.plant fun _ => still) (initial (o.sys dms' P d nIters saveSlopes saveDm) (mixedControls dms' modes) o.totalMeas nActs ()) (List.replicate n (mixedControls dms' modes)) = .ok (s', ts) ∧
        ts.length = n ∧ ∀ (i : ℕ) (t : Trace Stack), K ≤ i → ts[i]? = some t → ∃ st, o.look g k still t.seenBySci = .ok st ∧ ∀ x y, x < g.nOut → y < g.nOut → |st.phase.px x y - rest still x y| < ε := by
  obtain ⟨R, rest, r1, r2, _, r4⟩ := C157_budget o ho totalActs dms dms' M hcal hne hdms hkept P hrows hcols hinv lam hconj g hgs k hk
  obtain ⟨hl, hML, hrow⟩ := calibrate_rows o ho totalActs dms dms' M hcal hdms
  refine ⟨rest, r1, r2, fun modes d nIters nActs saveSlopes saveDm hg hN hstore hmodes still ε hε => ?_⟩
  set miss : ℕ → ℕ → ℚ := fun p i => if closedOf (mixedControls dms' modes) p then leftOver d (gainOf (mixedControls dms' modes) p) (reconstructed P (o.uncorrected still) p) i
    else (1 - gainOf (mixedControls dms' modes) p) ^ (i - d) * reconstructed P (o.uncorrected still) p with hmiss
  have hset : ∀ p, p < M.length → Settles (miss p) := fun p hp => by
    obtain ⟨q, first, count, hof, j, hj, rfl⟩ := of_some dms' p (by omega)
    have hq : q < modes.length := by
      obtain ⟨_, dk, hdk, _⟩ := hof
      have := (List.getElem?_eq_some_iff.mp hdk).1
      omega
    obtain ⟨c1, c2⟩ := mode_of dms' modes (by omega) q first count hof _ (List.getElem?_eq_getElem hq) j hj
    obtain ⟨m1, m2⟩ := hmodes _ (List.getElem_mem hq)
    simp only [hmiss, c1, c2]
    cases hc : modes[q].1 with
    | true =>
      simp only [if_true]
      by_cases h0 : reconstructed P (o.uncorrected still) (first + j) = 0
      · rw [h0]
        intro ε hε
        refine ⟨0, fun n _ => ?_⟩
        dsimp only
        rw [leftOver_zero_start, abs_zero]
        exact hε
      · exact (C79_exact d _ _ h0).mpr (m1 hc)
    | false =>
      simp only [Bool.false_eq_true, if_false]
      obtain ⟨g0, g2⟩ := m2 hc
      intro ε hε
      obtain ⟨N, hN⟩ := pow_small |1 - modes[q].2| |reconstructed P (o.uncorrected still) (first + j)| ε (abs_nonneg _) (by rw [abs_lt]; constructor <;> linarith) hε
      refine ⟨N + d, fun n hn => ?_⟩
      rw [abs_mul, abs_pow]
      exact hN (n - d) (by omega)
  obtain ⟨K, hK⟩ := settles_all (g.nOut * g.nOut) (fun q i => ∑ p ∈ Finset.range M.length, miss p i * R p (q / g.nOut) (q % g.nOut)) (fun q _ => settles_sum M.length miss (fun p => R p (q / g.nOut) (q % g.nOut)) hset) ε hε
  refine ⟨K, fun n => ?_⟩
  obtain ⟨s', ts, h1, h2, h3⟩ := r4 modes d nIters nActs n saveSlopes saveDm hg hN hstore (fun _ => still) (fun _ _ => 0)
  obtain ⟨u', us, q1, _, q3⟩ := mixed_any o ho totalActs dms dms' M hcal hne hdms hkept P hrows hcols hinv modes hg d nIters nActs n hN saveSlopes saveDm hstore (fun _ => still) (o.noisyPlant (fun _ => still) fun _ _ => 0) (fun _ _ => 0) (noisy_sense o ho _ _)
  rw [h1] at q1
  obtain ⟨rfl, rfl⟩ := Prod.mk.inj (Except.ok.inj q1)
  rw [noisy_zero] at h1
  refine ⟨s', ts, h1, h2, fun i t hi ht => ?_⟩
  obtain ⟨st, b1, _, _, b4⟩ := h3 i t ht
  refine ⟨st, b1, fun x y hx hy => ?_⟩
  rw [b4 x y hx hy, add_sub_cancel_left]
  have hq : x * g.nOut + y < g.nOut * g.nOut := by nlinarith
  have := hK i hi (x * g.nOut + y) hq
  have hpos : 0 < g.nOut := by omega
  rw [Nat.mul_comm x, Nat.mul_add_div hpos, Nat.div_eq_of_lt hy, Nat.mul_add_mod, Nat.mod_eq_of_lt hy, Nat.add_zero] at this
  rw [Finset.sum_congr rfl fun p hp => ?_]
  · exact this
  rw [Finset.mem_range] at hp
  congr 1
  rw [List.getD_eq_getElem?_getD, (q3 i t ht).1 p hp, Option.getD_some]
  simp only [hmiss]
  split_ifs
  · simp only [mul_zero, Finset.sum_const_zero, lag_static]
    ring
  · simp only [mul_zero, Finset.sum_const_zero, add_zero, smooth_static]
    ring

/-- The weights that an open-loop mirror gives to the measurements of `n` frames: together they are `1 - (1 - g)ⁿ`, and noise that is uncorrelated from frame to frame comes through with `g / (2 - g)` of its variance, in the end, whatever the delay. -/
theorem C157_weights (g : ℚ) (n : ℕ) : ∃ w : ℕ → ℚ, (∀ f, smooth g f n = ∑ q ∈ Finset.range n, w q * f q) ∧ ∑ q ∈ Finset.range n, w q = 1 - (1 - g) ^ n ∧ (2 - g) * ∑ q ∈ Finset.range n, w q ^ 2 = g * (1 - (1 - g) ^ (2 * n)) := by
  refine ⟨fun q => g * (1 - g) ^ (n - 1 - q), fun f => smooth_sum g f n, ?_, ?_⟩
  · have := smooth_static g 1 n
    rw [smooth_sum] at this
    simpa using this
  · rw [Finset.sum_range_reflect (fun q => (g * (1 - g) ^ q) ^ 2) n]
    have : ∑ q ∈ Finset.range n, (g * (1 - g) ^ q) ^ 2 = g ^ 2 * ∑ q ∈ Finset.range n, ((1 - g) ^ 2) ^ q := by
      rw [Finset.mul_sum]
      refine Finset.sum_congr rfl fun q _ => ?_
      rw [mul_pow, ← pow_mul, ← pow_mul, Nat.mul_comm]
    rw [this, pow_mul]
    have h := mul_neg_geom_sum ((1 - g) ^ 2) n
    rw [← h]
    ring

/-- Two mirrors, two lines of sight, delay 2: the first mirror in closed loop with gain 3/5, the second in open loop with gain 1/2. -/
example : ∃ dms', wholeOptics.calibrate 4 wholeDms = .ok (dms', wholeImat) ∧ OfMirror dms' 1 2 1 ∧ (∃ rest : (ℕ → ℕ → ℕ → ℚ) → ℕ → ℕ → ℚ, ∀ (still : ℕ → ℕ → ℕ → ℚ) (ε : ℚ), 0 < ε → ∃ K, ∀ n, ∃ s' ts,
    runLoop (wholeOptics.sys dms' wholeCmat 2 100 true false) (wholeOptics.plant fun _ => still) (initial (wholeOptics.sys dms' wholeCmat 2 100 true false) (mixedControls dms' [(true, 3 / 5), (false, 1 / 2)]) 4 4 ())
      (List.replicate n (mixedControls dms' [(true, 3 / 5), (false, 1 / 2)])) = .ok (s', ts) ∧ ts.length = n ∧ ∀ (i : ℕ) (t : Trace Stack), K ≤ i → ts[i]? = some t → ∃ st, wholeOptics.look (wholeWfs (1 / 5000)).geom 2 still t.seenBySci = .ok st ∧
        ∀ x y, x < 2 → y < 2 → |st.phase.px x y - rest still x y| < ε) ∧
    ∀ (turb : ℕ → ℕ → ℕ → ℕ → ℚ) (err : ℕ → ℕ → ℚ) (n : ℕ), ∃ course : ℕ → ℕ → ℚ, ∀ first : Bool × ℚ, ∃ s' ts,
      runLoop (wholeOptics.sys dms' wholeCmat 2 100 true false) (wholeOptics.noisyPlant turb err) (initial (wholeOptics.sys dms' wholeCmat 2 100 true false) (mixedControls dms' [first, (false, 1 / 2)]) 4 4 ())
      (List.replicate n (mixedControls dms' [first, (false, 1 / 2)])) = .ok (s', ts) ∧ ts.length = n ∧ ∀ (i : ℕ) (t : Trace Stack), ts[i]? = some t → t.cmds[2]? = some (course i 0) := by
  obtain ⟨dms', h1, h2⟩ := whole_ok
  have hd : ∀ d ∈ wholeDms, d.shapes.length = d.nActs ∧ (wholeOptics.scrn + d.nElem) % 2 = 0 := by
    intro d hd; simp only [wholeDms, List.mem_cons, List.not_mem_nil, or_false] at hd; rcases hd with rfl | rfl <;> exact ⟨rfl, rfl⟩
  obtain ⟨hl, _, _⟩ := calibrate_rows wholeOptics whole_sound 4 wholeDms dms' wholeImat h1 hd
  have hl2 : dms'.length = 2 := hl
  have hconj : Conjugate wholeOptics dms'.length id := by
    intro k hk
    rw [hl2] at hk
    interval_cases k <;> exact ⟨by decide, by decide, rfl⟩
  have hof : OfMirror dms' 1 2 1 := by
    have e : (wholeOptics.calibrate 4 wholeDms).map (fun p => p.1.map fun d => d.shapes.length) = .ok [2, 1] := by decide +kernel
    rw [h1] at e
    have e' : (dms'.map fun d => d.shapes.length) = [2, 1] := by simpa [Except.map] using e
    match dms', hl2, e' with
    | [a, b], _, e' =>
      simp only [List.map_cons, List.map_nil, List.cons.injEq, and_true] at e'
      exact ⟨by simp [e'.1], b, rfl, e'.2.symm⟩
  refine ⟨dms', h1, hof, ?_, fun turb err n => ?_⟩
  · obtain ⟨rest, _, _, r3⟩ := C157_end wholeOptics whole_sound 4 wholeDms dms' wholeImat h1 (by simp [wholeDms]) hd h2 wholeCmat rfl (by decide) whole_undoes id hconj (wholeWfs (1 / 5000)).geom rfl 2 two_ne_zero
    refine ⟨rest, fun still ε hε => ?_⟩
    exact r3 [(true, 3 / 5), (false, 1 / 2)] 2 100 4 true false rfl (by norm_num) (fun h => nomatch h) (by
      intro m hm
      simp only [List.mem_cons, List.not_mem_nil, or_false] at hm
      rcases hm with rfl | rfl
      · exact ⟨fun _ => camera_default _ (by simp), fun h => nomatch h⟩
      · exact ⟨(fun h => nomatch h), fun _ => ⟨by norm_num, by norm_num⟩⟩) still ε hε
  · obtain ⟨course, _, r2⟩ := C157_apart wholeOptics whole_sound 4 wholeDms dms' wholeImat h1 (by simp [wholeDms]) hd h2 wholeCmat rfl (by decide) whole_undoes 2 100 4 n (by norm_num) true false (fun h => nomatch h) turb err 1 2 1 hof false (1 / 2)
    refine ⟨course, fun first => ?_⟩
    obtain ⟨s', ts, a1, a2, a3⟩ := r2 [first, (false, 1 / 2)] rfl rfl
    exact ⟨s', ts, a1, a2, fun i t ht => a3 i t ht 0 one_pos⟩

end

end Soapy.Props
