/-
Property theorems C158: control matrices that do not control everything (filtered modes, actuators that the sensors cannot tell apart).
-/
import Verif.Props.Mixed
import Verif.Props.Pinv

namespace Soapy.Props

open Soapy.Loop Soapy.Control Soapy.Vec

section

variable {V : Type} [AddCommGroup V] [Module ℚ V]

/-- The command for actuator `p` that the control matrix reconstructs if actuator `q` is poked. -/
def pokedTo (S : V →ₗ[ℚ] (ℕ → ℚ)) (shape : ℕ → V) (nMeas : ℕ) (cmat : List (List ℚ)) (q p : ℕ) : ℚ := ∑ m ∈ Finset.range nMeas, S (shape q) m * (cmat.getD m []).getD p 0

/-- **C158 (the loop).** As `C157_loop`, with a control matrix of which is only asked that it finds its own commands again (`hproj`: P M P = P, as all pseudo-inverses do, however many singular values are dropped), and that gain and mode are the same for actuators that it mixes (`hsame`), as when all
mirrors have one gain and mode. The components `a` are commands that it finds again. -/
theorem C158_loop (sys : Sys V) (pl : Plant Unit V) (dms : List DmCtl) (hne : dms ≠ [])
    (nMeas nActs d n : ℕ) (hd : sys.loopDelay = d) (hN : 1 ≤ sys.nIters) (hstore : sys.saveDmCommands = true → nActs = nCommands dms)
    (shape : ℕ → V) (S : V →ₗ[ℚ] (ℕ → ℚ)) (φ ψ : ℕ → V) (a err : ℕ → ℕ → ℚ) (gain : ℕ → ℚ) (closed : ℕ → Bool)
    (hsurf : ∀ (k : ℕ) (m : DmCtl), dms[k]? = some m → ∀ c : List ℚ, c.length = m.nValid →
      sys.surface k c = .ok (∑ j ∈ Finset.range m.nValid, c.getD j 0 • shape (firstCommand dms k + j)))
    (hgain : ∀ (k : ℕ) (m : DmCtl), dms[k]? = some m → ∀ j, j < m.nValid → gain (firstCommand dms k + j) = m.gain)
    (hclosed : ∀ (k : ℕ) (m : DmCtl), dms[k]? = some m → ∀ j, j < m.nValid → closed (firstCommand dms k + j) = m.closed)
    (hsense : ∀ i corr, pl.sense () i corr = .ok ((), (List.range nMeas).map fun m => S (φ i - corr.sum) m + err i m))
    (cmat : List (List ℚ)) (hrows : cmat.length = nMeas) (hcols : ∀ r ∈ cmat, r.length = nCommands dms)
    (hprod : sys.product = tdot (nCommands dms) cmat)
    (hproj : ∀ m p, m < nMeas → p < nCommands dms → ∑ q ∈ Finset.range (nCommands dms), (cmat.getD m []).getD q 0 * pokedTo S shape nMeas cmat q p = (cmat.getD m []).getD p 0)
    (hsame : ∀ p q, p < nCommands dms → q < nCommands dms → pokedTo S shape nMeas cmat q p ≠ 0 → gain q = gain p ∧ closed q = closed p)
    (ha : ∀ i p, p < nCommands dms → ∑ q ∈ Finset.range (nCommands dms), a i q * pokedTo S shape nMeas cmat q p = a i p)
    (hφ : ∀ i, φ i = ψ i + ∑ p ∈ Finset.range (nCommands dms), a i p • shape p) :
    ∃ s' ts, runLoop sys pl (initial sys dms nMeas nActs ()) (List.replicate n dms) = .ok (s', ts) ∧ ts.length = n ∧
      ∀ (i : ℕ) (t : Trace V), ts[i]? = some t →
        (∀ p, p < nCommands dms → t.cmds[p]? = some (if closed p then a i p - lag d (gain p) (fun k => a k p) (fun k => ∑ m ∈ Finset.range nMeas, (cmat.getD m []).getD p 0 * (S (ψ k) m + err k m)) i
          else smooth (gain p) (fun k => a k p + ∑ m ∈ Finset.range nMeas, (cmat.getD m []).getD p 0 * (S (ψ k) m + err k m)) (i - d))) ∧
        t.seenByWfs.sum = ∑ p ∈ Finset.range (nCommands dms), (if closed p then t.cmds.getD p 0 else 0) • shape p ∧
        t.seenBySci.sum = ∑ p ∈ Finset.range (nCommands dms), t.cmds.getD p 0 • shape p := by
  set nC := nCommands dms with hnC
  have hsum : (dms.map DmCtl.nValid).sum = nC := rfl
  -- the run completes
  obtain ⟨s', ts, hrun⟩ := C16_run_completes sys pl dms nMeas nActs d () (List.replicate n dms) (fun c hc => by rw [List.eq_of_mem_replicate hc])
    (fun k m hk c hc => ⟨_, hsurf k m hk c hc⟩)
    (fun m hm => by
      obtain ⟨c, e1, e2, _⟩ := tdot_get nC cmat m (by rw [hrows, hm]) hcols
      exact ⟨c, by rw [hprod]; exact e1, e2⟩)
    (fun x i c _ => ⟨(), _, hsense i c, by simp⟩) hN hd hstore
  obtain ⟨hlen, hsees⟩ := C16_who_sees_what sys pl dms nMeas nActs n () s' ts hrun
  obtain ⟨r, cs, hrec, hcs, hcmds⟩ := C17_latency sys pl d hd dms hne nMeas nActs n () s' ts hrun
  have hslopes := run_slopes_at sys pl (fun i c => (List.range nMeas).map fun m => S (φ i - c.sum) m + err i m) hsense dms n _ s' ts hrun
  simp only [initial, Nat.zero_add] at hslopes
  refine ⟨s', ts, hrun, hlen, ?_⟩
  -- measurements of frame t, as the reconstructor gets them in frame t + 1
  let meas : ℕ → List ℚ := fun t => if t = 0 then zeros nMeas else ((ts[t - 1]?).map Trace.slopes).getD []
  have hmeas : (zeros nMeas :: ts.map Trace.slopes).take n = (List.range n).map meas := by
    apply List.ext_getElem?
    intro i
    rw [List.getElem?_take, List.getElem?_map]
    by_cases hi : i < n
    · rw [if_pos hi, List.getElem?_range hi]
      cases i with
      | zero => simp [meas]
      | succ i =>
        have : i < ts.length := by omega
        simp [meas, List.getElem?_eq_getElem this]
    · rw [if_neg hi, List.getElem?_eq_none (by simp; omega)]
      rfl
  have hmlen : ∀ t, t < n → (meas t).length = nMeas := by
    intro t ht
    by_cases h0 : t = 0
    · simp [meas, h0, zeros]
    · have : t - 1 < ts.length := by omega
      simp only [meas, h0, if_false, List.getElem?_eq_getElem this, Option.map_some, Option.getD_some]
      rw [hslopes (t - 1) _ (List.getElem?_eq_getElem this)]
      simp
  have hu : ∀ t, t < n → ∃ c, tdot nC cmat (meas t) = .ok c ∧ c.length = nC ∧ ∀ p, p < nC →
      c.getD p 0 = ∑ i ∈ Finset.range cmat.length, (cmat.getD i []).getD p 0 * (meas t).getD i 0 :=
    fun t ht => tdot_get nC cmat (meas t) (by rw [hrows, hmlen t ht]) hcols
  let u : ℕ → List ℚ := fun t => match tdot nC cmat (meas t) with | .ok c => c | .error _ => []
  have hu1 : ∀ t, t < n → sys.product (meas t) = .ok (u t) := by
    intro t ht
    obtain ⟨c, e, _⟩ := hu t ht
    rw [hprod, e]
    simp [u, e]
  have hu2 : ∀ t, t < n → (u t).length = nC := by
    intro t ht
    obtain ⟨c, e, l, _⟩ := hu t ht
    simp [u, e, l]
  have hu3 : ∀ t, t < n → ∀ p, p < nC → (u t).getD p 0 = ∑ i ∈ Finset.range nMeas, (cmat.getD i []).getD p 0 * (meas t).getD i 0 := by
    intro t ht p hp
    obtain ⟨c, e, _, g⟩ := hu t ht
    have : u t = c := by simp [u, e]
    rw [this, g p hp, hrows]
  obtain ⟨r', cs', hrec', _, hint⟩ := C10_closed_integrates dms sys.product n meas u hu1 hu2
  rw [← hmeas, hrec] at hrec'
  simp only [Except.ok.injEq, Prod.mk.injEq] at hrec'
  obtain ⟨_, rfl⟩ := hrec'
  obtain ⟨r'', cs'', hrec'', _, hopen⟩ := C10_open_averages dms sys.product n meas u hu1 hu2
  rw [← hmeas, hrec] at hrec''
  simp only [Except.ok.injEq, Prod.mk.injEq] at hrec''
  obtain ⟨_, rfl⟩ := hrec''
  -- commands in frame i as sums
  have hcmd : ∀ (i : ℕ) (t : Trace V), ts[i]? = some t → i < n → ∀ p, p < nC →
      t.cmds[p]? = some (if closed p then ∑ q ∈ Finset.range (if i < d then 0 else i - d + 1), gain p * (u q).getD p 0
        else ∑ q ∈ Finset.range (if i < d then 0 else i - d + 1), gain p * (1 - gain p) ^ (i - d - q) * (u q).getD p 0) := by
    intro i t ht hi p hp
    obtain ⟨⟨k, j⟩, ⟨m, hk, hj, hpe⟩, _⟩ := C11_blocks_partition dms p hp
    dsimp only at hk hj hpe
    have hc := hcmds i hi
    rw [ht, Option.map_some] at hc
    have hcl := hclosed k m hk j hj
    rw [← hpe] at hcl
    cases hmc : m.closed with
    | true =>
      rw [hcl, hmc, if_pos rfl]
      by_cases hid : i < d
      · rw [if_pos hid] at hc
        obtain ⟨c, e1, e2⟩ := hint k m hk hmc j hj i hi
        rw [e1, Option.map_some, Option.some.injEq] at hc
        rw [hc, hpe, List.getElem?_map, e2, if_pos hid]
        simp
      · rw [if_neg hid] at hc
        obtain ⟨c, e1, e2⟩ := hint k m hk hmc j hj (i - d) (by omega)
        rw [e1, Option.some.injEq] at hc
        rw [hc, hpe, e2, if_neg hid, hgain k m hk j hj]
        simp only [List.getD_eq_getElem?_getD]
    | false =>
      rw [hcl, hmc, if_neg Bool.false_ne_true]
      by_cases hid : i < d
      · rw [if_pos hid] at hc
        obtain ⟨c, e1, e2⟩ := hopen k m hk hmc j hj i hi
        rw [e1, Option.map_some, Option.some.injEq] at hc
        rw [hc, hpe, List.getElem?_map, e2, if_pos hid]
        simp
      · rw [if_neg hid] at hc
        obtain ⟨c, e1, e2⟩ := hopen k m hk hmc j hj (i - d) (by omega)
        rw [e1, Option.some.injEq] at hc
        rw [hc, hpe, e2, if_neg hid, hgain k m hk j hj]
        simp only [List.getD_eq_getElem?_getD]
  have hfit : ∀ (k : ℕ) (m : DmCtl), dms[k]? = some m → firstCommand dms k + m.nValid ≤ nC := by
    intro k m hk
    by_cases hz : m.nValid = 0
    · have : firstCommand dms k ≤ nC := by
        simp only [hnC, firstCommand, nCommands]
        conv_rhs => rw [← List.take_append_drop k dms, List.map_append, List.sum_append]
        omega
      omega
    · have := offset_lt dms k (m.nValid - 1) m hk (by omega)
      simp only [offset] at this
      simp only [hnC, firstCommand, nCommands]
      omega
  -- what everybody sees
  have hboth : ∀ (i : ℕ) (t : Trace V), ts[i]? = some t → i < n →
      t.seenByWfs.sum = ∑ p ∈ Finset.range nC, (if closed p then t.cmds.getD p 0 else 0) • shape p ∧ t.seenBySci.sum = ∑ p ∈ Finset.range nC, t.cmds.getD p 0 • shape p := by
    intro i t ht hi
    obtain ⟨h1, h2, h3⟩ := hsees i t ht
    have hclen : nC ≤ t.cmds.length := by
      by_contra hcon
      have := hcmd i t ht hi t.cmds.length (by omega)
      rw [List.getElem?_eq_none (le_refl _)] at this
      cases this
    have hx : ∀ (k : ℕ) (m : DmCtl), dms[k]? = some m → ∀ x, sys.surface k (slice t.cmds (firstCommand dms k) (firstCommand dms k + m.nValid)) = .ok x →
        x = ∑ j ∈ Finset.range m.nValid, t.cmds.getD (firstCommand dms k + j) 0 • shape (firstCommand dms k + j) := by
      intro k m hk x x1
      have hle := hfit k m hk
      have hsl : (slice t.cmds (firstCommand dms k) (firstCommand dms k + m.nValid)).length = m.nValid := by
        simp [slice]; omega
      rw [hsurf k m hk _ hsl] at x1
      simp only [Except.ok.injEq] at x1
      rw [← x1]
      refine Finset.sum_congr rfl fun j hj => ?_
      rw [Finset.mem_range] at hj
      congr 1
      simp only [slice, List.getD_eq_getElem?_getD, List.getElem?_take, List.getElem?_drop]
      rw [if_pos (by omega)]
    constructor
    · have := sum_blocks_shape shape ((List.range nC).map fun p => if closed p then t.cmds.getD p 0 else 0) dms 0 t.seenByWfs h1 (fun k m hk => by
        obtain ⟨x, x1, x2, _⟩ := h3 k m hk
        have hle := hfit k m hk
        rw [x2, hx k m hk x x1]
        congr 1
        split_ifs with hmc
        · refine Finset.sum_congr rfl fun j hj => ?_
          rw [Finset.mem_range] at hj
          rw [Nat.zero_add, List.getD_eq_getElem?_getD (l := List.map _ _), List.getElem?_map, List.getElem?_range (by omega), Option.map_some, Option.getD_some, hclosed k m hk j hj, if_pos hmc]
        · refine (Finset.sum_eq_zero fun j hj => ?_).symm
          rw [Finset.mem_range] at hj
          rw [Nat.zero_add, List.getD_eq_getElem?_getD (l := List.map _ _), List.getElem?_map, List.getElem?_range (by omega), Option.map_some, Option.getD_some, hclosed k m hk j hj, if_neg hmc, zero_smul])
      rw [this]
      refine Finset.sum_congr rfl fun p hp => ?_
      rw [Finset.mem_range] at hp
      rw [Nat.zero_add, List.getD_eq_getElem?_getD (l := List.map _ _), List.getElem?_map, List.getElem?_range hp, Option.map_some, Option.getD_some]
    · have := sum_blocks_shape shape t.cmds dms 0 t.seenBySci h2 (fun k m hk => by
        obtain ⟨x, x1, _, x3⟩ := h3 k m hk
        rw [x3, hx k m hk x x1]
        simp only [Nat.zero_add])
      rw [this]
      simp only [Nat.zero_add]
      rfl
  have hseen : ∀ (i : ℕ) (t : Trace V), ts[i]? = some t → i < n →
      φ i - t.seenByWfs.sum = ψ i + ∑ p ∈ Finset.range nC, (a i p - if closed p then t.cmds.getD p 0 else 0) • shape p := by
    intro i t ht hi
    rw [(hboth i t ht hi).1, hφ i, add_sub_assoc, ← Finset.sum_sub_distrib]
    congr 1
    refine Finset.sum_congr rfl fun p _ => ?_
    rw [sub_smul]
  let E : Trace V → ℕ → ℚ := fun t p => if closed p then t.cmds.getD p 0 else 0
  have hseen' : ∀ (i : ℕ) (t : Trace V), ts[i]? = some t → i < n → φ i - t.seenByWfs.sum = ψ i + ∑ p ∈ Finset.range nC, (a i p - E t p) • shape p := hseen
  -- the control matrix reproduces its own commands, and those that the sensors see
  have hfix : ∀ t, t < n → ∀ p, p < nC → ∑ q ∈ Finset.range nC, (u t).getD q 0 * pokedTo S shape nMeas cmat q p = (u t).getD p 0 := by
    intro t ht p hp
    rw [Finset.sum_congr rfl fun q hq => by rw [hu3 t ht q (Finset.mem_range.mp hq), Finset.sum_mul], Finset.sum_comm, hu3 t ht p hp]
    refine Finset.sum_congr rfl fun m hm => ?_
    rw [← hproj m p (Finset.mem_range.mp hm) hp, Finset.sum_mul]
    refine Finset.sum_congr rfl fun q _ => ?_
    ring
  have hfixE : ∀ (i : ℕ) (t : Trace V), ts[i]? = some t → i < n → ∀ p, p < nC → ∑ q ∈ Finset.range nC, E t q * pokedTo S shape nMeas cmat q p = E t p := by
    intro i t ht hi p hp
    have hE : ∀ q, q < nC → E t q = if closed q then ∑ r ∈ Finset.range (if i < d then 0 else i - d + 1), gain q * (u r).getD q 0 else 0 := by
      intro q hq
      simp only [E]
      rw [List.getD_eq_getElem?_getD, hcmd i t ht hi q hq, Option.getD_some]
      split_ifs <;> rfl
    have hstep : ∀ q ∈ Finset.range nC, E t q * pokedTo S shape nMeas cmat q p =
        if closed p then ∑ r ∈ Finset.range (if i < d then 0 else i - d + 1), gain p * ((u r).getD q 0 * pokedTo S shape nMeas cmat q p) else 0 := by
      intro q hq
      rw [Finset.mem_range] at hq
      rw [hE q hq]
      by_cases h0 : pokedTo S shape nMeas cmat q p = 0
      · rw [h0]
        simp
      · obtain ⟨e1, e2⟩ := hsame p q hp hq h0
        rw [e1, e2]
        cases closed p with
        | false => simp
        | true => simp only [if_true, Finset.sum_mul, mul_assoc]
    rw [Finset.sum_congr rfl hstep, hE p hp]
    cases closed p with
    | false => simp
    | true =>
      simp only [if_true]
      rw [Finset.sum_comm]
      refine Finset.sum_congr rfl fun r hr => ?_
      rw [Finset.mem_range] at hr
      rw [← Finset.mul_sum, hfix r (by split_ifs at hr <;> omega) p hp]
  -- the update computed from frame t's measurements is what was left in frame t and the error of its measurements
  have hupd : ∀ (i : ℕ) (t : Trace V), ts[i]? = some t → i + 1 < n → ∀ p, p < nC →
      (u (i + 1)).getD p 0 = a i p - E t p + ∑ m ∈ Finset.range nMeas, (cmat.getD m []).getD p 0 * (S (ψ i) m + err i m) := by
    intro i t ht hi p hp
    rw [hu3 (i + 1) hi p hp]
    have hm : ∀ k, k < nMeas → (meas (i + 1)).getD k 0 = (S (ψ i) k + err i k) + ∑ q ∈ Finset.range nC, (a i q - E t q) * (-(S (0 - shape q)) k) := by
      intro k hk
      simp only [meas, Nat.add_sub_cancel, Nat.succ_ne_zero, if_false, ht, Option.map_some, Option.getD_some]
      rw [hslopes i t ht, hseen' i t ht (by omega)]
      simp only [List.getD_eq_getElem?_getD, List.getElem?_map, List.getElem?_range hk, Option.map_some, Option.getD_some]
      rw [map_add, Pi.add_apply, map_sum, Finset.sum_apply]
      have : ∑ q ∈ Finset.range nC, S ((a i q - E t q) • shape q) k = ∑ q ∈ Finset.range nC, (a i q - E t q) * (-(S (0 - shape q)) k) := by
        refine Finset.sum_congr rfl fun q _ => ?_
        rw [map_smul, zero_sub, map_neg, Pi.smul_apply, Pi.neg_apply, neg_neg, smul_eq_mul]
      simp only [this]
      ring
    rw [Finset.sum_congr rfl fun k hk => by rw [hm k (Finset.mem_range.mp hk)]]
    simp only [mul_add (_ : ℚ) (S (ψ i) _ + err i _), Finset.sum_add_distrib, Finset.mul_sum]
    rw [Finset.sum_comm]
    have : ∀ q ∈ Finset.range nC, ∑ k ∈ Finset.range nMeas,
        (cmat.getD k []).getD p 0 * ((a i q - E t q) * (-(S (0 - shape q)) k)) = a i q * pokedTo S shape nMeas cmat q p - E t q * pokedTo S shape nMeas cmat q p := by
      intro q hq
      rw [Finset.sum_congr rfl fun k _ => show (cmat.getD k []).getD p 0 * ((a i q - E t q) * (-(S (0 - shape q)) k)) =
        (a i q - E t q) * (S (shape q) k * (cmat.getD k []).getD p 0) by rw [zero_sub, map_neg, Pi.neg_apply, neg_neg]; ring, ← Finset.mul_sum, sub_mul]
      rfl
    rw [Finset.sum_congr rfl this, Finset.sum_sub_distrib, ha i p hp, hfixE i t ht (by omega) p hp, add_comm]
  have hu0 : 0 < n → ∀ p, p < nC → (u 0).getD p 0 = 0 := by
    intro h0 p hp
    rw [hu3 0 h0 p hp]
    refine Finset.sum_eq_zero fun k hk => ?_
    have : (meas 0).getD k 0 = 0 := by
      simp only [meas, if_true, zeros, List.getD_eq_getElem?_getD, List.getElem?_replicate]
      split_ifs <;> rfl
    rw [this, mul_zero]
  -- induction over frames
  have main : ∀ (i : ℕ) (t : Trace V), ts[i]? = some t → ∀ p, p < nC → t.cmds[p]? = some (if closed p then a i p - lag d (gain p) (fun k => a k p) (fun k => ∑ m ∈ Finset.range nMeas, (cmat.getD m []).getD p 0 * (S (ψ k) m + err k m)) i
      else smooth (gain p) (fun k => a k p + ∑ m ∈ Finset.range nMeas, (cmat.getD m []).getD p 0 * (S (ψ k) m + err k m)) (i - d)) := by
    intro i
    induction i using Nat.strong_induction_on with
    | _ i ih =>
      intro t ht p hp
      have hi : i < n := by
        by_contra hcon
        rw [List.getElem?_eq_none (by omega)] at ht; cases ht
      rw [hcmd i t ht hi p hp]
      congr 1
      cases hcl : closed p with
      | true =>
        rw [if_pos rfl, if_pos rfl, lag_sum]
        by_cases hid : i < d
        · rw [if_pos hid, show i - d = 0 by omega]
          simp
        · rw [if_neg hid, Finset.sum_range_succ', hu0 (by omega) p hp, mul_zero, add_zero, sub_sub_cancel]
          refine Finset.sum_congr rfl fun q hq => ?_
          rw [Finset.mem_range] at hq
          have hq' : q < ts.length := by omega
          have hg := List.getElem?_eq_getElem hq'
          have hE : E ts[q] p = ts[q].cmds.getD p 0 := by simp only [E, hcl, if_true]
          rw [hupd q _ hg (by omega) p hp, hE, List.getD_eq_getElem?_getD, ih q (by omega) _ hg p hp, hcl, if_pos rfl]
          simp
      | false =>
        rw [if_neg Bool.false_ne_true, if_neg Bool.false_ne_true, smooth_sum]
        by_cases hid : i < d
        · rw [if_pos hid, show i - d = 0 by omega]
          simp
        · rw [if_neg hid, Finset.sum_range_succ', hu0 (by omega) p hp, mul_zero, add_zero]
          refine Finset.sum_congr rfl fun q hq => ?_
          rw [Finset.mem_range] at hq
          have hq' : q < ts.length := by omega
          have hg := List.getElem?_eq_getElem hq'
          have hE : E ts[q] p = 0 := by simp only [E, hcl, Bool.false_eq_true, if_false]
          rw [hupd q _ hg (by omega) p hp, hE, sub_zero, show i - d - (q + 1) = i - d - 1 - q by omega]
  intro i t ht
  have hi : i < n := by
    by_contra hcon
    rw [List.getElem?_eq_none (by omega)] at ht; cases ht
  exact ⟨main i t ht, hboth i t ht hi⟩

end

/-! ### The whole simulation -/

section

open Soapy.Mirror Soapy.Interp Soapy.Los Soapy.Whole

/-- The command for actuator `p` that the control matrix reconstructs from the row of actuator `q` in the interaction matrix. -/
def mixes (cmat imat : List (List ℚ)) (q p : ℕ) : ℚ := ∑ m ∈ Finset.range cmat.length, (imat.getD q []).getD m 0 * (cmat.getD m []).getD p 0

/-- The control matrix finds its own commands again: `P M P = P`. Every pseudo-inverse does (`C158_pinv`), with any conditioning. -/
def Refinds (cmat imat : List (List ℚ)) : Prop :=
  ∀ m p, m < cmat.length → p < imat.length → ∑ q ∈ Finset.range imat.length, (cmat.getD m []).getD q 0 * (∑ l ∈ Finset.range cmat.length, (imat.getD q []).getD l 0 * (cmat.getD l []).getD p 0) = (cmat.getD m []).getD p 0

/-- Actuators that the control matrix mixes have the same mode and gain. -/
def Alike (cmat imat : List (List ℚ)) (dms : List Persist.Dm) (modes : List (Bool × ℚ)) : Prop :=
  ∀ p q, p < imat.length → q < imat.length → mixes cmat imat q p ≠ 0 → gainOf (mixedControls dms modes) q = gainOf (mixedControls dms modes) p ∧ closedOf (mixedControls dms modes) q = closedOf (mixedControls dms modes) p

/-- Commands that the control matrix reconstructs are found again. -/
theorem refound (P M : List (List ℚ)) (h : Refinds P M) (meas : List ℚ) (p : ℕ) (hp : p < M.length) : ∑ q ∈ Finset.range M.length, reconstructed P meas q * mixes P M q p = reconstructed P meas p := by
  simp only [reconstructed, Finset.sum_mul]
  rw [Finset.sum_comm]
  refine Finset.sum_congr rfl fun m hm => ?_
  rw [← h m p (Finset.mem_range.mp hm) hp, Finset.sum_mul]
  refine Finset.sum_congr rfl fun q _ => ?_
  rw [mixes]
  ring

/-- The general form: the sensors measure what is left of the atmosphere behind the closed-loop mirrors, with the errors `err`. -/
theorem filtered_any (o : Optics) (ho : Optics.Sound o) (totalActs : ℕ) (dms dms' : List Persist.Dm) (M : List (List ℚ)) (hcal : o.calibrate totalActs dms = .ok (dms', M))
    (hne : dms ≠ []) (hdms : ∀ d ∈ dms, d.shapes.length = d.nActs ∧ (o.scrn + d.nElem) % 2 = 0) (hkept : ∀ d ∈ dms', d.shapes ≠ [])
    (P : List (List ℚ)) (hrows : P.length = o.totalMeas) (hcols : ∀ r ∈ P, r.length = M.length) (hinv : Refinds P M)
    (modes : List (Bool × ℚ)) (hg : modes.length = dms.length) (hsame : Alike P M dms' modes) (d nIters nActs n : ℕ) (hN : 1 ≤ nIters) (saveSlopes saveDm : Bool) (hstore : saveDm = true → nActs = M.length) (turb : ℕ → ℕ → ℕ → ℕ → ℚ) (pl : Plant Unit Stack) (err : ℕ → ℕ → ℚ)
    (hpl : ∀ i corr, pl.sense () i corr = .ok ((), (List.range o.totalMeas).map fun m => senses o ((turb i, 0) - corr.sum) m + err i m)) :
    ∃ s' ts, runLoop (o.sys dms' P d nIters saveSlopes saveDm) pl (initial (o.sys dms' P d nIters saveSlopes saveDm) (mixedControls dms' modes) o.totalMeas nActs ()) (List.replicate n (mixedControls dms' modes)) = .ok (s', ts) ∧
      ts.length = n ∧ ∀ (i : ℕ) (t : Trace Stack), ts[i]? = some t →
        (∀ p, p < M.length → t.cmds[p]? = some (if closedOf (mixedControls dms' modes) p
          then reconstructed P (o.uncorrected (turb i)) p - lag d (gainOf (mixedControls dms' modes) p) (fun k => reconstructed P (o.uncorrected (turb k)) p) (fun k => ∑ m ∈ Finset.range o.totalMeas, (P.getD m []).getD p 0 * err k m) i
          else smooth (gainOf (mixedControls dms' modes) p) (fun k => reconstructed P (o.uncorrected (turb k)) p + ∑ m ∈ Finset.range o.totalMeas, (P.getD m []).getD p 0 * err k m) (i - d))) ∧
        (t.slopes = (List.range o.totalMeas).map fun m => (o.uncorrected (turb i)).getD m 0 - (∑ p ∈ Finset.range M.length, (if closedOf (mixedControls dms' modes) p then t.cmds.getD p 0 else 0) * (M.getD p []).getD m 0) + err i m) ∧
        t.seenBySci.sum = ∑ p ∈ Finset.range M.length, t.cmds.getD p 0 • shapeAt o 0 dms' p := by
  obtain ⟨hl, hML, hrow⟩ := calibrate_rows o ho totalActs dms dms' M hcal hdms
  have hg' : modes.length = dms'.length := by omega
  have hval := mixedControls_valid dms' modes hg'
  have hnC : nCommands (mixedControls dms' modes) = M.length := by rw [nCommands, hval, hML]
  have hfirst : ∀ k, firstCommand (mixedControls dms' modes) k = ((dms'.take k).map fun d => d.shapes.length).sum := by
    intro k
    rw [firstCommand, List.map_take, List.map_take, hval]
  have hsh : ∀ p, p < M.length → ∀ m, m < o.totalMeas → senses o (shapeAt o 0 dms' p) m = (M.getD p []).getD m 0 := by
    intro p hp m hm
    obtain ⟨⟨k, j⟩, ⟨c, hk, hj, hpe⟩, _⟩ := C11_blocks_partition (mixedControls dms' modes) p (by omega)
    dsimp only at hk hj hpe
    obtain ⟨d', hd', hv, _⟩ := mixedControls_get dms' modes hg' k c hk
    rw [hpe, hfirst, shapeAt_get o dms' 0 k d' j hd' (by omega), (hrow k d' hd').2 j (by omega) m hm, Nat.zero_add]
  have hunc : ∀ i m, m < o.totalMeas → (o.uncorrected (turb i)).getD m 0 = senses o (turb i, 0) m := by
    intro i m hm
    rw [uncorrected_get o ho, List.getD_eq_getElem?_getD, List.getElem?_map, List.getElem?_range hm]
    rfl
  set a : ℕ → ℕ → ℚ := fun i p => reconstructed P (o.uncorrected (turb i)) p with ha
  set ψ : ℕ → Stack := fun i => (turb i, 0) - ∑ p ∈ Finset.range M.length, a i p • shapeAt o 0 dms' p with hψ
  -- what the mirrors cannot make is not reconstructed
  have hSψ : ∀ i m, m < o.totalMeas → senses o (ψ i) m = (o.uncorrected (turb i)).getD m 0 - ∑ p ∈ Finset.range M.length, a i p * (M.getD p []).getD m 0 := by
    intro i m hm
    rw [hψ]
    dsimp only
    rw [map_sub, Pi.sub_apply, map_sum, Finset.sum_apply, hunc i m hm]
    congr 1
    refine Finset.sum_congr rfl fun p hp => ?_
    rw [map_smul, Pi.smul_apply, smul_eq_mul, hsh p (Finset.mem_range.mp hp) m hm]
  have hb : ∀ i p, p < M.length → ∑ m ∈ Finset.range o.totalMeas, (P.getD m []).getD p 0 * senses o (ψ i) m = 0 := by
    intro i p hp
    rw [Finset.sum_congr rfl fun m hm => by rw [hSψ i m (Finset.mem_range.mp hm), mul_sub, Finset.mul_sum], Finset.sum_sub_distrib, Finset.sum_comm]
    have : ∀ q ∈ Finset.range M.length, ∑ m ∈ Finset.range o.totalMeas, (P.getD m []).getD p 0 * (a i q * (M.getD q []).getD m 0) = a i q * mixes P M q p := by
      intro q hq
      rw [mixes, hrows, Finset.mul_sum]
      refine Finset.sum_congr rfl fun m _ => ?_
      ring
    rw [Finset.sum_congr rfl this, refound P M hinv _ p hp]
    rw [reconstructed, hrows, sub_self]
  have hhand : ∀ q p, q < M.length → pokedTo (senses o) (shapeAt o 0 dms') o.totalMeas P q p = mixes P M q p := by
    intro q p hq
    rw [pokedTo, mixes, hrows]
    refine Finset.sum_congr rfl fun m hm => ?_
    rw [hsh q hq m (Finset.mem_range.mp hm)]
  obtain ⟨s', ts, hrun, hlen, hts⟩ := C158_loop (o.sys dms' P d nIters saveSlopes saveDm) pl (mixedControls dms' modes)
    (by
      intro hcon
      have h1 : (mixedControls dms' modes).length = 0 := by rw [hcon]; rfl
      have h2 : dms.length ≠ 0 := by simpa using hne
      rw [show (mixedControls dms' modes).length = min dms'.length modes.length by simp [mixedControls]] at h1
      omega)
    o.totalMeas nActs d n rfl hN (by intro h; rw [hnC]; exact hstore h) (shapeAt o 0 dms') (senses o) (fun i => (turb i, 0)) ψ a err (gainOf (mixedControls dms' modes)) (closedOf (mixedControls dms' modes))
    (by
      intro k c hk cmd hc
      obtain ⟨d', hd', hv, _⟩ := mixedControls_get dms' modes hg' k c hk
      obtain ⟨x, x1, x2⟩ := surface_ok o k d' (hrow k d' hd').1 (hkept d' (List.mem_of_getElem? hd')) cmd (by omega)
      simp only [Optics.sys, hd', x1, x2, hv]
      congr 1
      refine Finset.sum_congr rfl fun j hj => ?_
      rw [hfirst, shapeAt_get o dms' 0 k d' j hd' (Finset.mem_range.mp hj), Nat.zero_add])
    (gainOf_get _) (closedOf_get _)
    hpl
    P hrows (by rw [hnC]; exact hcols)
    (by simp only [Optics.sys]; rw [hnC, hML])
    (by
      intro m p hm hp
      rw [hnC] at hp ⊢
      rw [Finset.sum_congr rfl fun q hq => by rw [hhand q p (Finset.mem_range.mp hq)]]
      exact hinv m p (by omega) hp)
    (by
      intro p q hp hq h
      rw [hnC] at hp hq
      rw [hhand q p hq] at h
      exact hsame p q hp hq h)
    (by
      intro i p hp
      rw [hnC] at hp ⊢
      rw [Finset.sum_congr rfl fun q hq => by rw [hhand q p (Finset.mem_range.mp hq)]]
      exact refound P M hinv _ p hp)
    (by intro i; rw [hnC, hψ]; simp)
  refine ⟨s', ts, hrun, hlen, ?_⟩
  intro i t ht
  obtain ⟨g1, g2, g3⟩ := hts i t ht
  rw [hnC] at g1 g2 g3
  have hres : ∀ p, p < M.length → (fun k => ∑ m ∈ Finset.range o.totalMeas, (P.getD m []).getD p 0 * (senses o (ψ k) m + err k m)) = fun k => ∑ m ∈ Finset.range o.totalMeas, (P.getD m []).getD p 0 * err k m := by
    intro p hp
    funext k
    simp only [mul_add]
    rw [Finset.sum_add_distrib, hb k p hp, zero_add]
  refine ⟨fun p hp => ?_, ?_, g3⟩
  · rw [g1 p hp, hres p hp]
    have := fun k => congrFun (hres p hp) k
    simp only [this]
    rfl
  have := run_slopes_at _ pl (fun i corr => (List.range o.totalMeas).map fun m => senses o ((turb i, 0) - corr.sum) m + err i m) hpl (mixedControls dms' modes) n _ s' ts hrun i t ht
  simp only [initial, Nat.zero_add] at this
  rw [this]
  refine List.map_congr_left fun m hm => ?_
  rw [List.mem_range] at hm
  rw [g2, map_sub, Pi.sub_apply, map_sum, Finset.sum_apply, hunc i m hm]
  congr 2
  refine Finset.sum_congr rfl fun p hp => ?_
  rw [map_smul, Pi.smul_apply, smul_eq_mul, hsh p (Finset.mem_range.mp hp) m hm]


/-- The measurements of turbulence that the mirrors can make. -/
theorem makes_uncorrected (o : Optics) (ho : Optics.Sound o) (totalActs : ℕ) (dms dms' : List Persist.Dm) (M : List (List ℚ)) (hcal : o.calibrate totalActs dms = .ok (dms', M))
    (hdms : ∀ d ∈ dms, d.shapes.length = d.nActs ∧ (o.scrn + d.nElem) % 2 = 0) (hkept : ∀ d ∈ dms', d.shapes ≠ []) (lam : ℕ → ℕ) (hconj : Conjugate o dms'.length lam) (c : List ℚ) (t : ℕ → ℕ → ℕ → ℚ) (hm : Makes o dms' lam c t) (m : ℕ) (hmm : m < o.totalMeas) :
    (o.uncorrected t).getD m 0 = ∑ p ∈ Finset.range M.length, c.getD p 0 * (M.getD p []).getD m 0 := by
  obtain ⟨hl, hML, hrow⟩ := calibrate_rows o ho totalActs dms dms' M hcal hdms
  rw [uncorrected_get o ho, List.getD_eq_getElem?_getD, List.getElem?_map, List.getElem?_range hmm, Option.map_some, Option.getD_some, senses_apply,
    makes_measAt o dms' (fun k d h => (hrow k d h).1) hkept lam hconj c t hm, hML]
  refine Finset.sum_congr rfl fun p hp => ?_
  rw [Finset.mem_range] at hp
  obtain ⟨k, first, count, ⟨hf, d', hd', hc⟩, j, hj, rfl⟩ := of_some dms' p hp
  rw [← senses_apply, hf, shapeAt_get o dms' 0 k d' j hd' (by omega), (hrow k d' hd').2 j (by omega) m hmm, Nat.zero_add]

/-- If all mirrors have one mode and gain, it does not matter what the control matrix mixes. -/
theorem one_mode (dms : List Persist.Dm) (closed : Bool) (g : ℚ) (p : ℕ) (hp : p < (dms.map fun d => d.shapes.length).sum) :
    closedOf (mixedControls dms (List.replicate dms.length (closed, g))) p = closed ∧ gainOf (mixedControls dms (List.replicate dms.length (closed, g))) p = g := by
  obtain ⟨k, first, count, hof, j, hj, rfl⟩ := of_some dms p hp
  have hk : k < dms.length := by
    obtain ⟨_, d, hd, _⟩ := hof
    exact (List.getElem?_eq_some_iff.mp hd).1
  exact mode_of dms _ (by simp) k first count hof (closed, g) (by simp [hk]) j hj

/-- **C158 (whole).** A self-calibrated simulation with a control matrix that finds its own commands again, as every pseudo-inverse does whatever singular values it drops and whether or not the sensors can tell all actuators apart, and one gain and mode for all mirrors: whatever the atmosphere shows and whatever the noise,
the run completes. In closed loop every command follows what the control matrix reconstructs from the measurements without mirrors and noise, late by the delay and with the gain; in open loop it is its weighted mean, late by the delay. The measurements are the uncorrected ones minus the commands, in closed loop, times the interaction matrix, plus the noise. -/
theorem C158_whole (o : Optics) (ho : Optics.Sound o) (totalActs : ℕ) (dms dms' : List Persist.Dm) (M : List (List ℚ)) (hcal : o.calibrate totalActs dms = .ok (dms', M))
    (hne : dms ≠ []) (hdms : ∀ d ∈ dms, d.shapes.length = d.nActs ∧ (o.scrn + d.nElem) % 2 = 0) (hkept : ∀ d ∈ dms', d.shapes ≠ [])
    (P : List (List ℚ)) (hrows : P.length = o.totalMeas) (hcols : ∀ r ∈ P, r.length = M.length) (hinv : Refinds P M)
    (closed : Bool) (g : ℚ) (d nIters nActs n : ℕ) (hN : 1 ≤ nIters) (saveSlopes saveDm : Bool) (hstore : saveDm = true → nActs = M.length) (turb : ℕ → ℕ → ℕ → ℕ → ℚ) (err : ℕ → ℕ → ℚ) :
    ∃ s' ts, runLoop (o.sys dms' P d nIters saveSlopes saveDm) (o.noisyPlant turb err) (initial (o.sys dms' P d nIters saveSlopes saveDm) (mixedControls dms' (List.replicate dms'.length (closed, g))) o.totalMeas nActs ())
        (List.replicate n (mixedControls dms' (List.replicate dms'.length (closed, g)))) = .ok (s', ts) ∧
      ts.length = n ∧ ∀ (i : ℕ) (t : Trace Stack), ts[i]? = some t →
        (∀ p, p < M.length → t.cmds[p]? = some (if closed
          then reconstructed P (o.uncorrected (turb i)) p - lag d g (fun k => reconstructed P (o.uncorrected (turb k)) p) (fun k => ∑ m ∈ Finset.range o.totalMeas, (P.getD m []).getD p 0 * err k m) i
          else smooth g (fun k => reconstructed P (o.uncorrected (turb k)) p + ∑ m ∈ Finset.range o.totalMeas, (P.getD m []).getD p 0 * err k m) (i - d))) ∧
        (t.slopes = (List.range o.totalMeas).map fun m => (o.uncorrected (turb i)).getD m 0 - (∑ p ∈ Finset.range M.length, (if closed then t.cmds.getD p 0 else 0) * (M.getD p []).getD m 0) + err i m) ∧
        t.seenBySci.sum = ∑ p ∈ Finset.range M.length, t.cmds.getD p 0 • shapeAt o 0 dms' p := by
  obtain ⟨hl, hML, _⟩ := calibrate_rows o ho totalActs dms dms' M hcal hdms
  have one := fun p (hp : p < M.length) => one_mode dms' closed g p (by omega)
  obtain ⟨s', ts, h1, h2, h3⟩ := filtered_any o ho totalActs dms dms' M hcal hne hdms hkept P hrows hcols hinv (List.replicate dms'.length (closed, g)) (by simp [hl]) (fun p q hp hq _ => by rw [(one p hp).1, (one p hp).2, (one q hq).1, (one q hq).2]; exact ⟨rfl, rfl⟩)
    d nIters nActs n hN saveSlopes saveDm hstore turb (o.noisyPlant turb err) err (noisy_sense o ho turb err)
  refine ⟨s', ts, h1, h2, fun i t ht => ?_⟩
  obtain ⟨a1, a2, a3⟩ := h3 i t ht
  refine ⟨fun p hp => ?_, ?_, a3⟩
  · have := a1 p hp
    rwa [(one p hp).1, (one p hp).2] at this
  · rw [a2]
    refine List.map_congr_left fun m _ => ?_
    congr 2
    refine Finset.sum_congr rfl fun p hp => ?_
    rw [(one p (Finset.mem_range.mp hp)).1]

/-- **C158 (in the end).** If the layers stand still and the gain is stable (closed loop) or between 0 and 2 (open loop), then the commands come and stay as close as one likes to those that the control matrix reconstructs from the measurements without mirrors,
in closed loop the measurements to something of which the control matrix reconstructs nothing, and what a camera sees to a part of the turbulence that is linear in it, the same for all gains and delays and both modes, and nothing for turbulence that the mirrors can make with commands that the control matrix can give. -/
theorem C158_end (o : Optics) (ho : Optics.Sound o) (totalActs : ℕ) (dms dms' : List Persist.Dm) (M : List (List ℚ)) (hcal : o.calibrate totalActs dms = .ok (dms', M))
    (hne : dms ≠ []) (hdms : ∀ d ∈ dms, d.shapes.length = d.nActs ∧ (o.scrn + d.nElem) % 2 = 0) (hkept : ∀ d ∈ dms', d.shapes ≠ [])
    (P : List (List ℚ)) (hrows : P.length = o.totalMeas) (hcols : ∀ r ∈ P, r.length = M.length) (hinv : Refinds P M) (lam : ℕ → ℕ) (hconj : Conjugate o dms'.length lam) (cam : Geom) (hgs : cam.scrn = o.scrn) (k : ℚ) (hk : k ≠ 0) :
    ∃ (left : (ℕ → ℕ → ℕ → ℚ) → ℕ → ℚ) (rest : (ℕ → ℕ → ℕ → ℚ) → ℕ → ℕ → ℚ), (∀ (a : ℚ) (t u : ℕ → ℕ → ℕ → ℚ) (x y : ℕ), rest (fun l i j => a * t l i j + u l i j) x y = a * rest t x y + rest u x y) ∧
      (∀ meas c t, Makes o dms' lam c t → (∀ p, p < M.length → c.getD p 0 = reconstructed P meas p) → ∀ x y, rest t x y = 0) ∧
      (∀ t p, p < M.length → ∑ m ∈ Finset.range o.totalMeas, (P.getD m []).getD p 0 * left t m = 0) ∧
      ∀ (closed : Bool) (g : ℚ) (d nIters nActs : ℕ) (saveSlopes saveDm : Bool), 1 ≤ nIters → (saveDm = true → nActs = M.length) → (if closed then StableGain d g else 0 < g ∧ g < 2) → ∀ (still : ℕ → ℕ → ℕ → ℚ) (ε : ℚ), 0 < ε →
      ∃ K, ∀ n, ∃ s' ts, runLoop (o.sys dms' P d nIters saveSlopes saveDm) (o.plant fun _ => still) (initial (o.sys dms' P d nIters saveSlopes saveDm) (mixedControls dms' (List.replicate dms'.length (closed, g))) o.totalMeas nActs ())
          (List.replicate n (mixedControls dms' (List.replicate dms'.length (closed, g)))) = .ok (s', ts) ∧
        ts.length = n ∧ ∀ (i : ℕ) (t : Trace Stack), K ≤ i → ts[i]? = some t →
          (∀ p, p < M.length → ∃ x, t.cmds[p]? = some x ∧ |x - reconstructed P (o.uncorrected still) p| < ε) ∧
          (closed = true → ∀ m, m < o.totalMeas → |t.slopes.getD m 0 - left still m| < ε) ∧
          ∃ st, o.look cam k still t.seenBySci = .ok st ∧ ∀ x y, x < cam.nOut → y < cam.nOut → |st.phase.px x y - rest still x y| < ε := by
  set w : LinWfs := ⟨cam, k, 0, fun _ _ _ => 0⟩ with hw
  obtain ⟨hl, hML, hrow⟩ := calibrate_rows o ho totalActs dms dms' M hcal hdms
  have z : ∀ x y, view o w 0 x y = 0 := fun x y => by
    have := view_lin o w 1 0 0 x y
    simp only [smul_zero, add_zero, one_mul] at this
    linarith
  have sc : ∀ (a : ℚ) v x y, view o w (a • v) x y = a * view o w v x y := fun a v x y => by
    have := view_lin o w a v 0 x y
    rwa [add_zero, z, add_zero] at this
  have back : ∀ c : ℕ → ℚ, ∀ p, ∑ m ∈ Finset.range o.totalMeas, (P.getD m []).getD p 0 * (∑ q ∈ Finset.range M.length, c q * (M.getD q []).getD m 0) = ∑ q ∈ Finset.range M.length, c q * mixes P M q p := by
    intro c p
    simp only [Finset.mul_sum]
    rw [Finset.sum_comm]
    refine Finset.sum_congr rfl fun q _ => ?_
    rw [mixes, hrows, Finset.mul_sum]
    refine Finset.sum_congr rfl fun m _ => ?_
    ring
  refine ⟨fun t m => (o.uncorrected t).getD m 0 - ∑ p ∈ Finset.range M.length, reconstructed P (o.uncorrected t) p * (M.getD p []).getD m 0,
    fun t x y => view o w (t, 0) x y - ∑ p ∈ Finset.range M.length, reconstructed P (o.uncorrected t) p * view o w (shapeAt o 0 dms' p) x y, ?_, ?_, ?_, ?_⟩
  · intro a t u x y
    have e : ((fun l i j => a * t l i j + u l i j, 0) : Stack) = a • ((t, 0) : Stack) + (u, 0) := by
      refine Prod.ext ?_ ?_
      · funext l i j
        simp
      · simp
    dsimp only
    rw [e, view_lin]
    simp only [reconstructed_lin o ho P hrows, add_mul, mul_assoc, Finset.sum_add_distrib, ← Finset.mul_sum]
    ring
  · intro meas c t hm hc x y
    dsimp only
    rw [makes_view o dms' (fun k d h => (hrow k d h).1) hkept lam hconj c t hm w, ← hML, ← Finset.sum_sub_distrib]
    refine Finset.sum_eq_zero fun p hp => ?_
    rw [Finset.mem_range] at hp
    have : reconstructed P (o.uncorrected t) p = c.getD p 0 := by
      rw [reconstructed, hrows, Finset.sum_congr rfl fun m hm' => by rw [makes_uncorrected o ho totalActs dms dms' M hcal hdms hkept lam hconj c t hm m (Finset.mem_range.mp hm')], back fun q => c.getD q 0,
        Finset.sum_congr rfl fun q hq => by rw [hc q (Finset.mem_range.mp hq)], refound P M hinv meas p hp, hc p hp]
    rw [this, sub_self]
  · intro t p hp
    dsimp only
    simp only [mul_sub, Finset.sum_sub_distrib]
    rw [back, refound P M hinv _ p hp, reconstructed, hrows, sub_self]
  · intro closed g d nIters nActs saveSlopes saveDm hN hstore hstab still ε hε
    set a : ℕ → ℚ := fun p => reconstructed P (o.uncorrected still) p with ha
    set miss : ℕ → ℕ → ℚ := fun p i => if closed then leftOver d g (a p) i else (1 - g) ^ (i - d) * a p with hmiss
    have hset : ∀ p, p < M.length → Settles (miss p) := fun p hp => by
      simp only [hmiss]
      cases closed with
      | true =>
        simp only [if_true] at hstab ⊢
        by_cases h0 : a p = 0
        · rw [h0]
          intro ε hε
          refine ⟨0, fun n _ => ?_⟩
          dsimp only
          rw [leftOver_zero_start, abs_zero]
          exact hε
        · exact (C79_exact d _ _ h0).mpr hstab
      | false =>
        simp only [Bool.false_eq_true, if_false] at hstab ⊢
        intro ε hε
        obtain ⟨N, hN⟩ := pow_small |1 - g| |a p| ε (abs_nonneg _) (by rw [abs_lt]; constructor <;> linarith [hstab.1, hstab.2]) hε
        refine ⟨N + d, fun n hn => ?_⟩
        rw [abs_mul, abs_pow]
        exact hN (n - d) (by omega)
    obtain ⟨K1, hK1⟩ := settles_all M.length miss hset ε hε
    obtain ⟨K2, hK2⟩ := settles_all o.totalMeas (fun m i => ∑ p ∈ Finset.range M.length, miss p i * (M.getD p []).getD m 0) (fun m _ => settles_sum M.length miss (fun p => (M.getD p []).getD m 0) hset) ε hε
    obtain ⟨K3, hK3⟩ := settles_all (cam.nOut * cam.nOut) (fun q i => ∑ p ∈ Finset.range M.length, miss p i * view o w (shapeAt o 0 dms' p) (q / cam.nOut) (q % cam.nOut))
      (fun q _ => settles_sum M.length miss (fun p => view o w (shapeAt o 0 dms' p) (q / cam.nOut) (q % cam.nOut)) hset) ε hε
    refine ⟨max K1 (max K2 K3), fun n => ?_⟩
    obtain ⟨s', ts, h1, h2, h3⟩ := C158_whole o ho totalActs dms dms' M hcal hne hdms hkept P hrows hcols hinv closed g d nIters nActs n hN saveSlopes saveDm hstore (fun _ => still) fun _ _ => 0
    rw [noisy_zero] at h1
    refine ⟨s', ts, h1, h2, fun i t hi ht => ?_⟩
    obtain ⟨a1, a2, a3⟩ := h3 i t ht
    have hcmd : ∀ p, p < M.length → t.cmds[p]? = some (a p - miss p i) := by
      intro p hp
      rw [a1 p hp]
      simp only [hmiss]
      cases closed with
      | true => simp only [if_true, mul_zero, Finset.sum_const_zero, lag_static, ha]
      | false => simp only [Bool.false_eq_true, if_false, mul_zero, Finset.sum_const_zero, add_zero, smooth_static, ha]
    have hget : ∀ p, p < M.length → t.cmds.getD p 0 = a p - miss p i := fun p hp => by rw [List.getD_eq_getElem?_getD, hcmd p hp, Option.getD_some]
    refine ⟨fun p hp => ⟨_, hcmd p hp, ?_⟩, fun hcl m hm => ?_, ?_⟩
    · rw [sub_sub_cancel_left, abs_neg]
      exact hK1 i (by omega) p hp
    · rw [a2, List.getD_eq_getElem?_getD (l := List.map _ _), List.getElem?_map, List.getElem?_range hm, Option.map_some, Option.getD_some, hcl]
      simp only [if_true]
      have := hK2 i (by omega) m hm
      rw [add_zero, sub_sub_sub_cancel_left, ← Finset.sum_sub_distrib]
      rw [Finset.sum_congr rfl fun p hp => ?_]
      · exact this
      rw [hget p (Finset.mem_range.mp hp)]
      ring
    · obtain ⟨st, b1, _, _, b4⟩ := look_eq o ho.1 cam hgs k hk still t.seenBySci w rfl rfl
      refine ⟨st, b1, fun x y hx hy => ?_⟩
      have hv : view o w ((still, 0) - t.seenBySci.sum) x y = view o w (still, 0) x y - view o w t.seenBySci.sum x y := by
        have := view_lin o w (-1) t.seenBySci.sum (still, 0) x y
        rw [neg_one_smul, neg_one_mul, neg_add_eq_sub, neg_add_eq_sub] at this
        exact this
      rw [b4 x y hx hy, hv, a3, view_sum, sub_sub_sub_cancel_left, ← Finset.sum_sub_distrib]
      have hq : x * cam.nOut + y < cam.nOut * cam.nOut := by nlinarith
      have := hK3 i (by omega) (x * cam.nOut + y) hq
      have hpos : 0 < cam.nOut := by omega
      rw [Nat.mul_comm x, Nat.mul_add_div hpos, Nat.div_eq_of_lt hy, Nat.mul_add_mod, Nat.mod_eq_of_lt hy, Nat.add_zero] at this
      rw [Finset.sum_congr rfl fun p hp => ?_]
      · exact this
      rw [sc, hget p (Finset.mem_range.mp hp)]
      ring

end

/-! ### Pseudo-inverses -/

section

open Soapy.Pinv Matrix

/-- **C158 (pseudo-inverses).** Whatever the conditioning: a control matrix that is the pseudo-inverse of the interaction matrix, singular values below the conditioning dropped, finds its own commands again. -/
theorem C158_pinv {a m : ℕ} {A : Matrix (Fin a) (Fin m) ℝ} (S : Svd A) (r : ℝ) (hr : 0 ≤ r) (P M : List (List ℚ)) (hPl : P.length = m) (hMl : M.length = a) (hM : ∀ (p : Fin a) (k : Fin m), (((M.getD p []).getD k 0 : ℚ) : ℝ) = A p k)
    (hP : ∀ (k : Fin m) (p : Fin a), (((P.getD k []).getD p 0 : ℚ) : ℝ) = S.pinv r k p) : Refinds P M := by
  have key : S.pinv r * (A * S.pinv r) = S.pinv r := by
    unfold Svd.pinv
    have e : A * (S.vtᵀ * (diagonal (S.inv r) * S.uᵀ)) = S.u * (diagonal (fun i => S.s i * S.inv r i) * S.uᵀ) := by
      have h0 : ∀ X : Matrix (Fin m) (Fin a) ℝ, A * X = S.u * diagonal S.s * (S.vt * X) := fun X => by
        conv_lhs => rw [← S.eq]
        rw [Matrix.mul_assoc]
      rw [h0, ← Matrix.mul_assoc S.vt, S.orthV, Matrix.one_mul, Matrix.mul_assoc, ← Matrix.mul_assoc (diagonal S.s), diagonal_mul_diagonal]
    rw [e, Matrix.mul_assoc, Matrix.mul_assoc, ← Matrix.mul_assoc S.uᵀ, S.orthU, Matrix.one_mul, ← Matrix.mul_assoc (diagonal (S.inv r)), diagonal_mul_diagonal]
    congr 3
    funext i
    simp only [Svd.inv]
    split_ifs with h
    · have hs : S.s i ≠ 0 := by
        have h0 : 0 ≤ S.top := Real.iSup_nonneg S.nonneg
        have : 0 < S.s i := lt_of_le_of_lt (mul_nonneg hr h0) h
        exact this.ne'
      field_simp
    · simp
  intro k p hk hp
  rw [hPl] at hk
  rw [hMl] at hp
  have h := congrFun (congrFun key ⟨k, hk⟩) ⟨p, hp⟩
  rw [← hP, Matrix.mul_apply] at h
  have : ((∑ q ∈ Finset.range M.length, (P.getD k []).getD q 0 * (∑ l ∈ Finset.range P.length, (M.getD q []).getD l 0 * (P.getD l []).getD p 0) : ℚ) : ℝ) = ((P.getD k []).getD p 0 : ℚ) := by
    rw [← h, hMl, hPl, Finset.sum_range]
    push_cast
    refine Finset.sum_congr rfl fun q _ => ?_
    rw [← hP ⟨k, hk⟩ q, Matrix.mul_apply]
    congr 1
    rw [Finset.sum_range]
    refine Finset.sum_congr rfl fun l _ => ?_
    rw [← hM q l, ← hP l ⟨p, hp⟩]
  exact_mod_cast this

private theorem hardly2 : ∀ i : Fin 2, 0 ≤ (![2, 1] : Fin 2 → ℝ) i := by
  intro i
  fin_cases i <;> simp

/-- The pseudo-inverse of a diagonal interaction matrix with the second singular value dropped. -/
example : Refinds [[1 / 2, 0], [0, 0]] [[2, 0], [0, 1]] :=
  C158_pinv (diagSvd ![2, 1] hardly2) (3 / 4) (by norm_num) _ _ rfl rfl
    (A := diagonal ![2, 1]) (by intro p k; fin_cases p <;> fin_cases k <;> simp)
    (by
      intro k p
      have k0 : (diagSvd ![2, 1] (hardly2)).inv (3 / 4) (0 : Fin 2) = 1 / 2 := by
        have h : (3 / 4 : ℝ) * (diagSvd ![2, 1] hardly2).top < (diagSvd ![2, 1] hardly2).s (0 : Fin 2) := by
          rw [diagSvd_top]
          change 3 / 4 * max (2 : ℝ) 1 < 2
          norm_num
        exact if_pos h
      have k1 : (diagSvd ![2, 1] (hardly2)).inv (3 / 4) (1 : Fin 2) = 0 := by
        have h : ¬ (3 / 4 : ℝ) * (diagSvd ![2, 1] hardly2).top < (diagSvd ![2, 1] hardly2).s (1 : Fin 2) := by
          rw [diagSvd_top]
          change ¬ 3 / 4 * max (2 : ℝ) 1 < 1
          norm_num
        exact if_neg h
      rw [diagSvd_pinv]
      fin_cases k <;> fin_cases p <;> simp [k0, k1])

end

section

open Soapy.Mirror Soapy.Los Soapy.Whole

/-- The simulation of C111 with a control matrix that does not use the second mirror at all. -/
def filteredCmat : List (List ℚ) := [[1 / 4, 0, 0], [0, 1 / 4, 0], [1 / 4, 0, 0], [0, 1 / 4, 0]]

theorem filtered_refinds : Refinds filteredCmat wholeImat := by
  have h : ∀ m < 4, ∀ p < 3, ∑ q ∈ Finset.range 3, (filteredCmat.getD m []).getD q 0 * (∑ l ∈ Finset.range 4, (wholeImat.getD q []).getD l 0 * (filteredCmat.getD l []).getD p 0) = (filteredCmat.getD m []).getD p 0 := by decide +kernel
  exact fun m p hm hp => h m hm p hp

example : ¬ Undoes filteredCmat wholeImat := by
  intro h
  have := h 2 2 (by decide) (by decide)
  revert this
  decide +kernel

example : ∃ dms', wholeOptics.calibrate 4 wholeDms = .ok (dms', wholeImat) ∧ ∃ (left : (ℕ → ℕ → ℕ → ℚ) → ℕ → ℚ) (rest : (ℕ → ℕ → ℕ → ℚ) → ℕ → ℕ → ℚ), ∀ (still : ℕ → ℕ → ℕ → ℚ) (ε : ℚ), 0 < ε → ∃ K, ∀ n, ∃ s' ts,
    runLoop (wholeOptics.sys dms' filteredCmat 2 100 true false) (wholeOptics.plant fun _ => still) (initial (wholeOptics.sys dms' filteredCmat 2 100 true false) (mixedControls dms' (List.replicate dms'.length (true, 3 / 5))) 4 4 ())
      (List.replicate n (mixedControls dms' (List.replicate dms'.length (true, 3 / 5)))) = .ok (s', ts) ∧ ts.length = n ∧ ∀ (i : ℕ) (t : Trace Stack), K ≤ i → ts[i]? = some t → (∀ m, m < 4 → |t.slopes.getD m 0 - left still m| < ε) ∧
        ∃ st, wholeOptics.look (wholeWfs (1 / 5000)).geom 2 still t.seenBySci = .ok st ∧ ∀ x y, x < 2 → y < 2 → |st.phase.px x y - rest still x y| < ε := by
  obtain ⟨dms', h1, h2⟩ := whole_ok
  have hd : ∀ d ∈ wholeDms, d.shapes.length = d.nActs ∧ (wholeOptics.scrn + d.nElem) % 2 = 0 := by
    intro d hd; simp only [wholeDms, List.mem_cons, List.not_mem_nil, or_false] at hd; rcases hd with rfl | rfl <;> exact ⟨rfl, rfl⟩
  obtain ⟨hl, _, _⟩ := calibrate_rows wholeOptics whole_sound 4 wholeDms dms' wholeImat h1 hd
  have hl2 : dms'.length = 2 := hl
  have hconj : Conjugate wholeOptics dms'.length id := by
    intro k hk
    rw [hl2] at hk
    interval_cases k <;> exact ⟨by decide, by decide, rfl⟩
  obtain ⟨left, rest, _, _, _, r⟩ := C158_end wholeOptics whole_sound 4 wholeDms dms' wholeImat h1 (by simp [wholeDms]) hd h2 filteredCmat rfl (by decide) filtered_refinds id hconj (wholeWfs (1 / 5000)).geom rfl 2 two_ne_zero
  refine ⟨dms', h1, left, rest, fun still ε hε => ?_⟩
  obtain ⟨K, hK⟩ := r true (3 / 5) 2 100 4 true false (by norm_num) (fun h => nomatch h) (by simpa using camera_default (3 / 5) (by simp)) still ε hε
  refine ⟨K, fun n => ?_⟩
  obtain ⟨s', ts, q1, q2, q3⟩ := hK n
  exact ⟨s', ts, q1, q2, fun i t hi ht => ⟨(q3 i t hi ht).2.1 rfl, (q3 i t hi ht).2.2⟩⟩

end

end Soapy.Props
