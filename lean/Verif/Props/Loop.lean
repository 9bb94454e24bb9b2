/-
Property theorems C16–C19: the control loop and the recorded history.
-/
import Verif.Lemmas.Loop
import Verif.Props.Delay
import Verif.Props.Control

namespace Soapy.Props

open Soapy.Loop Soapy.Control Soapy.Vec

section C16

variable {σ Surf : Type} [AddMonoid Surf]

theorem runLoop_fixed_inv (sys : Sys Surf) (pl : Plant σ Surf) (dms : List DmCtl) (n : ℕ)
    (s s' : State σ Surf) (ts : List (Trace Surf))
    (h : runLoop sys pl s (List.replicate n dms) = .ok (s', ts))
    (hlc : s.closedCorr.length = dms.length) (hlo : s.openCorr.length = dms.length)
    (hc : ∀ (k : ℕ) (d : DmCtl), dms[k]? = some d → d.closed = false → s.closedCorr[k]? = some 0)
    (ho : ∀ (k : ℕ) (d : DmCtl), dms[k]? = some d → d.closed = true → s.openCorr[k]? = some 0) :
    ∀ (i : ℕ) (t : Trace Surf), ts[i]? = some t →
      t.seenByWfs.length = dms.length ∧ t.seenBySci.length = dms.length ∧
      ∀ (k : ℕ) (d : DmCtl), dms[k]? = some d →
        ∃ x, sys.surface k (slice t.cmds (firstCommand dms k) (firstCommand dms k + d.nValid)) = .ok x ∧
          t.seenByWfs[k]? = some (if d.closed then x else 0) ∧ t.seenBySci[k]? = some x := by
  induction n generalizing s ts with
  | zero =>
    simp [runLoop] at h
    obtain ⟨_, rfl⟩ := h
    simp
  | succ n ih =>
    rw [List.replicate_succ] at h
    obtain ⟨s1, t1, ts', h1, h2, rfl⟩ := runLoop_cons sys pl s s' dms _ ts h
    obtain ⟨_, e1, e2, _, e3, e4, _⟩ := loopFrame_ok sys pl dms s s1 t1 h1
    obtain ⟨l1, _, p1⟩ := runDM_spec _ _ _ _ _ _ _ _ e1 (by omega)
    obtain ⟨l2, _, p2⟩ := runDM_spec _ _ _ _ _ _ _ _ e2 (by omega)
    have hfa : ∀ (k : ℕ) (d : DmCtl), dms[k]? = some d →
        (firstActs dms 0)[k]? = some (firstCommand dms k) := by
      intro k d hk
      have hlt : k < dms.length := by
        by_contra hcon
        rw [List.getElem?_eq_none (by omega)] at hk; simp at hk
      rw [firstActs_get dms 0 k hlt]; simp [firstCommand]
    intro i t hi
    cases i with
    | zero =>
      simp at hi; subst hi
      refine ⟨by rw [e3]; omega, by rw [e4]; simp; omega, ?_⟩
      intro k d hk
      have q1 := p1 k d _ hk (hfa k d hk)
      have q2 := p2 k d _ hk (hfa k d hk)
      simp only [Nat.zero_add] at q1 q2
      cases hcl : d.closed
      · simp only [hcl, Bool.false_eq_true, if_false, if_true] at q1 q2
        obtain ⟨x, hx1, hx2⟩ := q2
        rw [hc k d hk hcl] at q1
        refine ⟨x, hx1, by rw [e3, q1]; simp, ?_⟩
        rw [e4, List.getElem?_zipWith, hx2, q1]; simp
      · simp only [hcl, if_true] at q1 q2
        obtain ⟨x, hx1, hx2⟩ := q1
        rw [if_neg (by simp), ho k d hk hcl] at q2
        refine ⟨x, hx1, by rw [e3, hx2]; simp, ?_⟩
        rw [e4, List.getElem?_zipWith, hx2, q2]; simp
    | succ i =>
      simp at hi
      refine ih s1 ts' h2 (by omega) (by omega) ?_ ?_ i t hi
      · intro k d hk hcl
        have q1 := p1 k d _ hk (hfa k d hk)
        rw [if_neg (by simp [hcl])] at q1
        rw [Nat.zero_add] at q1
        rw [q1]; exact hc k d hk hcl
      · intro k d hk hcl
        have q2 := p2 k d _ hk (hfa k d hk)
        rw [if_neg (by simp [hcl])] at q2
        rw [Nat.zero_add] at q2
        rw [q2]; exact ho k d hk hcl

/-- **C16.** With a fixed configuration, in every frame of a run the sensors are given, for each mirror, its surface for
the current commands if the mirror is in closed loop and zero otherwise, and the science cameras are given the surface of each mirror exactly
once. -/
theorem C16_who_sees_what (sys : Sys Surf) (pl : Plant σ Surf) (dms : List DmCtl) (nMeas nActs n : ℕ)
    (x₀ : σ) (s' : State σ Surf) (ts : List (Trace Surf))
    (h : runLoop sys pl (initial sys dms nMeas nActs x₀) (List.replicate n dms) = .ok (s', ts)) :
    ts.length = n ∧ ∀ (i : ℕ) (t : Trace Surf), ts[i]? = some t →
      t.seenByWfs.length = dms.length ∧ t.seenBySci.length = dms.length ∧
      ∀ (k : ℕ) (d : DmCtl), dms[k]? = some d →
        ∃ x, sys.surface k (slice t.cmds (firstCommand dms k) (firstCommand dms k + d.nValid)) = .ok x ∧
          t.seenByWfs[k]? = some (if d.closed then x else 0) ∧ t.seenBySci[k]? = some x := by
  refine ⟨by simpa using (runLoop_length sys pl _ _ _ _ h).1, ?_⟩
  have hlt : ∀ (k : ℕ) (d : DmCtl), dms[k]? = some d → k < dms.length := by
    intro k d hk
    by_contra hcon
    rw [List.getElem?_eq_none (by omega)] at hk; simp at hk
  exact runLoop_fixed_inv sys pl dms n _ _ _ h (by simp [initial]) (by simp [initial])
    (fun k d hk _ => by simp [initial, hlt k d hk]) (fun k d hk _ => by simp [initial, hlt k d hk])

end C16

/-- A small system: two one-actuator mirrors (closed, open), whose surface is the command itself; sensors return
frame number + 1 minus the correction. -/
def toySys : Sys ℚ where
  surface := fun _ c => .ok c.sum
  product := fun m => .ok [m.sum, m.sum]
  loopDelay := 1
  nIters := 3
  saveSlopes := true
  saveDmCommands := true

def toyPlant : Plant Unit ℚ where
  sense := fun _ i c => .ok ((), [(i : ℚ) + 1 - c.sum])

def toyDms : List DmCtl := [⟨1, true, 1 / 2⟩, ⟨1, false, 1 / 2⟩]

deriving instance DecidableEq for Trace

example : (runLoop toySys toyPlant (initial toySys toyDms 1 2 ()) (List.replicate 4 toyDms)).map (·.2) =
    .ok [⟨[0, 0], [0, 0], [1], [0, 0]⟩, ⟨[0, 0], [0, 0], [2], [0, 0]⟩,
      ⟨[1 / 2, 1 / 2], [1 / 2, 0], [5 / 2], [1 / 2, 1 / 2]⟩,
      ⟨[3 / 2, 5 / 4], [3 / 2, 0], [5 / 2], [3 / 2, 5 / 4]⟩] := by decide +kernel

/-- **C16 (runs complete).** A run whose parts fit together — mirrors accept their commands, the reconstructor accepts the measurements, the sensors
return measurements, and recorded rows have the right length — completes every frame, for any number of frames, any
non-negative delay and any switching of modes and gains during the run. -/
theorem C16_run_completes {σ Surf : Type} [AddMonoid Surf] (sys : Sys Surf) (pl : Plant σ Surf)
    (dms : List DmCtl) (nMeas nActs d : ℕ) (x₀ : σ) (cfg : List (List DmCtl))
    (hcfg : ∀ c ∈ cfg, c.map DmCtl.nValid = dms.map DmCtl.nValid)
    (hsurf : ∀ (i : ℕ) (m : DmCtl), dms[i]? = some m → ∀ c : List ℚ, c.length = m.nValid →
      ∃ x, sys.surface i c = .ok x)
    (hprod : ∀ m : List ℚ, m.length = nMeas → ∃ u, sys.product m = .ok u ∧
      u.length = (dms.map DmCtl.nValid).sum)
    (hsense : ∀ (x : σ) (i : ℕ) (c : List Surf), c.length = dms.length →
      ∃ x' m, pl.sense x i c = .ok (x', m) ∧ m.length = nMeas)
    (hN : 1 ≤ sys.nIters) (hd : sys.loopDelay = d)
    (hstore : sys.saveDmCommands = true → nActs = (dms.map DmCtl.nValid).sum) :
    ∃ s' ts, runLoop sys pl (initial sys dms nMeas nActs x₀) cfg = .ok (s', ts) := by
  have hinit : Sized sys (dms.map DmCtl.nValid).sum nMeas dms.length nActs
      (initial sys dms nMeas nActs x₀ : State σ Surf) := by
    constructor <;> simp [initial, zeros]
  generalize (initial sys dms nMeas nActs x₀ : State σ Surf) = s at hinit
  induction cfg generalizing s with
  | nil => exact ⟨s, [], rfl⟩
  | cons c rest ih =>
    have hc := hcfg c (by simp)
    have hlen : c.length = dms.length := by simpa using congrArg List.length hc
    obtain ⟨s1, t, h1, h2⟩ := loopFrame_total sys pl c nMeas nActs d s (by rw [hc, hlen]; exact hinit)
      (by
        intro i m hm x hx
        have : (c.map DmCtl.nValid)[i]? = some m.nValid := by simp [hm]
        rw [hc, List.getElem?_map] at this
        cases hdm : dms[i]? with
        | none => rw [hdm] at this; simp at this
        | some m' =>
          rw [hdm] at this; simp at this
          exact hsurf i m' hdm x (by omega))
      (by rw [hc]; exact hprod) (by rw [hlen]; exact hsense) hN hd (by rw [hc]; exact hstore)
    rw [hc, hlen] at h2
    obtain ⟨s2, ts, h3⟩ := ih (fun c' hc' => hcfg c' (by simp [hc'])) s1 h2
    exact ⟨s2, t :: ts, by rw [runLoop, h1]; dsimp only; rw [h3]⟩

example : ∃ s' ts, runLoop toySys toyPlant (initial toySys toyDms 1 2 ())
    (List.replicate 100 toyDms) = .ok (s', ts) :=
  C16_run_completes toySys toyPlant toyDms 1 2 1 () _ (by simp) (fun _ _ _ _ _ => ⟨_, rfl⟩)
    (fun _ _ => ⟨_, rfl, rfl⟩) (fun _ _ _ _ => ⟨_, _, rfl, rfl⟩) (by decide) rfl (fun _ => rfl)

/-- **C16 needs a fixed configuration**: if a mirror is switched from closed to open loop during a run, its last
closed-loop surface stays in the sensors' and the science path, and the science camera sees old and new surface. -/
theorem C16_toggle_leaves_stale_surface :
    (runLoop { toySys with loopDelay := 0, product := fun _ => .ok [1] } toyPlant
      (initial toySys [⟨1, true, 1⟩] 1 1 ()) [[⟨1, true, 1⟩], [⟨1, false, 1⟩]]).map (·.2) =
    .ok [⟨[1], [1], [0], [1]⟩, ⟨[1], [1], [1], [2]⟩] := by decide +kernel

section C17

variable {σ σ' Surf : Type} [Add Surf]

/-- **C17 (causality).** Two runs of the same control system over different atmospheres, sensors or sensor noise (`pl`,
`pl'`), from the same control state: if the measurements agree in all frames before frame `n`, the commands sent to the mirrors
agree up to and including frame `n`. -/
theorem C17_causal (sys : Sys Surf) (pl : Plant σ Surf) (pl' : Plant σ' Surf) (cfg : List (List DmCtl))
    (s s2 : State σ Surf) (s' s2' : State σ' Surf) (ts ts' : List (Trace Surf))
    (hr : s.recon = s'.recon) (hd : s.dmCommands = s'.dmCommands) (hb : s.buffer = s'.buffer)
    (hs : s.slopes = s'.slopes)
    (h : runLoop sys pl s cfg = .ok (s2, ts)) (h' : runLoop sys pl' s' cfg = .ok (s2', ts'))
    (n : ℕ) (hagree : ∀ m, m < n → (ts[m]?).map Trace.slopes = (ts'[m]?).map Trace.slopes) :
    ∀ m, m ≤ n → (ts[m]?).map Trace.cmds = (ts'[m]?).map Trace.cmds := by
  induction cfg generalizing s s' ts ts' n with
  | nil =>
    simp [runLoop] at h h'
    obtain ⟨_, rfl⟩ := h
    obtain ⟨_, rfl⟩ := h'
    simp
  | cons dms rest ih =>
    obtain ⟨u, t, us, h1, h2, rfl⟩ := runLoop_cons sys pl s s2 dms rest ts h
    obtain ⟨u', t', us', h1', h2', rfl⟩ := runLoop_cons sys pl' s' s2' dms rest ts' h'
    obtain ⟨c1, _, _, _, _, _, c2, c3, _⟩ := loopFrame_ok sys pl dms s u t h1
    obtain ⟨c1', _, _, _, _, _, c2', c3', _⟩ := loopFrame_ok sys pl' dms s' u' t' h1'
    rw [hr, hd, hb, hs, c1'] at c1
    simp only [Except.ok.injEq, Prod.mk.injEq] at c1
    obtain ⟨er, eb, ec⟩ := c1
    intro m hm
    cases m with
    | zero => simp [ec]
    | succ m =>
      have h0 := hagree 0 (by omega)
      simp at h0
      have := ih u u' us us' er.symm (by rw [c2, c2', ec]) eb.symm (by rw [c3, c3', h0]) h2 h2' (n - 1)
        (fun k hk => by simpa using hagree (k + 1) (by omega)) m (by omega)
      simpa using this

/-- **C17 (latency).** The commands sent to the mirrors are exactly: reconstruct, frame by frame, from the measurements of the
previous frame (zero measurements for the first frame), then delay by `d` frames.  So the commands of frame `n` depend on
the measurements of frames `0 … n-d-1`, and are zero in the first `d` frames. -/
theorem C17_latency [Zero Surf] (sys : Sys Surf) (pl : Plant σ Surf) (d : ℕ) (hd : sys.loopDelay = d)
    (dms : List DmCtl) (hne : dms ≠ []) (nMeas nActs n : ℕ) (x₀ : σ) (s' : State σ Surf)
    (ts : List (Trace Surf))
    (h : runLoop sys pl (initial sys dms nMeas nActs x₀) (List.replicate n dms) = .ok (s', ts)) :
    ∃ r cs, runReconstruct dms (nCommands dms) sys.product ⟨none⟩
        ((zeros nMeas :: ts.map Trace.slopes).take n) = .ok (r, cs) ∧ cs.length = n ∧
      ∀ m, m < n → (ts[m]?).map Trace.cmds =
        if m < d then (cs[m]?).map (fun c => c.map fun _ => 0) else cs[m - d]? := by
  have gen : ∀ (n : ℕ) (s s' : State σ Surf) (ts : List (Trace Surf)),
      runLoop sys pl s (List.replicate n dms) = .ok (s', ts) →
      ∃ r cs buf, runReconstruct dms (nCommands dms) sys.product s.recon
        ((s.slopes :: ts.map Trace.slopes).take n) = .ok (r, cs) ∧ cs.length = n ∧
        Delay.runDelay zeroLike s.buffer (cs.map fun c => (c, sys.loopDelay)) =
          .ok (buf, ts.map Trace.cmds) := by
    intro n
    induction n with
    | zero =>
      intro s s' ts h
      simp [runLoop] at h
      obtain ⟨_, rfl⟩ := h
      exact ⟨s.recon, [], s.buffer, rfl, rfl, rfl⟩
    | succ n ih =>
      intro s s' ts h
      rw [List.replicate_succ] at h
      obtain ⟨u, t, us, h1, h2, rfl⟩ := runLoop_cons sys pl s s' dms _ ts h
      obtain ⟨c1, _, _, _, _, _, _, c3, _⟩ := loopFrame_ok sys pl dms s u t h1
      obtain ⟨r, cs, buf, i1, i2, i3⟩ := ih u s' us h2
      unfold Loop.control at c1
      rw [if_neg (by simpa using hne)] at c1
      have hn : nCommands dms = (dms.map DmCtl.nValid).sum := rfl
      rw [← hn] at c1
      cases hrec : reconstruct dms (nCommands dms) sys.product s.recon s.slopes with
      | error e => rw [hrec] at c1; cases c1
      | ok p =>
        obtain ⟨r1, new⟩ := p
        rw [hrec] at c1
        dsimp only at c1
        split_ifs at c1 with hl
        dsimp only at c1
        cases hdel : Delay.delay zeroLike s.buffer new sys.loopDelay with
        | error e => rw [hdel] at c1; cases c1
        | ok q =>
          obtain ⟨b1, o1⟩ := q
          rw [hdel] at c1
          simp only [Except.ok.injEq, Prod.mk.injEq] at c1
          obtain ⟨e1, e2, e3⟩ := c1
          refine ⟨r, new :: cs, buf, ?_, by simp [i2], ?_⟩
          · rw [List.take_succ_cons, runReconstruct, hrec]
            dsimp only
            rw [e1, List.map_cons, ← c3, i1]
          · rw [List.map_cons, Delay.runDelay, hdel]
            dsimp only
            rw [e2, i3]
            simp [e3]
  obtain ⟨r, cs, buf, i1, i2, i3⟩ := gen n _ s' ts h
  refine ⟨r, cs, i1, i2, ?_⟩
  intro m hm
  obtain ⟨outs, o1, _, o3⟩ := C01_constant_delay zeroLike d cs
  have hb : (initial sys dms nMeas nActs x₀ : State σ Surf).buffer = [] := rfl
  rw [hb, hd, o1] at i3
  simp only [Except.ok.injEq, Prod.mk.injEq] at i3
  have := o3 m (by omega)
  rw [i3.2, List.getElem?_map] at this
  rw [this]
  unfold DelaySpec.constDelay
  split_ifs
  · congr 1
    funext c
    unfold zeroLike
    simp
  · rfl

end C17

section C58

variable {σ σ' Surf : Type} [AddMonoid Surf]

theorem map_zero_eq_zeros (v : List ℚ) : (v.map fun _ => (0 : ℚ)) = zeros v.length := by
  induction v with
  | nil => rfl
  | cons a v ih => simp [zeros, List.replicate_succ] at ih ⊢

theorem reconstruct_state (dms : List DmCtl) (n : ℕ) (product : List ℚ → Except PyErr (List ℚ)) (r r' : Recon)
    (m c : List ℚ) (h : reconstruct dms n product r m = .ok (r', c)) : r' = ⟨some c⟩ := by
  unfold reconstruct at h
  cases hp : product m with
  | error e => rw [hp] at h; cases h
  | ok u =>
    rw [hp] at h
    cases ha : r.actuatorValues with
    | none =>
      rw [ha] at h
      dsimp only at h
      cases hg : applyGain dms 0 (zeros n) u with
      | error e => rw [hg] at h; cases h
      | ok w => rw [hg] at h; simp only [Except.ok.injEq, Prod.mk.injEq] at h; rw [← h.1, h.2]
    | some a =>
      rw [ha] at h
      dsimp only at h
      cases hg : applyGain dms 0 a u with
      | error e => rw [hg] at h; cases h
      | ok w => rw [hg] at h; simp only [Except.ok.injEq, Prod.mk.injEq] at h; rw [← h.1, h.2]

/-- What a run with delay 0 keeps: an empty buffer, and sizes. -/
theorem runLoop_kept (sys : Sys Surf) (pl : Plant σ Surf) (dms : List DmCtl) (hne : dms ≠ []) (nMeas : ℕ)
    (hd : sys.loopDelay = 0)
    (hsense : ∀ x i c x' m, pl.sense x i c = .ok (x', m) → m.length = nMeas)
    (n : ℕ) (s s' : State σ Surf) (ts : List (Trace Surf))
    (h : runLoop sys pl s (List.replicate n dms) = .ok (s', ts))
    (h1 : s.buffer = []) (h2 : s.dmCommands.length = nCommands dms) (h3 : s.slopes.length = nMeas)
    (h4 : ∀ a, s.recon.actuatorValues = some a → a.length = nCommands dms) :
    s'.buffer = [] ∧ s'.dmCommands.length = nCommands dms ∧ s'.slopes.length = nMeas ∧
      ∀ a, s'.recon.actuatorValues = some a → a.length = nCommands dms := by
  induction n generalizing s ts with
  | zero =>
    simp [runLoop] at h
    obtain ⟨rfl, _⟩ := h
    exact ⟨h1, h2, h3, h4⟩
  | succ n ih =>
    rw [List.replicate_succ] at h
    obtain ⟨u, t, us, e1, e2, rfl⟩ := runLoop_cons sys pl s s' dms _ ts h
    obtain ⟨c1, _, _, c2, _, _, c3, c4, _⟩ := loopFrame_ok sys pl dms s u t e1
    have key : u.buffer = [] ∧ t.cmds.length = nCommands dms ∧
        ∀ a, u.recon.actuatorValues = some a → a.length = nCommands dms := by
      unfold Loop.control at c1
      rw [if_neg (by simpa using hne), h1, hd] at c1
      cases hrec : reconstruct dms (dms.map DmCtl.nValid).sum sys.product s.recon s.slopes with
      | error e => rw [hrec] at c1; cases c1
      | ok q =>
        obtain ⟨r1, new⟩ := q
        rw [hrec] at c1
        dsimp only at c1
        split_ifs at c1 with hl
        have hdel : Delay.delay zeroLike [] new 0 = .ok ([], new) := rfl
        dsimp only at c1
        rw [hdel] at c1
        simp only [Except.ok.injEq, Prod.mk.injEq] at c1
        obtain ⟨rr, rb, rc⟩ := c1
        refine ⟨rb.symm, by rw [← rc, hl, h2], ?_⟩
        intro a ha
        rw [← rr, reconstruct_state dms _ _ _ _ _ _ hrec] at ha
        simp at ha
        rw [← ha, hl, h2]
    exact ih u us e2 key.1 (by rw [c3]; exact key.2.1) (by rw [c4]; exact hsense _ _ _ _ _ c2) key.2.2

/-- **C58 (delay 0).** After any run and a reset, the loop sends the same commands as a freshly initialised one, as long as the
measurements are the same; the saved histories are those of a fresh simulation.  Missing: with `loopDelay ≥ 1` the delay
buffer survives the reset, see C04. -/
theorem C58_reset_restarts_partial (sys : Sys Surf) (hd : sys.loopDelay = 0) (pl : Plant σ Surf)
    (pl' : Plant σ' Surf) (dms : List DmCtl) (hne : dms ≠ []) (nMeas nActs n k : ℕ) (x₀ : σ) (y₀ : σ')
    (hsense : ∀ x i c x' m, pl.sense x i c = .ok (x', m) → m.length = nMeas)
    (s1 s2 : State σ Surf) (s2' : State σ' Surf) (ts ts2 ts2' : List (Trace Surf))
    (h1 : runLoop sys pl (initial sys dms nMeas nActs x₀) (List.replicate n dms) = .ok (s1, ts))
    (h2 : runLoop sys pl (resetLoop sys s1) (List.replicate k dms) = .ok (s2, ts2))
    (h2' : runLoop sys pl' (initial sys dms nMeas nActs y₀) (List.replicate k dms) = .ok (s2', ts2'))
    (j : ℕ) (hagree : ∀ m, m < j → (ts2[m]?).map Trace.slopes = (ts2'[m]?).map Trace.slopes) :
    (∀ m, m ≤ j → (ts2[m]?).map Trace.cmds = (ts2'[m]?).map Trace.cmds) ∧
    (resetLoop sys s1).iters = 0 ∧
    (sys.saveSlopes = true → ∀ r ∈ (resetLoop sys s1).allSlopes, ∀ x ∈ r, x = 0) ∧
    (sys.saveDmCommands = true → ∀ r ∈ (resetLoop sys s1).allDmCommands, ∀ x ∈ r, x = 0) := by
  obtain ⟨e1, e2, e3, e4⟩ := runLoop_kept sys pl dms hne nMeas hd hsense n _ s1 ts h1 rfl
    (by simp [initial, zeros, nCommands]) (by simp [initial, zeros]) (by simp [initial])
  refine ⟨?_, rfl, fun hs r hr x hx => ?_, fun hs r hr x hx => ?_⟩
  rotate_left
  · simp only [resetLoop, hs, if_true, List.mem_map] at hr
    obtain ⟨r', _, rfl⟩ := hr
    simp at hx; exact hx.2
  · simp only [resetLoop, hs, if_true, List.mem_map] at hr
    obtain ⟨r', _, rfl⟩ := hr
    simp at hx; exact hx.2
  cases k with
  | zero =>
    simp [runLoop] at h2 h2'
    obtain ⟨_, rfl⟩ := h2
    obtain ⟨_, rfl⟩ := h2'
    simp
  | succ k =>
    rw [List.replicate_succ] at h2 h2'
    -- the reset reconstructor and the fresh one compute the same
    have hctl : ∀ sl, Loop.control sys dms (resetLoop sys s1).recon (zeros (nCommands dms)) [] sl =
        Loop.control sys dms ⟨none⟩ (zeros (nCommands dms)) [] sl := by
      intro sl
      have hrec : reconstruct dms (dms.map DmCtl.nValid).sum sys.product (resetLoop sys s1).recon sl =
          reconstruct dms (dms.map DmCtl.nValid).sum sys.product ⟨none⟩ sl := by
        simp only [resetLoop, Control.reset]
        cases ha : s1.recon.actuatorValues with
        | none => simp only [reconstruct, ha]
        | some a =>
          have := e4 a ha
          simp only [reconstruct, map_zero_eq_zeros, this, nCommands]
      unfold Loop.control
      rw [if_neg (by simpa using hne), if_neg (by simpa using hne), hrec]
    obtain ⟨u, t, us, g1, g2, rfl⟩ := runLoop_cons sys pl _ s2 dms _ ts2 h2
    obtain ⟨u', t', us', g1', g2', rfl⟩ := runLoop_cons sys pl' _ s2' dms _ ts2' h2'
    obtain ⟨c1, _, _, _, _, _, c2, c3, _⟩ := loopFrame_ok sys pl dms _ u t g1
    obtain ⟨c1', _, _, _, _, _, c2', c3', _⟩ := loopFrame_ok sys pl' dms _ u' t' g1'
    have a1 : (resetLoop sys s1).dmCommands = zeros (nCommands dms) := by
      simp only [resetLoop, map_zero_eq_zeros, e2]
    have a2 : (resetLoop sys s1).buffer = [] := e1
    have a3 : (resetLoop sys s1).slopes = zeros nMeas := by
      simp only [resetLoop, map_zero_eq_zeros, e3]
    rw [a1, a2, a3, hctl] at c1
    have b1 : (initial sys dms nMeas nActs y₀ : State σ' Surf).dmCommands = zeros (nCommands dms) := rfl
    have b2 : (initial sys dms nMeas nActs y₀ : State σ' Surf).buffer = [] := rfl
    have b3 : (initial sys dms nMeas nActs y₀ : State σ' Surf).slopes = zeros nMeas := rfl
    have b4 : (initial sys dms nMeas nActs y₀ : State σ' Surf).recon = ⟨none⟩ := rfl
    rw [b1, b2, b3, b4, c1] at c1'
    simp only [Except.ok.injEq, Prod.mk.injEq] at c1'
    obtain ⟨er, eb, ec⟩ := c1'
    intro m hm
    cases m with
    | zero => simp [ec]
    | succ m =>
      have h0 := hagree 0 (by omega)
      simp at h0
      have := C17_causal sys pl pl' (List.replicate k dms) u s2 u' s2' us us' er (by rw [c2, c2', ec]) eb
        (by rw [c3, c3', h0]) g2 g2' (j - 1) (fun i hi => by simpa using hagree (i + 1) (by omega)) m
        (by omega)
      simpa using this

/-- The same system with delay 0, reset after two frames: the run repeats. -/
def toySys0 : Sys ℚ := { toySys with loopDelay := 0 }

def toyConstPlant : Plant Unit ℚ where
  sense := fun _ i c => .ok ((), [(i : ℚ) + 1 - c.sum])

example : (do
    let (s, ts) ← runLoop toySys0 toyConstPlant (initial toySys0 toyDms 1 2 ()) (List.replicate 3 toyDms)
    let (_, ts') ← runLoop toySys0 toyConstPlant (resetLoop toySys0 s) (List.replicate 3 toyDms)
    pure (ts, ts')) =
    (.ok ([⟨[0, 0], [0, 0], [1], [0, 0]⟩, ⟨[1 / 2, 1 / 2], [1 / 2, 0], [3 / 2], [1 / 2, 1 / 2]⟩,
        ⟨[5 / 4, 1], [5 / 4, 0], [7 / 4], [5 / 4, 1]⟩],
      [⟨[0, 0], [0, 0], [1], [0, 0]⟩, ⟨[1 / 2, 1 / 2], [1 / 2, 0], [3 / 2], [1 / 2, 1 / 2]⟩,
        ⟨[5 / 4, 1], [5 / 4, 0], [7 / 4], [5 / 4, 1]⟩]) : Except PyErr _) := by decide +kernel

/-- **C58 is violated with delay 1**: commands computed before the reset are applied in the first frame after it. -/
theorem C58_delay_one_violated : (do
    let (s, _) ← runLoop toySys toyConstPlant (initial toySys toyDms 1 2 ()) (List.replicate 3 toyDms)
    let (_, ts') ← runLoop toySys toyConstPlant (resetLoop toySys s) (List.replicate 1 toyDms)
    pure (ts'.map Trace.cmds)) = (.ok [[3 / 2, 5 / 4]] : Except PyErr (List (List ℚ))) := by
  decide +kernel

end C58

section C18

/-- The number of a frame recorded in row `j`: the latest of the frames `0 … n-1` congruent to `j` modulo `N`. -/
def IsLatest (N n j m : ℕ) : Prop := m < n ∧ m % N = j ∧ ∀ m', m < m' → m' < n → m' % N ≠ j

theorem record_spec {α : Type} (N : ℕ) (hist xs : List α) (hN : hist.length = N)
    (j : ℕ) (hj : j < N) :
    (∀ m, IsLatest N xs.length j m → (record N hist 0 xs)[j]? = xs[m]?) ∧
    ((∀ m, m < xs.length → m % N ≠ j) → (record N hist 0 xs)[j]? = hist[j]?) := by
  induction xs using List.reverseRecOn with
  | nil => exact ⟨fun m hm => by simp [IsLatest] at hm, fun _ => rfl⟩
  | append_singleton xs x ih =>
    rw [record_snoc, Nat.zero_add]
    have hlen := record_length N hist 0 xs
    constructor
    · rintro m ⟨hm1, hm2, hm3⟩
      simp at hm1
      by_cases hmx : m = xs.length
      · subst hmx
        rw [hm2, List.getElem?_set_self (by omega)]
        simp
      · have hne : xs.length % N ≠ j := hm3 xs.length (by omega) (by simp)
        rw [List.getElem?_set_ne hne, ih.1 m ⟨by omega, hm2, fun m' h1 h2 => hm3 m' h1 (by simp; omega)⟩]
        rw [List.getElem?_append_left (by omega)]
    · intro hall
      have hne : xs.length % N ≠ j := hall xs.length (by simp)
      rw [List.getElem?_set_ne hne]
      exact ih.2 (fun m hm => hall m (by simp; omega))

variable {σ Surf : Type} [Add Surf] [Zero Surf]

/-- **C18.** After any number of frames, row `j` of the recorded measurements (and of the recorded commands) is that of the latest frame congruent to
`j` modulo the storage size, and zero if there was none. -/
theorem C18_history (sys : Sys Surf) (pl : Plant σ Surf) (dms : List DmCtl) (nMeas nActs : ℕ)
    (cfg : List (List DmCtl)) (x₀ : σ) (s' : State σ Surf) (ts : List (Trace Surf))
    (h : runLoop sys pl (initial sys dms nMeas nActs x₀) cfg = .ok (s', ts)) (j : ℕ) (hj : j < sys.nIters) :
    (sys.saveSlopes = true →
      (∀ m, IsLatest sys.nIters cfg.length j m → s'.allSlopes[j]? = (ts[m]?).map Trace.slopes) ∧
      ((∀ m, m < cfg.length → m % sys.nIters ≠ j) → s'.allSlopes[j]? = some (zeros nMeas))) ∧
    (sys.saveDmCommands = true →
      (∀ m, IsLatest sys.nIters cfg.length j m → s'.allDmCommands[j]? = (ts[m]?).map Trace.cmds) ∧
      ((∀ m, m < cfg.length → m % sys.nIters ≠ j) → s'.allDmCommands[j]? = some (zeros nActs))) := by
  obtain ⟨h1, h2⟩ := runLoop_record sys pl _ _ _ _ h
  have hl := (runLoop_length sys pl _ _ _ _ h).1
  constructor
  · intro hs
    rw [h1 hs]
    obtain ⟨a, b⟩ := record_spec sys.nIters (initial sys dms nMeas nActs x₀ : State σ Surf).allSlopes
      (ts.map Trace.slopes) (by simp [initial]) j hj
    rw [List.length_map, hl] at a b
    refine ⟨fun m hm => ?_, fun hall => ?_⟩
    · have := a m hm
      rw [List.getElem?_map] at this
      exact this
    · have := b hall
      simpa [initial, hj] using this
  · intro hs
    rw [h2 hs]
    obtain ⟨a, b⟩ := record_spec sys.nIters (initial sys dms nMeas nActs x₀ : State σ Surf).allDmCommands
      (ts.map Trace.cmds) (by simp [initial]) j hj
    rw [List.length_map, hl] at a b
    refine ⟨fun m hm => ?_, fun hall => ?_⟩
    · have := a m hm
      rw [List.getElem?_map] at this
      exact this
    · have := b hall
      simpa [initial, hj] using this

/-- **C18 (short runs).** If not more frames than rows were run, row `j` is frame `j`, and the rows after the last
frame are zero. -/
theorem C18_short_run (sys : Sys Surf) (pl : Plant σ Surf) (dms : List DmCtl) (nMeas nActs : ℕ)
    (cfg : List (List DmCtl)) (x₀ : σ) (s' : State σ Surf) (ts : List (Trace Surf))
    (h : runLoop sys pl (initial sys dms nMeas nActs x₀) cfg = .ok (s', ts))
    (hshort : cfg.length ≤ sys.nIters) (hs : sys.saveSlopes = true) (j : ℕ) (hj : j < sys.nIters) :
    s'.allSlopes[j]? = if j < cfg.length then (ts[j]?).map Trace.slopes else some (zeros nMeas) := by
  obtain ⟨a, b⟩ := (C18_history sys pl dms nMeas nActs cfg x₀ s' ts h j hj).1 hs
  split_ifs with hlt
  · refine a j ⟨hlt, Nat.mod_eq_of_lt hj, fun m' h1 h2 => ?_⟩
    rw [Nat.mod_eq_of_lt (by omega)]; omega
  · refine b fun m hm => ?_
    rw [Nat.mod_eq_of_lt (by omega)]; omega

-- four frames in three rows: row 0 has been overwritten by frame 3
example : (runLoop toySys toyPlant (initial toySys toyDms 1 2 ()) (List.replicate 4 toyDms)).map
    (fun r => r.1.allSlopes) = .ok [[5 / 2], [2], [5 / 2]] := by decide +kernel
example : IsLatest 3 4 0 3 := ⟨by norm_num, rfl, fun m' h1 h2 => by omega⟩

/-- **C18 fails if commands are recorded and an actuator was dropped**: the store is sized with all actuators, the commands have
only the valid ones, so no frame completes. -/
theorem C18_dropped_actuators_fail (sys : Sys Surf) (pl : Plant σ Surf) (dms : List DmCtl)
    (nMeas nActs : ℕ) (x₀ : σ) (hsave : sys.saveDmCommands = true) (hne : dms ≠ [])
    (hdrop : nCommands dms < nActs) (rest : List (List DmCtl)) :
    ∃ e, runLoop sys pl (initial sys dms nMeas nActs x₀) (dms :: rest) = .error e := by
  cases h : runLoop sys pl (initial sys dms nMeas nActs x₀) (dms :: rest) with
  | error e => exact ⟨e, rfl⟩
  | ok p =>
    exfalso
    obtain ⟨s', ts⟩ := p
    obtain ⟨u, t, us, h1, h2, rfl⟩ := runLoop_cons sys pl _ s' dms rest ts h
    obtain ⟨c1, _, _, _, _, _, _, _, _, hN, _, hst⟩ := loopFrame_ok sys pl dms _ u t h1
    -- the commands have the length of the command vector
    have hlen : t.cmds.length = nCommands dms := by
      unfold Loop.control at c1
      rw [if_neg (by simpa using hne)] at c1
      have hz : (initial sys dms nMeas nActs x₀ : State σ Surf).dmCommands.length = nCommands dms := by
        simp [initial, zeros, nCommands]
      have hb : (initial sys dms nMeas nActs x₀ : State σ Surf).buffer = [] := rfl
      cases hrec : reconstruct dms (dms.map DmCtl.nValid).sum sys.product
          (initial sys dms nMeas nActs x₀ : State σ Surf).recon
          (initial sys dms nMeas nActs x₀ : State σ Surf).slopes with
      | error e => rw [hrec] at c1; cases c1
      | ok q =>
        obtain ⟨r1, new⟩ := q
        rw [hrec] at c1
        dsimp only at c1
        split_ifs at c1 with hl
        dsimp only at c1
        rw [hb] at c1
        cases hdel : Delay.delay zeroLike [] new sys.loopDelay with
        | error e => rw [hdel] at c1; cases c1
        | ok q =>
          obtain ⟨b1, o1⟩ := q
          rw [hdel] at c1
          simp only [Except.ok.injEq, Prod.mk.injEq] at c1
          obtain ⟨_, _, rfl⟩ := c1
          unfold Delay.delay at hdel
          simp only [List.nil_append, List.length_singleton, Nat.cast_one] at hdel
          split_ifs at hdel with hcnt
          · simp only [Except.ok.injEq, Prod.mk.injEq] at hdel
            rw [← hdel.2]
            simp [zeroLike, hl, hz]
          · have hk : ((1 : ℤ) - sys.loopDelay).toNat = (-sys.loopDelay).toNat + 1 := by omega
            rw [hk, Delay.popLoop] at hdel
            cases hneg : (-sys.loopDelay).toNat with
            | zero =>
              rw [hneg, Delay.popLoop] at hdel
              simp only [Except.ok.injEq, Prod.mk.injEq] at hdel
              rw [← hdel.2, hl, hz]
            | succ k =>
              rw [hneg, Delay.popLoop] at hdel
              cases hdel
    unfold storeRow at hst
    rw [if_pos hsave] at hst
    have hi : (initial sys dms nMeas nActs x₀ : State σ Surf).iters % sys.nIters < sys.nIters :=
      Nat.mod_lt _ (by omega)
    have hg : (initial sys dms nMeas nActs x₀ : State σ Surf).allDmCommands[
        (initial sys dms nMeas nActs x₀ : State σ Surf).iters % sys.nIters]? = some (zeros nActs) := by
      simp only [initial] at hi ⊢
      rw [List.getElem?_replicate, if_pos hi]
    rw [hg] at hst
    dsimp only at hst
    rw [if_neg (by simp [zeros, hlen]; omega)] at hst
    cases hst

example : ∃ e, runLoop toySys toyPlant (initial toySys toyDms 1 3 ()) [toyDms] = .error e :=
  C18_dropped_actuators_fail toySys toyPlant toyDms 1 3 () rfl (by simp [toyDms]) (by simp [nCommands, toyDms]) []

/-- The exception is numpy's `ValueError`: the row does not fit. -/
theorem C18_dropped_actuators_error : (runLoop toySys toyPlant (initial toySys toyDms 1 3 ()) [toyDms]).map (fun r => r.1.iters) = .error .valueError := by decide +kernel

end C18

/-- **C19.** After `n ≥ 1` frames recorded in a store of `N ≥ 1` rows the final summary reads the value of the last frame `n-1`. -/
theorem C19_last_frame {α : Type} (N : ℕ) (hN : 1 ≤ N) (hist xs : List α) (hl : hist.length = N)
    (hne : xs ≠ []) :
    summary N (record N hist 0 xs) xs.length = .ok (xs.getLast hne) := by
  have hpos : 1 ≤ xs.length := List.length_pos_iff.mpr hne
  have hlen : (record N hist 0 xs).length = N := by rw [record_length, hl]
  have hj : (xs.length - 1) % N < N := Nat.mod_lt _ (by omega)
  have hrow := (record_spec N hist xs hl ((xs.length - 1) % N) hj).1 (xs.length - 1)
    ⟨by omega, rfl, fun m' h1 h2 => by omega⟩
  rw [List.getElem?_eq_getElem (by omega : xs.length - 1 < xs.length)] at hrow
  unfold summary pyGet
  rw [if_neg (by omega), hlen]
  have hidx : (if ((xs.length % N : ℕ) : ℤ) - 1 < 0 then ((xs.length % N : ℕ) : ℤ) - 1 + (N : ℤ)
      else ((xs.length % N : ℕ) : ℤ) - 1) = (((xs.length - 1) % N : ℕ) : ℤ) := by
    have hmod : xs.length % N = ((xs.length - 1) % N + 1) % N := by
      rw [Nat.mod_add_mod]; congr 1; omega
    by_cases hc : (xs.length - 1) % N + 1 = N
    · rw [hmod, hc, Nat.mod_self]; split_ifs <;> omega
    · rw [hmod, Nat.mod_eq_of_lt (by omega : (xs.length - 1) % N + 1 < N)]; split_ifs <;> omega
  simp only [hidx]
  rw [if_neg (by omega), Int.toNat_natCast, hrow]
  simp [List.getLast_eq_getElem]

example : summary 3 (record 3 [0, 0, 0] 0 [10, 11, 12]) 3 = .ok 12 := rfl
example : summary 3 (record 3 [0, 0, 0] 0 [10, 11, 12, 13]) 4 = .ok 13 := rfl

/-- If no frame was completed the summary reports an (all-zero) row that was never written. -/
theorem C19_no_frame {α : Type} (N : ℕ) (hN : 1 ≤ N) (z : α) :
    summary N (record N (List.replicate N z) 0 []) 0 = .ok z := by
  have hlast : (if ((0 : ℕ) : ℤ) - 1 < 0 then ((0 : ℕ) : ℤ) - 1 + (N : ℤ) else ((0 : ℕ) : ℤ) - 1) =
      ((N - 1 : ℕ) : ℤ) := by rw [if_pos (by norm_num)]; omega
  unfold summary pyGet record
  rw [if_neg (by omega), Nat.zero_mod, List.length_replicate]
  simp only [hlast]
  rw [if_neg (by omega), Int.toNat_natCast, List.getElem?_replicate, if_pos (by omega)]

end Soapy.Props
