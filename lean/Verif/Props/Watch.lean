/-
C146: watching a run does not change it.
-/
import Verif.Props.Interrupt
import Verif.Lemmas.Loop

namespace Soapy.Props

open Soapy.Control Soapy.Loop Soapy.Vec Soapy.Interrupt

variable {α σ σ' κ κ' Scr Surf : Type} [Add Surf]

/-- Two lists of measurements that differ only at the places `B`. -/
def Agree (B : ℕ → Prop) (m m' : List ℚ) : Prop := m.length = m'.length ∧ ∀ i, ¬ B i → m[i]? = m'[i]?

/-- Two simulations are in the same state, apart from what is only looked at (science cameras and records), the states of the sensors, which are related by `R`, and the measurements `B`. -/
structure SameRun (R : σ → σ' → Prop) (B : ℕ → Prop) (s : St α σ κ Scr Surf) (s' : St α σ' κ' Scr Surf) : Prop where
  atmos : s.atmos = s'.atmos
  scrns : s.scrns = s'.scrns
  recon : s.recon = s'.recon
  dmCommands : s.dmCommands = s'.dmCommands
  buffer : s.buffer = s'.buffer
  closedCorr : s.closedCorr = s'.closedCorr
  sensors : R s.sensors s'.sensors
  slopes : Agree B s.slopes s'.slopes
  openCorr : s.openCorr = s'.openCorr
  combined : s.combined = s'.combined
  iters : s.iters = s'.iters

/-- Two systems with the same atmosphere, mirrors, delay and control law, which does not use the measurements `B`; sensors in related states give measurements that differ in these only.  Cameras, what is recorded and the number of frames that
are kept are arbitrary. -/
structure SameSystem (R : σ → σ' → Prop) (B : ℕ → Prop) (sys sys' : Sys Surf) (p : Parts α σ κ Scr Surf) (p' : Parts α σ' κ' Scr Surf) : Prop where
  surface : sys.surface = sys'.surface
  loopDelay : sys.loopDelay = sys'.loopDelay
  product : ∀ m m', Agree B m m' → sys.product m = sys'.product m'
  move : p.move = p'.move
  sense : ∀ x x' i scr c y m y' m', R x x' → p.sense x i scr c = .ok (y, m) → p'.sense x' i scr c = .ok (y', m') → R y y' ∧ Agree B m m'

private theorem reconstruct_congr (dms : List DmCtl) (n : ℕ) (f f' : List ℚ → Except PyErr (List ℚ)) (r : Recon) (m m' : List ℚ) (h : f m = f' m') : reconstruct dms n f r m = reconstruct dms n f' r m' := by
  unfold reconstruct
  rw [h]

private theorem step_same (R : σ → σ' → Prop) (B : ℕ → Prop) (sys sys' : Sys Surf) (p : Parts α σ κ Scr Surf) (p' : Parts α σ' κ' Scr Surf) (h : SameSystem R B sys sys' p p') (dms : List DmCtl)
    (k : ℕ) (f : St α σ κ Scr Surf → Except PyErr (St α σ κ Scr Surf)) (f' : St α σ' κ' Scr Surf → Except PyErr (St α σ' κ' Scr Surf))
    (hf : (steps sys p dms)[k]? = some f) (hf' : (steps sys' p' dms)[k]? = some f') (s t : St α σ κ Scr Surf) (s' t' : St α σ' κ' Scr Surf) (hs : SameRun R B s s') (e : f s = .ok t) (e' : f' s' = .ok t') : SameRun R B t t' := by
  obtain ⟨a1, a2, a3, a4, a5, a6, a7, a8, a9, a10, a11⟩ := hs
  rcases k with _ | _ | _ | _ | _ | _ | _ | _ | _ | _ | _ | k
  · simp only [steps, List.getElem?_cons_zero, Option.some.injEq] at hf hf'
    subst hf hf'
    simp only [Interrupt.move, Except.ok.injEq] at e e'
    subst e e'
    exact ⟨by dsimp only; rw [h.move, a1], by dsimp only; rw [h.move, a1], a3, a4, a5, a6, a7, a8, a9, a10, a11⟩
  · simp only [steps, List.getElem?_cons_succ, List.getElem?_cons_zero, Option.some.injEq] at hf hf'
    subst hf hf'
    unfold Interrupt.recon at e e'
    split_ifs at e e' with h0
    · cases e; cases e'
      exact ⟨a1, a2, a3, a4, a5, a6, a7, a8, a9, a10, a11⟩
    · have hc := reconstruct_congr dms (dms.map DmCtl.nValid).sum sys.product sys'.product s.recon s.slopes s'.slopes (h.product _ _ a8)
      rw [a3] at hc
      rw [a3, hc] at e
      rw [a4] at e
      cases hr : reconstruct dms (dms.map DmCtl.nValid).sum sys'.product s'.recon s'.slopes with
      | error x => rw [hr] at e; cases e
      | ok x =>
        rw [hr] at e e'
        obtain ⟨x1, x2⟩ := x
        dsimp only at e e'
        split_ifs at e e' with hl
        cases e; cases e'
        exact ⟨a1, a2, rfl, rfl, a5, a6, a7, a8, a9, a10, a11⟩
  · simp only [steps, List.getElem?_cons_succ, List.getElem?_cons_zero, Option.some.injEq] at hf hf'
    subst hf hf'
    unfold Interrupt.delay at e e'
    rw [h.loopDelay, a5, a4] at e
    cases hr : Delay.delay zeroLike s'.buffer s'.dmCommands sys'.loopDelay with
    | error x => rw [hr] at e; cases e
    | ok x =>
      rw [hr] at e e'
      cases e; cases e'
      exact ⟨a1, a2, a3, rfl, rfl, a6, a7, a8, a9, a10, a11⟩
  · simp only [steps, List.getElem?_cons_succ, List.getElem?_cons_zero, Option.some.injEq] at hf hf'
    subst hf hf'
    unfold Interrupt.closed at e e'
    rw [h.surface, a4, a6] at e
    cases hr : runDM sys'.surface true s'.dmCommands 0 dms (firstActs dms 0) s'.closedCorr with
    | error x => rw [hr] at e; cases e
    | ok x =>
      rw [hr] at e e'
      cases e; cases e'
      exact (by refine ⟨?_, ?_, ?_, ?_, ?_, ?_, ?_, ?_, ?_, ?_, ?_⟩ <;> first | assumption | rfl)
  · simp only [steps, List.getElem?_cons_succ, List.getElem?_cons_zero, Option.some.injEq] at hf hf'
    subst hf hf'
    unfold wfs at e e'
    rw [a2, a6, a11] at e
    cases hsc : s'.scrns with
    | none => rw [hsc] at e; cases e
    | some scr =>
      rw [hsc] at e e'
      dsimp only at e e'
      cases h1 : p.sense s.sensors s'.iters scr s'.closedCorr with
      | error x => rw [h1] at e; cases e
      | ok x =>
        cases h2 : p'.sense s'.sensors s'.iters scr s'.closedCorr with
        | error x => rw [h2] at e'; cases e'
        | ok x' =>
          rw [h1] at e
          rw [h2] at e'
          obtain ⟨y, m⟩ := x
          obtain ⟨y', m'⟩ := x'
          obtain ⟨g1, g2⟩ := h.sense _ _ _ _ _ _ _ _ _ a7 h1 h2
          cases e; cases e'
          exact (by refine ⟨?_, ?_, ?_, ?_, ?_, ?_, ?_, ?_, ?_, ?_, ?_⟩ <;> first | assumption | rfl)
  · simp only [steps, List.getElem?_cons_succ, List.getElem?_cons_zero, Option.some.injEq] at hf hf'
    subst hf hf'
    unfold opened at e e'
    rw [h.surface, a4, a9] at e
    cases hr : runDM sys'.surface false s'.dmCommands 0 dms (firstActs dms 0) s'.openCorr with
    | error x => rw [hr] at e; cases e
    | ok x =>
      rw [hr] at e e'
      cases e; cases e'
      exact (by refine ⟨?_, ?_, ?_, ?_, ?_, ?_, ?_, ?_, ?_, ?_, ?_⟩ <;> first | assumption | rfl)
  · simp only [steps, List.getElem?_cons_succ, List.getElem?_cons_zero, Option.some.injEq] at hf hf'
    subst hf hf'
    simp only [combine, Except.ok.injEq] at e e'
    subst e e'
    exact ⟨a1, a2, a3, a4, a5, a6, a7, a8, a9, by dsimp only; rw [a9, a6], a11⟩
  · simp only [steps, List.getElem?_cons_succ, List.getElem?_cons_zero, Option.some.injEq] at hf hf'
    subst hf hf'
    unfold science at e e'
    cases hsc : s'.scrns with
    | none => rw [hsc] at e'; cases e'
    | some scr =>
      rw [a2, hsc] at e
      rw [hsc] at e'
      cases e; cases e'
      exact (by refine ⟨?_, ?_, ?_, ?_, ?_, ?_, ?_, ?_, ?_, ?_, ?_⟩ <;> first | assumption | rfl)
  · simp only [steps, List.getElem?_cons_succ, List.getElem?_cons_zero, Option.some.injEq] at hf hf'
    subst hf hf'
    unfold Interrupt.store at e e'
    split_ifs at e e'
    cases h1 : storeRow sys.saveSlopes s.allSlopes (s.iters % sys.nIters) s.slopes with
    | error x => rw [h1] at e; cases e
    | ok x =>
      cases h2 : storeRow sys.saveDmCommands s.allDmCommands (s.iters % sys.nIters) s.dmCommands with
      | error x => rw [h1, h2] at e; cases e
      | ok y =>
        cases h3 : storeRow sys'.saveSlopes s'.allSlopes (s'.iters % sys'.nIters) s'.slopes with
        | error x => rw [h3] at e'; cases e'
        | ok x' =>
          cases h4 : storeRow sys'.saveDmCommands s'.allDmCommands (s'.iters % sys'.nIters) s'.dmCommands with
          | error x => rw [h3, h4] at e'; cases e'
          | ok y' =>
            rw [h1, h2] at e
            rw [h3, h4] at e'
            cases e; cases e'
            exact ⟨a1, a2, a3, a4, a5, a6, a7, a8, a9, a10, a11⟩
  · simp only [steps, List.getElem?_cons_succ, List.getElem?_cons_zero, Option.some.injEq] at hf hf'
    subst hf hf'
    simp only [report, Except.ok.injEq] at e e'
    subst e e'
    exact ⟨a1, a2, a3, a4, a5, a6, a7, a8, a9, a10, a11⟩
  · simp only [steps, List.getElem?_cons_succ, List.getElem?_cons_zero, Option.some.injEq] at hf hf'
    subst hf hf'
    simp only [count, Except.ok.injEq] at e e'
    subst e e'
    exact ⟨a1, a2, a3, a4, a5, a6, a7, a8, a9, a10, by dsimp only; rw [a11]⟩
  · simp [steps] at hf

private theorem exec_both (R : σ → σ' → Prop) (B : ℕ → Prop) (fs : List (St α σ κ Scr Surf → Except PyErr (St α σ κ Scr Surf))) (fs' : List (St α σ' κ' Scr Surf → Except PyErr (St α σ' κ' Scr Surf)))
    (hl : fs.length = fs'.length)
    (h : ∀ (k : ℕ) f f', fs[k]? = some f → fs'[k]? = some f' → ∀ s t s' t', SameRun R B s s' → f s = .ok t → f' s' = .ok t' → SameRun R B t t')
    (s t : St α σ κ Scr Surf) (s' t' : St α σ' κ' Scr Surf) (hs : SameRun R B s s') (e : exec fs s = .ok t) (e' : exec fs' s' = .ok t') : SameRun R B t t' := by
  induction fs generalizing fs' s s' with
  | nil =>
    have : fs' = [] := by simpa using hl.symm
    subst this
    simp only [exec, Except.ok.injEq] at e e'
    subst e e'
    exact hs
  | cons f fs ih =>
    cases fs' with
    | nil => simp at hl
    | cons f' fs' =>
      simp only [exec] at e e'
      cases h1 : f s with
      | error x => rw [h1] at e; cases e
      | ok u =>
        cases h2 : f' s' with
        | error x => rw [h2] at e'; cases e'
        | ok u' =>
          rw [h1] at e
          rw [h2] at e'
          exact ih fs' (by simpa using hl) (fun k g g' hg hg' => h (k + 1) g g' (by simpa using hg) (by simpa using hg')) u u' (h 0 f f' rfl rfl s u s' u' hs h1 h2) e e'

/-- **C146 (runs).**  Two systems that differ only in what is looked at and in measurements that are not used go through the same states: turbulence, commands, mirrors, corrections and measurements that are used, in every frame and also if frames
are interrupted. -/
theorem C146_run (R : σ → σ' → Prop) (B : ℕ → Prop) (sys sys' : Sys Surf) (p : Parts α σ κ Scr Surf) (p' : Parts α σ' κ' Scr Surf) (h : SameSystem R B sys sys' p p') (dms : List DmCtl) (cuts : List (Option ℕ))
    (s t : St α σ κ Scr Surf) (s' t' : St α σ' κ' Scr Surf) (hs : SameRun R B s s') (e : run sys p dms cuts s = .ok t) (e' : run sys' p' dms cuts s' = .ok t') : SameRun R B t t' := by
  induction cuts generalizing s s' with
  | nil =>
    simp only [run, Except.ok.injEq] at e e'
    subst e e'
    exact hs
  | cons c cs ih =>
    simp only [run] at e e'
    cases h1 : frame sys p dms c s with
    | error x => rw [h1] at e; cases e
    | ok u =>
      cases h2 : frame sys' p' dms c s' with
      | error x => rw [h2] at e'; cases e'
      | ok u' =>
        rw [h1] at e
        rw [h2] at e'
        refine ih u u' ?_ e e'
        cases c with
        | none => exact exec_both R B _ _ (by simp [steps]) (fun k f f' hf hf' s t s' t' => step_same R B sys sys' p p' h dms k f f' hf hf' s t s' t') s u s' u' hs h1 h2
        | some n =>
          refine exec_both R B ((steps sys p dms).take n) ((steps sys' p' dms).take n) (by simp [steps]) (fun k f f' hf hf' s t s' t' => ?_) s u s' u' hs h1 h2
          have g : ∀ {β : Type} (l : List β) (x : β), (l.take n)[k]? = some x → l[k]? = some x := by
            intro β l x hx
            rw [List.getElem?_take] at hx
            split_ifs at hx
            exact hx
          exact step_same R B sys sys' p p' h dms k f f' (g _ _ hf) (g _ _ hf') s t s' t'

/-- **C146 (cameras and records).**  Science cameras, whether measurements and commands are recorded, and how many frames are kept have no influence on a run. -/
theorem C146_watch (sys : Sys Surf) (p : Parts α σ κ Scr Surf) (look' : κ' → Scr → List Surf → κ') (nIters' : ℕ) (saveSlopes' saveDmCommands' : Bool) (dms : List DmCtl) (cuts : List (Option ℕ))
    (s t : St α σ κ Scr Surf) (cams' : κ') (a' b' : List (List ℚ)) (t' : St α σ κ' Scr Surf)
    (e : run sys p dms cuts s = .ok t)
    (e' : run { sys with nIters := nIters', saveSlopes := saveSlopes', saveDmCommands := saveDmCommands' } ⟨p.move, p.sense, look'⟩ dms cuts
      ⟨s.atmos, s.scrns, s.recon, s.dmCommands, s.buffer, s.closedCorr, s.sensors, s.slopes, s.openCorr, s.combined, cams', a', b', s.iters⟩ = .ok t') :
    t' = ⟨t.atmos, t.scrns, t.recon, t.dmCommands, t.buffer, t.closedCorr, t.sensors, t.slopes, t.openCorr, t.combined, t'.cams, t'.allSlopes, t'.allDmCommands, t.iters⟩ := by
  have h := C146_run (fun x y => x = y) (fun _ => False) sys { sys with nIters := nIters', saveSlopes := saveSlopes', saveDmCommands := saveDmCommands' } p (⟨p.move, p.sense, look'⟩ : Parts α σ κ' Scr Surf)
    (⟨rfl, rfl, fun m m' hm => by
        have : m = m' := List.ext_getElem? fun i => hm.2 i (fun h => h)
        rw [this], rfl, fun x x' i scr c y m y' m' hx h1 h2 => by
        subst hx
        rw [h1] at h2
        cases h2
        exact ⟨rfl, rfl, fun _ _ => rfl⟩⟩) dms cuts s t _ t' ⟨rfl, rfl, rfl, rfl, rfl, rfl, rfl, ⟨rfl, fun _ _ => rfl⟩, rfl, rfl, rfl⟩ e e'
  obtain ⟨a1, a2, a3, a4, a5, a6, a7, a8, a9, a10, a11⟩ := h
  have a8' : t.slopes = t'.slopes := List.ext_getElem? fun i => a8.2 i (fun h => h)
  rw [a1, a2, a3, a4, a5, a6, a7, a8', a9, a10, a11]

/-- **C146 (no harm).**  If arrays have the sizes the simulation gives them, a run does not fail whatever is recorded and whatever cameras there are: recording cannot end a run that would go on without. -/
theorem C146_harmless (sys : Sys Surf) (p : Parts α σ κ Scr Surf) (dms : List DmCtl) (nMeas nStore d n : ℕ) (s : St α σ κ Scr Surf) (hs : Sized sys (dms.map DmCtl.nValid).sum nMeas dms.length nStore (asLoop s))
    (hsurf : ∀ (i : ℕ) (m : DmCtl), dms[i]? = some m → ∀ c : List ℚ, c.length = m.nValid → ∃ x, sys.surface i c = .ok x)
    (hprod : ∀ m : List ℚ, m.length = nMeas → ∃ u, sys.product m = .ok u ∧ u.length = (dms.map DmCtl.nValid).sum)
    (hsense : ∀ x i scr (c : List Surf), c.length = dms.length → ∃ x' m, p.sense x i scr c = .ok (x', m) ∧ m.length = nMeas)
    (hN : 1 ≤ sys.nIters) (hd : sys.loopDelay = d) (hstore : sys.saveDmCommands = true → nStore = (dms.map DmCtl.nValid).sum) :
    ∃ t, run sys p dms (List.replicate n none) s = .ok t ∧ Sized sys (dms.map DmCtl.nValid).sum nMeas dms.length nStore (asLoop t) := by
  induction n generalizing s with
  | zero => exact ⟨s, rfl, hs⟩
  | succ n ih =>
    obtain ⟨u, tr, h1, h2⟩ := loopFrame_total sys (outside p) dms nMeas nStore d (asLoop s) hs hsurf hprod (by
      rintro ⟨x, y⟩ i c hc
      obtain ⟨x', m, e, em⟩ := hsense y i (p.move x).2 c hc
      exact ⟨((p.move x).1, x'), m, by simp [outside, e], em⟩) hN hd hstore
    have h3 := C141_whole sys p dms s
    rw [h1] at h3
    cases hf : frame sys p dms none s with
    | error e => rw [hf] at h3; cases h3
    | ok v =>
      rw [hf] at h3
      have h4 : asLoop v = u := Except.ok.inj h3
      obtain ⟨t, t1, t2⟩ := ih v (by rw [h4]; exact h2)
      refine ⟨t, ?_, t2⟩
      rw [List.replicate_succ, run, hf]
      exact t1

/-- The rows of measurements `B` in a control matrix are zero. -/
def Ignores (nActs : ℕ) (cmat : List (List ℚ)) (B : ℕ → Prop) : Prop := ∀ i r, B i → cmat[i]? = some r → r = zeros nActs

/-- **C146 (control matrix).**  A control matrix with zeros for some measurements does not use them. -/
theorem C146_ignored (nActs : ℕ) (cmat : List (List ℚ)) (B : ℕ → Prop) (h : Ignores nActs cmat B) (m m' : List ℚ) (hm : Agree B m m') : tdot nActs cmat m = tdot nActs cmat m' := by
  have e : List.zipWith (fun row (x : ℚ) => row.map (x * ·)) cmat m = List.zipWith (fun row (x : ℚ) => row.map (x * ·)) cmat m' := by
    apply List.ext_getElem?
    intro i
    simp only [List.getElem?_zipWith]
    by_cases hB : B i
    · cases hr : cmat[i]? with
      | none => rfl
      | some r =>
        have hz := h i r hB hr
        by_cases hi : i < m.length
        · have hi' : i < m'.length := by rw [← hm.1]; exact hi
          rw [List.getElem?_eq_getElem hi, List.getElem?_eq_getElem hi']
          simp [hz, zeros]
        · rw [List.getElem?_eq_none (by omega), List.getElem?_eq_none (by rw [← hm.1]; omega)]
    · rw [hm.2 i hB]
  unfold tdot
  rw [e, hm.1]

/-- Two groups of sensors one after the other (simulation.py:413-446): the measurements of the second follow those of the first.  The groups share nothing. -/
def beside {τ : Type} (first : σ → ℕ → Scr → List Surf → Except PyErr (σ × List ℚ)) (second : τ → ℕ → Scr → List Surf → Except PyErr (τ × List ℚ)) (x : σ × τ) (i : ℕ) (scr : Scr) (c : List Surf) :
    Except PyErr ((σ × τ) × List ℚ) :=
  match first x.1 i scr c with
  | .error e => .error e
  | .ok (y, m) =>
    match second x.2 i scr c with
    | .error e => .error e
    | .ok (z, m') => .ok ((y, z), m ++ m')

/-- **C146 (unused sensors).**  A sensor whose measurements have zeros in the control matrix can be any sensor with as many measurements, with noise or without, or broken: turbulence, commands, corrections and the measurements of the others are
the same in every frame. -/
theorem C146_unused {τ τ' : Type} (sys sys' : Sys Surf) (hsurf : sys.surface = sys'.surface) (hdelay : sys.loopDelay = sys'.loopDelay) (nActs nFirst nSecond : ℕ) (cmat : List (List ℚ))
    (hz : Ignores nActs cmat fun i => nFirst ≤ i) (hp : sys.product = tdot nActs cmat) (hp' : sys'.product = tdot nActs cmat)
    (move : α → α × Scr) (look : κ → Scr → List Surf → κ) (look' : κ' → Scr → List Surf → κ') (first : σ → ℕ → Scr → List Surf → Except PyErr (σ × List ℚ))
    (second : τ → ℕ → Scr → List Surf → Except PyErr (τ × List ℚ)) (second' : τ' → ℕ → Scr → List Surf → Except PyErr (τ' × List ℚ))
    (hl : ∀ x i scr c y m, first x i scr c = .ok (y, m) → m.length = nFirst) (hs : ∀ x i scr c y m, second x i scr c = .ok (y, m) → m.length = nSecond)
    (hs' : ∀ x i scr c y m, second' x i scr c = .ok (y, m) → m.length = nSecond) (dms : List DmCtl) (cuts : List (Option ℕ))
    (s t : St α (σ × τ) κ Scr Surf) (s' t' : St α (σ × τ') κ' Scr Surf) (h : SameRun (fun x x' => x.1 = x'.1) (fun i => nFirst ≤ i) s s')
    (e : run sys ⟨move, beside first second, look⟩ dms cuts s = .ok t) (e' : run sys' ⟨move, beside first second', look'⟩ dms cuts s' = .ok t') :
    SameRun (fun x x' => x.1 = x'.1) (fun i => nFirst ≤ i) t t' := by
  refine C146_run _ _ sys sys' (⟨move, beside first second, look⟩ : Parts α (σ × τ) κ Scr Surf) (⟨move, beside first second', look'⟩ : Parts α (σ × τ') κ' Scr Surf) ⟨hsurf, hdelay, fun m m' hm => ?_, rfl, ?_⟩ dms cuts s t s' t' h e e'
  · rw [hp, hp']
    exact C146_ignored nActs cmat _ hz m m' hm
  · rintro ⟨x, z⟩ ⟨x', z'⟩ i scr c y m y' m' hx h1 h2
    dsimp only at hx
    subst hx
    simp only [beside] at h1 h2
    cases hf : first x i scr c with
    | error u => rw [hf] at h1; cases h1
    | ok u =>
      obtain ⟨u, mu⟩ := u
      rw [hf] at h1 h2
      dsimp only at h1 h2
      cases hg : second z i scr c with
      | error v => rw [hg] at h1; cases h1
      | ok v =>
        cases hg' : second' z' i scr c with
        | error v => rw [hg'] at h2; cases h2
        | ok v' =>
          rw [hg] at h1
          rw [hg'] at h2
          obtain ⟨v, mv⟩ := v
          obtain ⟨v', mv'⟩ := v'
          cases h1; cases h2
          have k1 := hl _ _ _ _ _ _ hf
          have k2 := hs _ _ _ _ _ _ hg
          have k3 := hs' _ _ _ _ _ _ hg'
          refine ⟨rfl, by simp [k2, k3], fun j hj => ?_⟩
          rw [List.getElem?_append_left (by omega), List.getElem?_append_left (by omega)]

/-- One mirror with one actuator; two measurements, of which the second is not used; what is recorded is a choice. -/
def watchSys (n : ℕ) (save : Bool) : Sys ℚ := ⟨fun _ c => .ok (c.getD 0 0), tdot 1 [[1], [0]], 1, n, save, save⟩

/-- Turbulence that grows; the second sensor counts its frames times `z`, with a camera that sums up what it sees. -/
def watchParts (z : ℚ) : Parts ℚ (Unit × ℚ) ℚ ℚ ℚ :=
  ⟨fun a => (a + 1, a + 1), beside (fun _ _ scr c => .ok ((), [scr - c.sum])) (fun x _ _ _ => .ok (x + z, [x + z])), fun k scr c => k + scr - c.sum⟩

/-- The start of such a run; `n` rows are kept. -/
def watchStart (n : ℕ) : St ℚ (Unit × ℚ) ℚ ℚ ℚ := ⟨0, none, ⟨none⟩, [0], [], [0], ((), 0), [0, 0], [0], [0], 0, List.replicate n [0, 0], List.replicate n [0], 0⟩

private def watched (n : ℕ) (save : Bool) (z : ℚ) : Except PyErr (List ℚ × List ℚ) :=
  (run (watchSys n save) (watchParts z) [⟨1, true, 1 / 2⟩] [none, some 6, none, none] (watchStart n)).map fun t => (t.dmCommands, t.slopes)

/-- Four frames, one of them interrupted: the commands are the same, whatever the second sensor says and whatever is recorded. -/
example : watched 3 true 0 = .ok ([3 / 2], [5 / 2, 0]) ∧ watched 9 false 5 = .ok ([3 / 2], [5 / 2, 20]) := by decide +kernel

/-- Any number of frames, of which the last three are kept. -/
example (n : ℕ) : ∃ t, run (watchSys 3 true) (watchParts 5) [⟨1, true, 1 / 2⟩] (List.replicate n none) (watchStart 3) = .ok t := by
  obtain ⟨t, h, -⟩ := C146_harmless (watchSys 3 true) (watchParts 5) [⟨1, true, 1 / 2⟩] 2 1 1 n (watchStart 3)
    ⟨by simp [asLoop, watchStart], rfl, by simp [asLoop, watchStart], rfl, rfl, rfl, rfl, by simp [asLoop, watchStart], rfl, by simp [asLoop, watchStart]⟩
    (fun i m _ c _ => ⟨_, rfl⟩) (fun m hm => match m, hm with | [_, _], _ => ⟨_, rfl, rfl⟩) (fun x i scr c _ => ⟨_, _, rfl, rfl⟩) (by decide) rfl (fun _ => rfl)
  exact ⟨t, h⟩

end Soapy.Props
