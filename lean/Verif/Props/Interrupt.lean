/-
Property theorems C141: a run that is stopped can be continued.
-/
import Verif.Model.Interrupt
import Verif.Props.Control
import Mathlib.Logic.Function.Iterate
import Mathlib.Tactic.Ring

namespace Soapy.Props

open Soapy.Control Soapy.Loop Soapy.Vec Soapy.Interrupt

variable {α σ κ Scr Surf : Type} [Add Surf]

/-- The atmosphere and the sensors together as the loop of `Soapy.Loop` knows them. -/
def outside (p : Parts α σ κ Scr Surf) : Plant (α × σ) Surf where
  sense x i c :=
    match p.sense x.2 i (p.move x.1).2 c with
    | .error e => .error e
    | .ok (y, m) => .ok (((p.move x.1).1, y), m)

/-- The attributes that the loop of `Soapy.Loop` knows. -/
def asLoop (s : St α σ κ Scr Surf) : Loop.State (α × σ) Surf :=
  ⟨s.recon, s.dmCommands, s.buffer, s.slopes, s.closedCorr, s.openCorr, s.iters, s.allSlopes, s.allDmCommands,
    (s.atmos, s.sensors)⟩

/-- **C141 (refinement).** The statements one after the other are the frame of the loop that the other theorems are about. -/
theorem C141_whole (sys : Sys Surf) (p : Parts α σ κ Scr Surf) (dms : List DmCtl) (s : St α σ κ Scr Surf) :
    (frame sys p dms none s).map asLoop = (loopFrame sys (outside p) dms (asLoop s)).map Prod.fst := by
  unfold frame loopFrame Loop.control
  simp only [steps, exec, Interrupt.move, Interrupt.recon, asLoop]
  by_cases hd : dms.length = 0
  · simp only [if_pos hd, Interrupt.delay]
    cases h1 : Delay.delay zeroLike s.buffer s.dmCommands sys.loopDelay with
    | error e => rfl
    | ok b =>
      simp only [Interrupt.closed]
      cases h2 : runDM sys.surface true b.2 0 dms (firstActs dms 0) s.closedCorr with
      | error e => rfl
      | ok c =>
        simp only [wfs, outside]
        cases h3 : p.sense s.sensors s.iters (p.move s.atmos).2 c with
        | error e => rfl
        | ok x =>
          simp only [opened]
          cases h4 : runDM sys.surface false b.2 0 dms (firstActs dms 0) s.openCorr with
          | error e => rfl
          | ok o =>
            simp only [combine, science, Interrupt.store]
            by_cases hn : sys.nIters = 0
            · simp only [if_pos hn]; rfl
            · simp only [if_neg hn]
              cases h5 : storeRow sys.saveSlopes s.allSlopes (s.iters % sys.nIters) x.2 with
              | error e => rfl
              | ok a =>
                cases h6 : storeRow sys.saveDmCommands s.allDmCommands (s.iters % sys.nIters) b.2 with
                | error e => rfl
                | ok a => rfl
  · simp only [if_neg hd]
    cases h0 : reconstruct dms (dms.map DmCtl.nValid).sum sys.product s.recon s.slopes with
    | error e => rfl
    | ok r =>
      obtain ⟨r1, r2⟩ := r
      dsimp only
      by_cases hl : r2.length = s.dmCommands.length
      swap
      · rw [if_neg hl]; unfold outside; simp [hl, Except.map]
      rw [if_pos hl]
      simp only [hl, if_true]
      simp only [Interrupt.delay]
      cases h1 : Delay.delay zeroLike s.buffer r2 sys.loopDelay with
      | error e => rfl
      | ok b =>
        simp only [Interrupt.closed]
        cases h2 : runDM sys.surface true b.2 0 dms (firstActs dms 0) s.closedCorr with
        | error e => rfl
        | ok c =>
          simp only [wfs, outside]
          cases h3 : p.sense s.sensors s.iters (p.move s.atmos).2 c with
          | error e => rfl
          | ok x =>
            simp only [opened]
            cases h4 : runDM sys.surface false b.2 0 dms (firstActs dms 0) s.openCorr with
            | error e => rfl
            | ok o =>
              simp only [combine, science, Interrupt.store]
              by_cases hn : sys.nIters = 0
              · simp only [if_pos hn]; rfl
              · simp only [if_neg hn]
                cases h5 : storeRow sys.saveSlopes s.allSlopes (s.iters % sys.nIters) x.2 with
                | error e => rfl
                | ok a =>
                  cases h6 : storeRow sys.saveDmCommands s.allDmCommands (s.iters % sys.nIters) b.2 with
                  | error e => rfl
                  | ok a => rfl

/-- **C141 (cameras).** The combined correction is that of the frame, and with it and the screens of the frame the cameras are run. -/
theorem C141_cameras (sys : Sys Surf) (p : Parts α σ κ Scr Surf) (dms : List DmCtl) (s : St α σ κ Scr Surf) :
    (frame sys p dms none s).map (fun s' => (asLoop s', s'.combined, s'.cams)) =
      (loopFrame sys (outside p) dms (asLoop s)).map fun r => (r.1, r.2.seenBySci, p.look s.cams (p.move s.atmos).2 r.2.seenBySci) := by
  unfold frame loopFrame Loop.control
  simp only [steps, exec, Interrupt.move, Interrupt.recon, asLoop]
  by_cases hd : dms.length = 0
  · simp only [if_pos hd, Interrupt.delay]
    cases h1 : Delay.delay zeroLike s.buffer s.dmCommands sys.loopDelay with
    | error e => rfl
    | ok b =>
      simp only [Interrupt.closed]
      cases h2 : runDM sys.surface true b.2 0 dms (firstActs dms 0) s.closedCorr with
      | error e => rfl
      | ok c =>
        simp only [wfs, outside]
        cases h3 : p.sense s.sensors s.iters (p.move s.atmos).2 c with
        | error e => rfl
        | ok x =>
          simp only [opened]
          cases h4 : runDM sys.surface false b.2 0 dms (firstActs dms 0) s.openCorr with
          | error e => rfl
          | ok o =>
            simp only [combine, science, Interrupt.store]
            by_cases hn : sys.nIters = 0
            · simp only [if_pos hn]; rfl
            · simp only [if_neg hn]
              cases h5 : storeRow sys.saveSlopes s.allSlopes (s.iters % sys.nIters) x.2 with
              | error e => rfl
              | ok a =>
                cases h6 : storeRow sys.saveDmCommands s.allDmCommands (s.iters % sys.nIters) b.2 with
                | error e => rfl
                | ok a => rfl
  · simp only [if_neg hd]
    cases h0 : reconstruct dms (dms.map DmCtl.nValid).sum sys.product s.recon s.slopes with
    | error e => rfl
    | ok r =>
      obtain ⟨r1, r2⟩ := r
      dsimp only
      by_cases hl : r2.length = s.dmCommands.length
      swap
      · rw [if_neg hl]; unfold outside; simp [hl, Except.map]
      rw [if_pos hl]
      simp only [hl, if_true]
      simp only [Interrupt.delay]
      cases h1 : Delay.delay zeroLike s.buffer r2 sys.loopDelay with
      | error e => rfl
      | ok b =>
        simp only [Interrupt.closed]
        cases h2 : runDM sys.surface true b.2 0 dms (firstActs dms 0) s.closedCorr with
        | error e => rfl
        | ok c =>
          simp only [wfs, outside]
          cases h3 : p.sense s.sensors s.iters (p.move s.atmos).2 c with
          | error e => rfl
          | ok x =>
            simp only [opened]
            cases h4 : runDM sys.surface false b.2 0 dms (firstActs dms 0) s.openCorr with
            | error e => rfl
            | ok o =>
              simp only [combine, science, Interrupt.store]
              by_cases hn : sys.nIters = 0
              · simp only [if_pos hn]; rfl
              · simp only [if_neg hn]
                cases h5 : storeRow sys.saveSlopes s.allSlopes (s.iters % sys.nIters) x.2 with
                | error e => rfl
                | ok a =>
                  cases h6 : storeRow sys.saveDmCommands s.allDmCommands (s.iters % sys.nIters) b.2 with
                  | error e => rfl
                  | ok a => rfl

theorem history_append (sys : Sys Surf) (p : Parts α σ κ Scr Surf) (dms : List DmCtl) (a b : List (Option ℕ))
    (s : St α σ κ Scr Surf) :
    run sys p dms (a ++ b) s = (run sys p dms a s).bind (run sys p dms b) := by
  induction a generalizing s with
  | nil => rfl
  | cons c a ih =>
    simp only [List.cons_append, run]
    cases frame sys p dms c s with
    | error e => rfl
    | ok s' => exact ih s'

/-- Whether a call of `loopFrame` got through its `n`th statement. -/
def got (n : ℕ) : Option ℕ → Bool
  | none => true
  | some k => decide (n ≤ k)

/-- How many of the calls of `loopFrame` got through their `n`th statement. -/
def reached (n : ℕ) (cs : List (Option ℕ)) : ℕ := cs.countP (got n)

/-- **C141 (between frames).** Stopping after any frame — the button of the interface, or an interrupt that falls between two
frames — as often as one likes and calling `aoloop` again leaves no trace: the run goes on exactly as it would have. -/
theorem C141_between (sys : Sys Surf) (p : Parts α σ κ Scr Surf) (dms : List DmCtl) (cs : List (Option ℕ))
    (s : St α σ κ Scr Surf) (h : ∀ c ∈ cs, c = none ∨ c = some 0) :
    run sys p dms cs s = run sys p dms (List.replicate (reached 1 cs) none) s := by
  induction cs generalizing s with
  | nil => rfl
  | cons c cs ih =>
    have ih' := fun s' => ih s' fun c hc => h c (List.mem_cons_of_mem _ hc)
    rcases h c List.mem_cons_self with rfl | rfl
    · have : reached 1 (none :: cs) = reached 1 cs + 1 := by simp [reached, List.countP_cons, got]
      rw [this, List.replicate_succ]
      simp only [run]
      cases frame sys p dms none s with
      | error e => rfl
      | ok s' => exact ih' s'
    · have : reached 1 (some 0 :: cs) = reached 1 cs := by simp [reached, got]
      rw [this]
      exact ih' s

omit [Add Surf] in
theorem exec_count (c : St α σ κ Scr Surf → ℕ) (n : ℕ) (fs : List (St α σ κ Scr Surf → Except PyErr (St α σ κ Scr Surf)))
    (m : ℕ) (h : ∀ i f, fs[i]? = some f → ∀ s s', f s = .ok s' → c s' = c s + if m + i = n then 1 else 0)
    (s s' : St α σ κ Scr Surf) (hs : exec fs s = .ok s') :
    c s' = c s + if m ≤ n ∧ n < m + fs.length then 1 else 0 := by
  induction fs generalizing m s with
  | nil =>
    cases Except.ok.inj hs
    rw [if_neg (by simp)]; rfl
  | cons f fs ih =>
    simp only [exec] at hs
    cases hf : f s with
    | error e => rw [hf] at hs; cases hs
    | ok s1 =>
      rw [hf] at hs
      have h1 := h 0 f rfl s s1 hf
      have h2 := ih (m + 1) (fun i g hg s s' he => by
        have := h (i + 1) g (by simpa using hg) s s' he
        rwa [show m + (i + 1) = m + 1 + i by omega] at this) s1 hs
      rw [h2, h1]
      simp only [List.length_cons]
      by_cases e : m = n
      · subst e
        simp
      · simp only [Nat.add_zero, if_neg e]
        by_cases e1 : m ≤ n ∧ n < m + (fs.length + 1)
        · rw [if_pos e1, if_pos (by omega)]
        · rw [if_neg e1, if_neg (by omega)]

/-- A counter that goes up by one in statement `n` (counted from 1) and nowhere else counts the calls that reached it. -/
theorem run_count (sys : Sys Surf) (p : Parts α σ κ Scr Surf) (dms : List DmCtl) (c : St α σ κ Scr Surf → ℕ) (n : ℕ) (hn : n < 11)
    (h : ∀ i f, (steps sys p dms)[i]? = some f → ∀ s s', f s = .ok s' → c s' = c s + if i = n then 1 else 0)
    (cs : List (Option ℕ)) (s s' : St α σ κ Scr Surf) (hs : run sys p dms cs s = .ok s') :
    c s' = c s + reached (n + 1) cs := by
  induction cs generalizing s with
  | nil => cases Except.ok.inj hs; rfl
  | cons k cs ih =>
    simp only [run] at hs
    cases hf : frame sys p dms k s with
    | error e => rw [hf] at hs; cases hs
    | ok s1 =>
      rw [hf] at hs
      rw [ih s1 hs]
      have h1 : c s1 = c s + (if got (n + 1) k = true then 1 else 0) := by
        rcases k with _ | k
        · have := exec_count c n _ 0 (fun i f hi s s' he => by simpa using h i f hi s s' he) s s1 hf
          rw [this, if_pos (by simp [steps]; omega)]; rfl
        · have := exec_count c n _ 0 (fun i f hi s s' he => by
            have hi' : (steps sys p dms)[i]? = some f := by
              rw [List.getElem?_take] at hi
              split at hi
              · exact hi
              · cases hi
            simpa using h i f hi' s s' he) s s1 hf
          rw [this]
          simp only [List.length_take, got, decide_eq_true_eq]
          have hl : (steps sys p dms).length = 11 := rfl
          rw [hl]
          by_cases hk : n + 1 ≤ k
          · rw [if_pos (by omega), if_pos hk]
          · rw [if_neg (by omega), if_neg hk]
      rw [h1]
      simp only [reached, List.countP_cons]
      omega

/-- Every statement of the frame, one by one. -/
theorem steps_cases (sys : Sys Surf) (p : Parts α σ κ Scr Surf) (dms : List DmCtl) (i : ℕ)
    (f : St α σ κ Scr Surf → Except PyErr (St α σ κ Scr Surf)) (h : (steps sys p dms)[i]? = some f) :
    (i = 0 ∧ f = Interrupt.move p) ∨ (i = 1 ∧ f = Interrupt.recon sys dms) ∨ (i = 2 ∧ f = Interrupt.delay sys) ∨
    (i = 3 ∧ f = Interrupt.closed sys dms) ∨ (i = 4 ∧ f = wfs p) ∨ (i = 5 ∧ f = opened sys dms) ∨ (i = 6 ∧ f = combine) ∨
    (i = 7 ∧ f = science p) ∨ (i = 8 ∧ f = Interrupt.store sys) ∨ (i = 9 ∧ f = report) ∨ (i = 10 ∧ f = count) := by
  rcases i with _ | _ | _ | _ | _ | _ | _ | _ | _ | _ | _ | i <;> simp [steps] at h <;> simp [h]

omit [Add Surf] in
theorem recon_keeps {sys : Sys Surf} {dms : List DmCtl} {s s' : St α σ κ Scr Surf} (h : Interrupt.recon sys dms s = .ok s') :
    ∃ r c, s' = { s with recon := r, dmCommands := c } := by
  unfold Interrupt.recon at h
  split at h
  · exact ⟨_, _, (Except.ok.inj h).symm⟩
  · split at h
    · cases h
    · split at h
      · exact ⟨_, _, (Except.ok.inj h).symm⟩
      · cases h

omit [Add Surf] in
theorem delay_keeps {sys : Sys Surf} {s s' : St α σ κ Scr Surf} (h : Interrupt.delay sys s = .ok s') :
    ∃ b c, s' = { s with buffer := b, dmCommands := c } := by
  unfold Interrupt.delay at h
  split at h
  · cases h
  · exact ⟨_, _, (Except.ok.inj h).symm⟩

omit [Add Surf] in
theorem closed_keeps {sys : Sys Surf} {dms : List DmCtl} {s s' : St α σ κ Scr Surf} (h : Interrupt.closed sys dms s = .ok s') :
    ∃ c, s' = { s with closedCorr := c } := by
  unfold Interrupt.closed at h
  split at h
  · cases h
  · exact ⟨_, (Except.ok.inj h).symm⟩

omit [Add Surf] in
theorem wfs_keeps {p : Parts α σ κ Scr Surf} {s s' : St α σ κ Scr Surf} (h : wfs p s = .ok s') :
    ∃ scr x m, p.sense s.sensors s.iters scr s.closedCorr = .ok (x, m) ∧ s' = { s with sensors := x, slopes := m } := by
  unfold wfs at h
  split at h
  · cases h
  · split at h
    · cases h
    · exact ⟨_, _, _, by assumption, (Except.ok.inj h).symm⟩

omit [Add Surf] in
theorem opened_keeps {sys : Sys Surf} {dms : List DmCtl} {s s' : St α σ κ Scr Surf} (h : opened sys dms s = .ok s') :
    ∃ c, s' = { s with openCorr := c } := by
  unfold opened at h
  split at h
  · cases h
  · exact ⟨_, (Except.ok.inj h).symm⟩

omit [Add Surf] in
theorem science_keeps {p : Parts α σ κ Scr Surf} {s s' : St α σ κ Scr Surf} (h : science p s = .ok s') :
    ∃ scr, s' = { s with cams := p.look s.cams scr s.combined } := by
  unfold science at h
  split at h
  · cases h
  · exact ⟨_, (Except.ok.inj h).symm⟩

omit [Add Surf] in
theorem store_keeps {sys : Sys Surf} {s s' : St α σ κ Scr Surf} (h : Interrupt.store sys s = .ok s') :
    ∃ a b, storeRow sys.saveSlopes s.allSlopes (s.iters % sys.nIters) s.slopes = .ok a ∧
      storeRow sys.saveDmCommands s.allDmCommands (s.iters % sys.nIters) s.dmCommands = .ok b ∧
      s' = { s with allSlopes := a, allDmCommands := b } := by
  unfold Interrupt.store at h
  split at h
  · cases h
  · split at h
    · cases h
    · split at h
      · cases h
      · rename_i a ha _ b hb
        exact ⟨a, b, ha, hb, (Except.ok.inj h).symm⟩

/-- **C141 (what was counted).** Calls interrupted at any places: the frame counter counts the calls that came to their end; the
turbulence has moved on by every call that began; the sensors have been exposed by every call that got past them, the science
cameras by every call that got past them. -/
theorem C141_counts (sys : Sys Surf) (p : Parts α σ κ Scr Surf) (dms : List DmCtl)
    (ca : α → ℕ) (cx : σ → ℕ) (ck : κ → ℕ) (ha : ∀ a, ca (p.move a).1 = ca a + 1)
    (hx : ∀ x i scr c y m, p.sense x i scr c = .ok (y, m) → cx y = cx x + 1)
    (hk : ∀ k scr c, ck (p.look k scr c) = ck k + 1)
    (cs : List (Option ℕ)) (s s' : St α σ κ Scr Surf) (h : run sys p dms cs s = .ok s') :
    s'.iters = s.iters + reached 11 cs ∧ ca s'.atmos = ca s.atmos + reached 1 cs ∧
      cx s'.sensors = cx s.sensors + reached 5 cs ∧ ck s'.cams = ck s.cams + reached 8 cs := by
  refine ⟨run_count sys p dms (·.iters) 10 (by omega) ?_ cs s s' h, run_count sys p dms (ca ·.atmos) 0 (by omega) ?_ cs s s' h,
    run_count sys p dms (cx ·.sensors) 4 (by omega) ?_ cs s s' h, run_count sys p dms (ck ·.cams) 7 (by omega) ?_ cs s s' h⟩ <;>
  · intro i f hi s s' hs
    rcases steps_cases sys p dms i f hi with ⟨rfl, rfl⟩ | ⟨rfl, rfl⟩ | ⟨rfl, rfl⟩ | ⟨rfl, rfl⟩ | ⟨rfl, rfl⟩ | ⟨rfl, rfl⟩ |
      ⟨rfl, rfl⟩ | ⟨rfl, rfl⟩ | ⟨rfl, rfl⟩ | ⟨rfl, rfl⟩ | ⟨rfl, rfl⟩
    · cases Except.ok.inj hs; simp [ha]
    · obtain ⟨_, _, rfl⟩ := recon_keeps hs; simp
    · obtain ⟨_, _, rfl⟩ := delay_keeps hs; simp
    · obtain ⟨_, rfl⟩ := closed_keeps hs; simp
    · obtain ⟨scr, x, m, he, rfl⟩ := wfs_keeps hs; simp [hx _ _ _ _ _ _ he]
    · obtain ⟨_, rfl⟩ := opened_keeps hs; simp
    · cases Except.ok.inj hs; simp
    · obtain ⟨_, rfl⟩ := science_keeps hs; simp [hk]
    · obtain ⟨_, _, _, _, rfl⟩ := store_keeps hs; simp
    · cases Except.ok.inj hs; simp
    · cases Except.ok.inj hs; simp

theorem storeRow_other {save : Bool} {hist hist' : List (List ℚ)} {i : ℕ} {row : List ℚ} (h : storeRow save hist i row = .ok hist')
    (j : ℕ) (hj : j ≠ i) : hist'[j]? = hist[j]? := by
  unfold storeRow at h
  split at h
  · split at h
    · cases h
    · split at h
      · cases Except.ok.inj h
        exact List.getElem?_set_ne (Ne.symm hj)
      · cases h
  · cases Except.ok.inj h; rfl

theorem exec_records (sys : Sys Surf) (p : Parts α σ κ Scr Surf) (dms : List DmCtl) (j : ℕ)
    (fs : List (St α σ κ Scr Surf → Except PyErr (St α σ κ Scr Surf))) (hfs : ∀ f ∈ fs, ∃ i, (steps sys p dms)[i]? = some f ∧ i ≠ 10)
    (s s' : St α σ κ Scr Surf) (hs : exec fs s = .ok s') (hj : j ≠ s.iters % sys.nIters) :
    s'.iters = s.iters ∧ s'.allSlopes[j]? = s.allSlopes[j]? ∧ s'.allDmCommands[j]? = s.allDmCommands[j]? := by
  induction fs generalizing s with
  | nil => cases Except.ok.inj hs; exact ⟨rfl, rfl, rfl⟩
  | cons f fs ih =>
    simp only [exec] at hs
    cases hf : f s with
    | error e => rw [hf] at hs; cases hs
    | ok s1 =>
      rw [hf] at hs
      have h1 : s1.iters = s.iters ∧ s1.allSlopes[j]? = s.allSlopes[j]? ∧ s1.allDmCommands[j]? = s.allDmCommands[j]? := by
        obtain ⟨i, hi, hne⟩ := hfs f List.mem_cons_self
        rcases steps_cases sys p dms i f hi with ⟨rfl, rfl⟩ | ⟨rfl, rfl⟩ | ⟨rfl, rfl⟩ | ⟨rfl, rfl⟩ | ⟨rfl, rfl⟩ | ⟨rfl, rfl⟩ |
          ⟨rfl, rfl⟩ | ⟨rfl, rfl⟩ | ⟨rfl, rfl⟩ | ⟨rfl, rfl⟩ | ⟨rfl, rfl⟩
        · cases Except.ok.inj hf; exact ⟨rfl, rfl, rfl⟩
        · obtain ⟨_, _, rfl⟩ := recon_keeps hf; exact ⟨rfl, rfl, rfl⟩
        · obtain ⟨_, _, rfl⟩ := delay_keeps hf; exact ⟨rfl, rfl, rfl⟩
        · obtain ⟨_, rfl⟩ := closed_keeps hf; exact ⟨rfl, rfl, rfl⟩
        · obtain ⟨scr, x, m, he, rfl⟩ := wfs_keeps hf; exact ⟨rfl, rfl, rfl⟩
        · obtain ⟨_, rfl⟩ := opened_keeps hf; exact ⟨rfl, rfl, rfl⟩
        · cases Except.ok.inj hf; exact ⟨rfl, rfl, rfl⟩
        · obtain ⟨_, rfl⟩ := science_keeps hf; exact ⟨rfl, rfl, rfl⟩
        · obtain ⟨a, b, ha, hb, rfl⟩ := store_keeps hf
          exact ⟨rfl, storeRow_other ha j hj, storeRow_other hb j hj⟩
        · cases Except.ok.inj hf; exact ⟨rfl, rfl, rfl⟩
        · exact absurd rfl hne
      obtain ⟨h2, h3, h4⟩ := ih (fun g hg => hfs g (List.mem_cons_of_mem _ hg)) s1 hs (by rw [h1.1]; exact hj)
      exact ⟨h2.trans h1.1, h3.trans h1.2.1, h4.trans h1.2.2⟩

omit [Add Surf] in
theorem exec_append (fs gs : List (St α σ κ Scr Surf → Except PyErr (St α σ κ Scr Surf))) (s : St α σ κ Scr Surf) :
    exec (fs ++ gs) s = (exec fs s).bind (exec gs) := by
  induction fs generalizing s with
  | nil => rfl
  | cons f fs ih =>
    simp only [List.cons_append, exec]
    cases f s with
    | error e => rfl
    | ok s' => exact ih s'

/-- An interrupted or complete frame writes the records of no other frame. -/
theorem frame_records (sys : Sys Surf) (p : Parts α σ κ Scr Surf) (dms : List DmCtl) (c : Option ℕ) (j : ℕ)
    (s s' : St α σ κ Scr Surf) (hs : frame sys p dms c s = .ok s') (hj : j ≠ s.iters % sys.nIters) :
    s'.allSlopes[j]? = s.allSlopes[j]? ∧ s'.allDmCommands[j]? = s.allDmCommands[j]? := by
  have key : ∀ k, k ≤ 10 → ∀ s', exec ((steps sys p dms).take k) s = .ok s' →
      s'.allSlopes[j]? = s.allSlopes[j]? ∧ s'.allDmCommands[j]? = s.allDmCommands[j]? := by
    intro k hk s' he
    refine (exec_records sys p dms j _ ?_ s s' he hj).2
    intro f hf
    obtain ⟨i, hi, rfl⟩ := List.getElem_of_mem hf
    have hi' : i < k := by
      rw [List.length_take] at hi
      exact lt_of_lt_of_le hi (min_le_left _ _)
    refine ⟨i, ?_, by omega⟩
    rw [List.getElem_take, List.getElem?_eq_getElem]
  have whole : ∀ s', exec (steps sys p dms) s = .ok s' →
      s'.allSlopes[j]? = s.allSlopes[j]? ∧ s'.allDmCommands[j]? = s.allDmCommands[j]? := by
    intro s' he
    have hsp : steps sys p dms = (steps sys p dms).take 10 ++ [count] := rfl
    rw [hsp, exec_append] at he
    cases h1 : exec ((steps sys p dms).take 10) s with
    | error e => rw [h1] at he; cases he
    | ok s1 =>
      rw [h1] at he
      have := key 10 le_rfl s1 h1
      cases Except.ok.inj he
      exact this
  rcases c with _ | k
  · exact whole s' hs
  · by_cases hk : k ≤ 10
    · exact key k hk s' hs
    · refine whole s' ?_
      have : (steps sys p dms).take k = steps sys p dms := List.take_of_length_le (by change 11 ≤ k; omega)
      simpa [frame, this] using hs

theorem frame_iters (sys : Sys Surf) (p : Parts α σ κ Scr Surf) (dms : List DmCtl) (c : Option ℕ)
    (s s' : St α σ κ Scr Surf) (hs : frame sys p dms c s = .ok s') : s.iters ≤ s'.iters ∧ s'.iters = s.iters + reached 11 [c] := by
  have h := run_count sys p dms (·.iters) 10 (by omega) (by
    intro i f hi s s' hs
    rcases steps_cases sys p dms i f hi with ⟨rfl, rfl⟩ | ⟨rfl, rfl⟩ | ⟨rfl, rfl⟩ | ⟨rfl, rfl⟩ | ⟨rfl, rfl⟩ | ⟨rfl, rfl⟩ |
      ⟨rfl, rfl⟩ | ⟨rfl, rfl⟩ | ⟨rfl, rfl⟩ | ⟨rfl, rfl⟩ | ⟨rfl, rfl⟩
    · cases Except.ok.inj hs; simp
    · obtain ⟨_, _, rfl⟩ := recon_keeps hs; simp
    · obtain ⟨_, _, rfl⟩ := delay_keeps hs; simp
    · obtain ⟨_, rfl⟩ := closed_keeps hs; simp
    · obtain ⟨scr, x, m, he, rfl⟩ := wfs_keeps hs; simp
    · obtain ⟨_, rfl⟩ := opened_keeps hs; simp
    · cases Except.ok.inj hs; simp
    · obtain ⟨_, rfl⟩ := science_keeps hs; simp
    · obtain ⟨_, _, _, _, rfl⟩ := store_keeps hs; simp
    · cases Except.ok.inj hs; simp
    · cases Except.ok.inj hs; simp) [c] s s' (by simp only [run, hs])
  exact ⟨by have : s'.iters = s.iters + reached 11 [c] := h
            omega, h⟩

/-- **C141 (records).** Whatever is interrupted afterwards, what was recorded of the frames that came to their end stays: frames
are begun only while frames are left (as `aoloop` sees to), and none of them writes the records of an earlier one. -/
theorem C141_records (sys : Sys Surf) (p : Parts α σ κ Scr Surf) (dms : List DmCtl) (cs : List (Option ℕ))
    (s s' : St α σ κ Scr Surf) (h : run sys p dms cs s = .ok s')
    (hc : ∀ n, n < cs.length → s.iters + reached 11 (cs.take n) < sys.nIters) (j : ℕ) (hj : j < s.iters) :
    s'.allSlopes[j]? = s.allSlopes[j]? ∧ s'.allDmCommands[j]? = s.allDmCommands[j]? := by
  induction cs generalizing s with
  | nil => cases Except.ok.inj h; exact ⟨rfl, rfl⟩
  | cons c cs ih =>
    simp only [run] at h
    cases hf : frame sys p dms c s with
    | error e => rw [hf] at h; cases h
    | ok s1 =>
      rw [hf] at h
      have h0 := hc 0 (by simp)
      have hlt : s.iters < sys.nIters := by simpa [reached] using h0
      have h1 := frame_records sys p dms c j s s1 hf (by rw [Nat.mod_eq_of_lt hlt]; omega)
      obtain ⟨hle, hit⟩ := frame_iters sys p dms c s s1 hf
      have h2 := ih s1 h (fun n hn => by
        have := hc (n + 1) (by simpa using hn)
        rw [List.take_succ_cons] at this
        have e : reached 11 (c :: cs.take n) = reached 11 [c] + reached 11 (cs.take n) := by
          simp only [reached, List.countP_cons, List.countP_nil]; omega
        omega) (by omega)
      exact ⟨h2.1.trans h1.1, h2.2.trans h1.2⟩

/-- **C141 (only the turbulence had moved).** An interrupt right after the turbulence was moved loses that turbulence: the run goes
on as one in which the turbulence had moved on by one more before. -/
theorem C141_skips (sys : Sys Surf) (p : Parts α σ κ Scr Surf) (dms : List DmCtl) (j : ℕ) (cs : List (Option ℕ))
    (s : St α σ κ Scr Surf) :
    run sys p dms (List.replicate j (some 1) ++ none :: cs) s =
      run sys p dms (none :: cs) { s with atmos := (fun a => (p.move a).1)^[j] s.atmos } := by
  induction j generalizing s with
  | zero => rfl
  | succ j ih =>
    have : run sys p dms (List.replicate (j + 1) (some 1) ++ none :: cs) s =
        run sys p dms (List.replicate j (some 1) ++ none :: cs)
          { s with atmos := (p.move s.atmos).1, scrns := some (p.move s.atmos).2 } := rfl
    rw [this, ih, Function.iterate_succ_apply]
    rfl

/-- **C141 (everything but the counting).** An interrupt after the records are written, before the frame is counted, makes an
extra frame of the same number: everything has gone on by a frame except the frame counter, and the next frame writes over the records. -/
theorem C141_extra (sys : Sys Surf) (p : Parts α σ κ Scr Surf) (dms : List DmCtl) (k : ℕ) (hk : k = 9 ∨ k = 10)
    (s : St α σ κ Scr Surf) :
    frame sys p dms (some k) s = (frame sys p dms none s).map fun s' => { s' with iters := s'.iters - 1 } := by
  have h9 : steps sys p dms = (steps sys p dms).take 9 ++ [report, count] := rfl
  have h10 : (steps sys p dms).take 10 = (steps sys p dms).take 9 ++ [report] := rfl
  have hn : frame sys p dms none s = (exec ((steps sys p dms).take 9) s).bind (exec [report, count]) := by
    unfold frame
    conv_lhs => rw [h9]
    rw [exec_append]
  rw [hn]
  rcases hk with rfl | rfl
  · simp only [frame]
    cases exec ((steps sys p dms).take 9) s with
    | error e => rfl
    | ok s1 => simp [Except.bind, exec, report, count, Except.map]
  · simp only [frame]
    rw [h10, exec_append]
    cases exec ((steps sys p dms).take 9) s with
    | error e => rfl
    | ok s1 => simp [Except.bind, exec, report, count, Except.map]

omit [Add Surf] in
theorem exec_same {β : Type*} (g : St α σ κ Scr Surf → β) (fs : List (St α σ κ Scr Surf → Except PyErr (St α σ κ Scr Surf)))
    (h : ∀ f ∈ fs, ∀ s s', f s = .ok s' → g s' = g s) (s s' : St α σ κ Scr Surf) (hs : exec fs s = .ok s') : g s' = g s := by
  induction fs generalizing s with
  | nil => cases Except.ok.inj hs; rfl
  | cons f fs ih =>
    simp only [exec] at hs
    cases hf : f s with
    | error e => rw [hf] at hs; cases hs
    | ok s1 =>
      rw [hf] at hs
      exact (ih (fun g hg => h g (List.mem_cons_of_mem _ hg)) s1 hs).trans (h f List.mem_cons_self s s1 hf)

/-- A call that gets past the reconstruction has reconstructed once, from the measurements of the frame before. -/
theorem frame_recon (sys : Sys Surf) (p : Parts α σ κ Scr Surf) (dms : List DmCtl) (hd : dms ≠ []) (c : Option ℕ)
    (hc : got 2 c = true) (s s' : St α σ κ Scr Surf) (hs : frame sys p dms c s = .ok s') :
    ∃ new, reconstruct dms (nCommands dms) sys.product s.recon s.slopes = .ok (s'.recon, new) := by
  have hl : dms.length ≠ 0 := fun h => hd (List.length_eq_zero_iff.1 h)
  obtain ⟨k, hk, he⟩ : ∃ k, frame sys p dms c s =
      exec ([Interrupt.move p, Interrupt.recon sys dms] ++ ((steps sys p dms).drop 2).take k) s ∧ True := by
    rcases c with _ | k
    · exact ⟨9, rfl, trivial⟩
    · simp only [got, decide_eq_true_eq] at hc
      obtain ⟨k, rfl⟩ := Nat.exists_eq_add_of_le' hc
      exact ⟨k, rfl, trivial⟩
  rw [hk] at hs
  rw [exec_append] at hs
  cases h1 : exec [Interrupt.move p, Interrupt.recon sys dms] s with
  | error e => rw [h1] at hs; cases hs
  | ok s1 =>
    rw [h1] at hs
    have hkeep : s'.recon = s1.recon := by
      refine exec_same (·.recon) _ ?_ s1 s' hs
      intro f hf s s' hs
      have hf' := List.mem_of_mem_take hf
      simp only [steps, List.drop_succ_cons, List.drop_zero, List.mem_cons, List.not_mem_nil, or_false] at hf'
      rcases hf' with rfl | rfl | rfl | rfl | rfl | rfl | rfl | rfl | rfl
      · obtain ⟨_, _, rfl⟩ := delay_keeps hs; rfl
      · obtain ⟨_, rfl⟩ := closed_keeps hs; rfl
      · obtain ⟨scr, x, m, he, rfl⟩ := wfs_keeps hs; rfl
      · obtain ⟨_, rfl⟩ := opened_keeps hs; rfl
      · cases Except.ok.inj hs; rfl
      · obtain ⟨_, rfl⟩ := science_keeps hs; rfl
      · obtain ⟨_, _, _, _, rfl⟩ := store_keeps hs; rfl
      · cases Except.ok.inj hs; rfl
      · cases Except.ok.inj hs; rfl
    rw [hkeep]
    simp only [exec, Interrupt.move, Interrupt.recon, if_neg hl] at h1
    cases h2 : reconstruct dms (dms.map DmCtl.nValid).sum sys.product s.recon s.slopes with
    | error e => rw [h2] at h1; cases h1
    | ok r =>
      rw [h2] at h1
      by_cases hlen : r.2.length = s.dmCommands.length
      · simp only [if_pos hlen] at h1
        cases Except.ok.inj h1
        exact ⟨r.2, h2⟩
      · simp only [if_neg hlen] at h1
        cases h1

/-- Before the sensors are run the measurements are those of the frame before. -/
theorem frame_slopes (sys : Sys Surf) (p : Parts α σ κ Scr Surf) (dms : List DmCtl) (k : ℕ) (hk : k ≤ 4)
    (s s' : St α σ κ Scr Surf) (hs : frame sys p dms (some k) s = .ok s') : s'.slopes = s.slopes := by
  refine exec_same (·.slopes) _ ?_ s s' hs
  intro f hf s s' hs
  have hf' : f ∈ (steps sys p dms).take 4 := (List.take_prefix_take_left hk).subset hf
  simp only [steps, List.take_succ_cons, List.take_zero, List.mem_cons, List.not_mem_nil, or_false] at hf'
  rcases hf' with rfl | rfl | rfl | rfl
  · cases Except.ok.inj hs; rfl
  · obtain ⟨_, _, rfl⟩ := recon_keeps hs; rfl
  · obtain ⟨_, _, rfl⟩ := delay_keeps hs; rfl
  · obtain ⟨_, rfl⟩ := closed_keeps hs; rfl

/-- **C141 (counted twice).** An interrupt after the commands were calculated and before the sensors were run makes the same
measurements count twice: continuing adds the correction of a closed loop mirror a second time, as if its gain were doubled, and an
open loop mirror goes twice the step towards it. -/
theorem C141_twice (sys : Sys Surf) (p : Parts α σ κ Scr Surf) (dms : List DmCtl) (k : ℕ) (hk : 2 ≤ k) (hk' : k ≤ 4)
    (s s' : St α σ κ Scr Surf) (h : run sys p dms [some k, none] s = .ok s') (act u : List ℚ)
    (ha : s.recon.actuatorValues = some act) (hal : act.length = nCommands dms) (hu : sys.product s.slopes = .ok u)
    (hul : u.length = nCommands dms) :
    ∃ act', s'.recon.actuatorValues = some act' ∧ ∀ m d, dms[m]? = some d → ∀ j, j < d.nValid →
      ∃ x y, act[firstCommand dms m + j]? = some x ∧ u[firstCommand dms m + j]? = some y ∧
        act'[firstCommand dms m + j]? =
          some (if d.closed then x + 2 * d.gain * y else (1 - (1 - d.gain) ^ 2) * y + (1 - d.gain) ^ 2 * x) := by
  by_cases hd : dms = []
  · subst hd
    have hkeep : ∀ c s s', frame sys p [] c s = .ok s' → s'.recon = s.recon := by
      intro c s s' hs
      have hall : ∀ f ∈ steps sys p [], ∀ s s' : St α σ κ Scr Surf, f s = .ok s' → s'.recon = s.recon := by
        intro f hf s s' hs
        simp only [steps, List.mem_cons, List.not_mem_nil, or_false] at hf
        rcases hf with rfl | rfl | rfl | rfl | rfl | rfl | rfl | rfl | rfl | rfl | rfl
        · cases Except.ok.inj hs; rfl
        · cases Except.ok.inj hs; rfl
        · obtain ⟨_, _, rfl⟩ := delay_keeps hs; rfl
        · obtain ⟨_, rfl⟩ := closed_keeps hs; rfl
        · obtain ⟨scr, x, m, he, rfl⟩ := wfs_keeps hs; rfl
        · obtain ⟨_, rfl⟩ := opened_keeps hs; rfl
        · cases Except.ok.inj hs; rfl
        · obtain ⟨_, rfl⟩ := science_keeps hs; rfl
        · obtain ⟨_, _, _, _, rfl⟩ := store_keeps hs; rfl
        · cases Except.ok.inj hs; rfl
        · cases Except.ok.inj hs; rfl
      rcases c with _ | k
      · exact exec_same (·.recon) _ hall s s' hs
      · exact exec_same (·.recon) _ (fun f hf => hall f (List.mem_of_mem_take hf)) s s' hs
    simp only [run] at h
    cases h1 : frame sys p [] (some k) s with
    | error e => rw [h1] at h; cases h
    | ok s1 =>
      rw [h1] at h
      dsimp only at h
      cases h2 : frame sys p [] none s1 with
      | error e => rw [h2] at h; cases h
      | ok s2 =>
        rw [h2] at h
        cases Except.ok.inj h
        exact ⟨act, by rw [hkeep _ _ _ h2, hkeep _ _ _ h1, ha], by simp⟩
  simp only [run] at h
  cases h1 : frame sys p dms (some k) s with
  | error e => rw [h1] at h; cases h
  | ok s1 =>
    rw [h1] at h
    dsimp only at h
    cases h2 : frame sys p dms none s1 with
    | error e => rw [h2] at h; cases h
    | ok s2 =>
      rw [h2] at h
      cases Except.ok.inj h
      obtain ⟨n1, r1⟩ := frame_recon sys p dms hd (some k) (by simpa [got] using hk) s s1 h1
      obtain ⟨n2, r2⟩ := frame_recon sys p dms hd none rfl s1 s' h2
      rw [frame_slopes sys p dms k hk' s s1 h1] at r2
      obtain ⟨a1, e1, l1, g1⟩ := C11_gain_per_mirror dms act u hal hul
      obtain ⟨a2, e2, l2, g2⟩ := C11_gain_per_mirror dms a1 u l1 hul
      have hs1 : s1.recon = ⟨some a1⟩ := by
        simp only [reconstruct, ha, hu, e1] at r1
        exact (congrArg Prod.fst (Except.ok.inj r1)).symm
      have hs2 : s'.recon = ⟨some a2⟩ := by
        simp only [reconstruct, hs1, hu, e2] at r2
        exact (congrArg Prod.fst (Except.ok.inj r2)).symm
      refine ⟨a2, by rw [hs2], ?_⟩
      intro m d hm j hj
      obtain ⟨x, y, hx, hy, h3⟩ := g1 m d hm j hj
      obtain ⟨x', y', hx', hy', h4⟩ := g2 m d hm j hj
      rw [h3] at hx'
      rw [hy] at hy'
      cases Option.some.inj hx'
      cases Option.some.inj hy'
      refine ⟨x, y, hx, hy, ?_⟩
      rw [h4]
      cases d.closed
      · simp only [Bool.false_eq_true, if_false]
        congr 1; ring
      · simp only [if_true]
        congr 1; ring

/-! ### A run that is not what it would have been -/

/-- One closed loop actuator with gain a half, one measurement. -/
def halfMirror : List DmCtl := [⟨1, true, 1 / 2⟩]

/-- A loop of three frames that sends the measurement to the actuator. -/
def halfSys : Sys ℚ where
  surface _ c := .ok (c.getD 0 0)
  product m := .ok m
  loopDelay := 0
  nIters := 3
  saveSlopes := true
  saveDmCommands := true

/-- Still turbulence (a constant tilt of one); the atmosphere, sensors and cameras only count how often they were used. -/
def stillParts : Parts ℕ ℕ ℕ ℚ ℚ where
  move n := (n + 1, 1)
  sense x _ scr c := .ok (x + 1, [scr - c.getD 0 0])
  look k _ _ := k + 1

/-- The simulation before its first frame. -/
def halfStart : St ℕ ℕ ℕ ℚ ℚ :=
  ⟨0, none, ⟨none⟩, [0], [], [0], 0, [0], [0], [], 0, [[0], [0], [0]], [[0], [0], [0]], 0⟩

/-- The recorded commands of a run. -/
def commandsOf (cs : List (Option ℕ)) : Option (List (List ℚ)) :=
  match run halfSys stillParts halfMirror cs halfStart with
  | .ok s => some s.allDmCommands
  | .error _ => none

/-- **C141 (violated).** A run interrupted within a frame and continued is not the run it would have been, even in turbulence that
stands still: the command of the frame that was interrupted comes out twice as large. -/
theorem C141_violated :
    commandsOf [none, none, none] = some [[0], [1 / 2], [3 / 4]] ∧
    commandsOf [none, some 2, none, none] = some [[0], [1], [1]] ∧
    commandsOf [none, some 5, none, none] = some [[0], [3 / 4], [7 / 8]] := by
  decide +kernel

/-- **C141 (what holds; missing: interrupts within a frame, where it fails).** Stops between frames can be left out of any history,
also of one with other interrupts. -/
theorem C141_resume_partial (sys : Sys Surf) (p : Parts α σ κ Scr Surf) (dms : List DmCtl) (cs : List (Option ℕ))
    (s : St α σ κ Scr Surf) : run sys p dms cs s = run sys p dms (cs.filter (· ≠ some 0)) s := by
  induction cs generalizing s with
  | nil => rfl
  | cons c cs ih =>
    by_cases hc : c = some 0
    · subst hc
      rw [List.filter_cons_of_neg (by simp), ← ih]
      rfl
    · rw [List.filter_cons_of_pos (by simpa using hc)]
      simp only [run]
      cases frame sys p dms c s with
      | error e => rfl
      | ok s' => exact ih s'

/-- Two simulations that differ at most in the atmosphere, which `R` relates. -/
def AirOnly (R : α → α → Prop) (x y : Except PyErr (St α σ κ Scr Surf)) : Prop :=
  match x, y with
  | .error e, .error e' => e = e'
  | .ok s, .ok t => ∃ b, R s.atmos b ∧ t = { s with atmos := b }
  | _, _ => False

theorem airOnly_step (R : α → α → Prop) (sys : Sys Surf) (p : Parts α σ κ Scr Surf) (dms : List DmCtl)
    (hR : ∀ a b, R a b → (p.move a).2 = (p.move b).2 ∧ R (p.move a).1 (p.move b).1)
    (f : St α σ κ Scr Surf → Except PyErr (St α σ κ Scr Surf)) (hf : f ∈ steps sys p dms) (s : St α σ κ Scr Surf) (b : α)
    (h : R s.atmos b) : AirOnly R (f s) (f { s with atmos := b }) := by
  simp only [steps, List.mem_cons, List.not_mem_nil, or_false] at hf
  rcases hf with rfl | rfl | rfl | rfl | rfl | rfl | rfl | rfl | rfl | rfl | rfl
  · exact ⟨_, (hR _ _ h).2, by simp [(hR _ _ h).1]⟩
  · simp only [Interrupt.recon]
    split
    · exact ⟨b, h, rfl⟩
    · cases reconstruct dms (dms.map DmCtl.nValid).sum sys.product s.recon s.slopes with
      | error e => rfl
      | ok r =>
        dsimp only
        split
        · exact ⟨b, h, rfl⟩
        · rfl
  · simp only [Interrupt.delay]
    cases Delay.delay zeroLike s.buffer s.dmCommands sys.loopDelay with
    | error e => rfl
    | ok r => exact ⟨b, h, rfl⟩
  · simp only [Interrupt.closed]
    cases runDM sys.surface true s.dmCommands 0 dms (firstActs dms 0) s.closedCorr with
    | error e => rfl
    | ok r => exact ⟨b, h, rfl⟩
  · simp only [wfs]
    cases s.scrns with
    | none => rfl
    | some scr =>
      dsimp only
      cases p.sense s.sensors s.iters scr s.closedCorr with
      | error e => rfl
      | ok r => exact ⟨b, h, rfl⟩
  · simp only [opened]
    cases runDM sys.surface false s.dmCommands 0 dms (firstActs dms 0) s.openCorr with
    | error e => rfl
    | ok r => exact ⟨b, h, rfl⟩
  · exact ⟨b, h, rfl⟩
  · simp only [science]
    cases s.scrns with
    | none => rfl
    | some scr => exact ⟨b, h, rfl⟩
  · simp only [Interrupt.store]
    split
    · rfl
    · cases storeRow sys.saveSlopes s.allSlopes (s.iters % sys.nIters) s.slopes with
      | error e => rfl
      | ok r =>
        dsimp only
        cases storeRow sys.saveDmCommands s.allDmCommands (s.iters % sys.nIters) s.dmCommands with
        | error e => rfl
        | ok r' => exact ⟨b, h, rfl⟩
  · exact ⟨b, h, rfl⟩
  · exact ⟨b, h, rfl⟩

theorem airOnly_exec (R : α → α → Prop) (sys : Sys Surf) (p : Parts α σ κ Scr Surf) (dms : List DmCtl)
    (hR : ∀ a b, R a b → (p.move a).2 = (p.move b).2 ∧ R (p.move a).1 (p.move b).1)
    (fs : List (St α σ κ Scr Surf → Except PyErr (St α σ κ Scr Surf))) (hf : ∀ f ∈ fs, f ∈ steps sys p dms)
    (s : St α σ κ Scr Surf) (b : α) (h : R s.atmos b) : AirOnly R (exec fs s) (exec fs { s with atmos := b }) := by
  induction fs generalizing s b with
  | nil => exact ⟨b, h, rfl⟩
  | cons f fs ih =>
    have h1 := airOnly_step R sys p dms hR f (hf f List.mem_cons_self) s b h
    simp only [exec]
    cases e1 : f s with
    | error e =>
      cases e2 : f { s with atmos := b } with
      | error e' => rw [e1, e2] at h1; exact h1
      | ok t => rw [e1, e2] at h1; exact h1.elim
    | ok s1 =>
      cases e2 : f { s with atmos := b } with
      | error e' => rw [e1, e2] at h1; exact h1.elim
      | ok t =>
        rw [e1, e2] at h1
        obtain ⟨b', hb', rfl⟩ := h1
        exact ih (fun g hg => hf g (List.mem_cons_of_mem _ hg)) s1 b' hb'

theorem airOnly_run (R : α → α → Prop) (sys : Sys Surf) (p : Parts α σ κ Scr Surf) (dms : List DmCtl)
    (hR : ∀ a b, R a b → (p.move a).2 = (p.move b).2 ∧ R (p.move a).1 (p.move b).1) (cs : List (Option ℕ))
    (s : St α σ κ Scr Surf) (b : α) (h : R s.atmos b) :
    AirOnly R (run sys p dms cs s) (run sys p dms cs { s with atmos := b }) := by
  induction cs generalizing s b with
  | nil => exact ⟨b, h, rfl⟩
  | cons c cs ih =>
    have h1 : AirOnly R (frame sys p dms c s) (frame sys p dms c { s with atmos := b }) := by
      rcases c with _ | k
      · exact airOnly_exec R sys p dms hR _ (fun f hf => hf) s b h
      · exact airOnly_exec R sys p dms hR _ (fun f hf => List.mem_of_mem_take hf) s b h
    simp only [run]
    cases e1 : frame sys p dms c s with
    | error e =>
      cases e2 : frame sys p dms c { s with atmos := b } with
      | error e' => rw [e1, e2] at h1; exact h1
      | ok t => rw [e1, e2] at h1; exact h1.elim
    | ok s1 =>
      cases e2 : frame sys p dms c { s with atmos := b } with
      | error e' => rw [e1, e2] at h1; exact h1.elim
      | ok t =>
        rw [e1, e2] at h1
        obtain ⟨b', hb', rfl⟩ := h1
        exact ih s1 b' hb'

/-- **C141 (still turbulence).** If the turbulence does not change, interrupts right after it was moved leave no trace: measurements,
commands, corrections, sensors, cameras, records and frame counter come out the same. -/
theorem C141_still (sys : Sys Surf) (p : Parts α σ κ Scr Surf) (dms : List DmCtl) (scr : Scr) (hp : ∀ a, (p.move a).2 = scr)
    (j : ℕ) (cs : List (Option ℕ)) (s : St α σ κ Scr Surf) :
    match run sys p dms (none :: cs) s, run sys p dms (List.replicate j (some 1) ++ none :: cs) s with
    | .ok s1, .ok s2 => ∃ a, s2 = { s1 with atmos := a }
    | .error e, .error e' => e = e'
    | _, _ => False := by
  have h := airOnly_run (fun _ _ => True) sys p dms (fun a b _ => ⟨by rw [hp, hp], trivial⟩) (none :: cs) s
    ((fun a => (p.move a).1)^[j] s.atmos) trivial
  rw [C141_skips]
  cases e1 : run sys p dms (none :: cs) s with
  | error e =>
    cases e2 : run sys p dms (none :: cs) { s with atmos := (fun a => (p.move a).1)^[j] s.atmos } with
    | error e' => rw [e1, e2] at h; exact h
    | ok t => rw [e1, e2] at h; exact h.elim
  | ok s1 =>
    cases e2 : run sys p dms (none :: cs) { s with atmos := (fun a => (p.move a).1)^[j] s.atmos } with
    | error e' => rw [e1, e2] at h; exact h.elim
    | ok t =>
      rw [e1, e2] at h
      obtain ⟨b, _, hb⟩ := h
      exact ⟨b, hb⟩

/-- Three frames, one interrupted after the sensors and one right at its beginning: the statements are reached as often as the theorems say. -/
example : ∃ s', run halfSys stillParts halfMirror [none, some 5, none, some 1, none] halfStart = .ok s' ∧
    s'.iters = 3 ∧ s'.atmos = 5 ∧ s'.sensors = 4 ∧ s'.cams = 3 ∧ s'.allSlopes[0]? = some [1] := by
  refine ⟨_, rfl, ?_⟩
  decide +kernel

/-- The hypotheses of C141_counts hold for it. -/
example : (∀ a, id (stillParts.move a).1 = id a + 1) ∧
    (∀ x i scr c y m, stillParts.sense x i scr c = .ok (y, m) → id y = id x + 1) ∧
    (∀ k scr c, id (stillParts.look k scr c) = id k + 1) := by
  refine ⟨fun a => rfl, fun x i scr c y m h => ?_, fun k scr c => rfl⟩
  cases Except.ok.inj h
  rfl

/-- … and of C141_records. -/
example : ∀ n, n < ([none, some 5, none, some 1, none] : List (Option ℕ)).length →
    halfStart.iters + reached 11 (([none, some 5, none, some 1, none] : List (Option ℕ)).take n) < halfSys.nIters := by
  decide

/-- A state that meets the hypotheses of C141_twice: after the first frame. -/
example : ∃ s s', run halfSys stillParts halfMirror [none] halfStart = .ok s ∧
    run halfSys stillParts halfMirror [some 3, none] s = .ok s' ∧ s.recon.actuatorValues = some [0] ∧ s.slopes = [1] ∧
    halfSys.product s.slopes = .ok [1] ∧ s'.recon.actuatorValues = some [1] := by
  refine ⟨_, _, rfl, rfl, ?_⟩
  decide +kernel

/-- Turbulence that stands still, as C141_still asks. -/
example : ∀ a, (stillParts.move a).2 = 1 := fun _ => rfl

end Soapy.Props
