/-
C129: what the header of a saved file says about the run.
-/
import Verif.Model.Header
import Verif.Props.AtmosStrength
import Std.Data.String.ToNat

namespace Soapy.Props

open Soapy.Header

private theorem get_put (k k' : String) (v : Val) (h : Cards) : card k' (put k v h) = if k' = k then some v else card k' h := by
  induction h with
  | nil =>
    unfold put card card
    by_cases e : k' = k
    · rw [if_pos e.symm, if_pos e]
    · rw [if_neg (Ne.symm e), if_neg e]
  | cons c cs ih =>
    unfold put
    by_cases hc : c.1 = k
    · rw [if_pos hc]
      unfold card
      by_cases e : k' = k
      · rw [if_pos e.symm, if_pos e]
      · rw [if_neg (Ne.symm e), if_neg e, if_neg (by rw [hc]; exact Ne.symm e)]
    · rw [if_neg hc]
      unfold card
      by_cases e' : c.1 = k'
      · rw [if_pos e', if_neg (by rw [← e']; exact hc), if_pos e']
      · rw [if_neg e', if_neg e', ih]

private theorem setAll_keep (cs : List (String × Val)) (h h' : Cards) (k : String) (e : setAll cs h = .ok h') (hk : k ∉ cs.map Prod.fst) : card k h' = card k h := by
  induction cs generalizing h with
  | nil => unfold setAll at e; cases e; rfl
  | cons c cs ih =>
    rw [List.map_cons, List.mem_cons, not_or] at hk
    unfold setAll setCard at e
    split_ifs at e with ha
    · rw [ih _ e hk.2, get_put, if_neg hk.1]
    · simp [Except.bind] at e

private theorem setAll_get (pre post : List (String × Val)) (k : String) (v : Val) (h h' : Cards) (e : setAll (pre ++ (k, v) :: post) h = .ok h') (hk : k ∉ post.map Prod.fst) : card k h' = some v := by
  induction pre generalizing h with
  | nil =>
    rw [List.nil_append] at e
    unfold setAll setCard at e
    split_ifs at e with ha
    · rw [setAll_keep post _ _ k e hk, get_put, if_pos rfl]
    · simp [Except.bind] at e
  | cons c pre ih =>
    rw [List.cons_append] at e
    unfold setAll setCard at e
    split_ifs at e with ha
    · exact ih _ e
    · simp [Except.bind] at e

private theorem setAll_ok (cs : List (String × Val)) (h : Cards) : (∃ h', setAll cs h = .ok h') ↔ ∀ c ∈ cs, allowed c.2 = true := by
  induction cs generalizing h with
  | nil => simp [setAll]
  | cons c cs ih =>
    unfold setAll setCard
    by_cases ha : allowed c.2 = true
    · rw [if_pos ha, List.forall_mem_cons, ← ih (put c.1 c.2 h)]
      simp [Except.bind, ha]
    · rw [if_neg ha]
      simp [Except.bind, ha]

private theorem setAll_err (cs : List (String × Val)) (h : Cards) (e : PyErr) (he : setAll cs h = .error e) : e = .valueError := by
  induction cs generalizing h with
  | nil => simp [setAll] at he
  | cons c cs ih =>
    unfold setAll setCard at he
    split_ifs at he with ha
    · exact ih _ he
    · simp only [Except.bind, Except.error.injEq] at he; exact he.symm

private theorem pixArc_inj {v w : ℕ} (h : pixArc v = pixArc w) : v = w := by
  unfold pixArc at h
  have := congrArg String.toList h
  rw [String.toList_append, String.toList_append, List.append_cancel_left_eq, String.toList_inj] at this
  exact Nat.repr_injective this

private theorem pixArc_ne (k : String) (w : ℕ) (h : k.toList.take 6 ≠ ['P', 'I', 'X', 'A', 'R', 'C']) : k ≠ pixArc w := by
  intro e
  apply h
  rw [e]
  unfold pixArc
  rw [String.toList_append]
  rfl

/-- Text of every card. -/
private theorem get_of_mem (cs : List (String × Val)) (hn : (cs.map Prod.fst).Nodup) (h' : Cards) (e : setAll cs [] = .ok h') (k : String) (v : Val) (hm : (k, v) ∈ cs) : card k h' = some v := by
  obtain ⟨pre, post, rfl⟩ := List.append_of_mem hm
  apply setAll_get pre post k v [] h' e
  rw [List.map_append, List.map_cons, List.nodup_append] at hn
  exact (List.nodup_cons.mp hn.2.1).1

private theorem nodup (ver now : String) (c : Cfg) (a m : ℕ) : ((cards ver now c a m).map Prod.fst).Nodup := by
  have hz : (c.wfss.zipIdx.map fun w => ((pixArc w.2, Val.real (w.1.subapFOV / w.1.pxlsPerSubap)) : String × Val)).map Prod.fst = (List.range c.wfss.length).map pixArc := by
    apply List.ext_getElem
    · simp
    · intro i h1 h2; simp
  unfold cards
  rw [List.map_append, List.map_append, hz]
  have hp : ∀ (l : List String), (∀ k ∈ l, k.toList.take 6 ≠ ['P', 'I', 'X', 'A', 'R', 'C']) → ∀ k ∈ l, ∀ x ∈ (List.range c.wfss.length).map pixArc, k ≠ x := by
    intro l hl k hk x hx
    obtain ⟨w, -, rfl⟩ := List.mem_map.mp hx
    exact pixArc_ne k w (hl k hk)
  rw [List.nodup_append, List.nodup_append]
  refine ⟨⟨by simp only [List.map_cons, List.map_nil]; decide +kernel, List.nodup_range.map fun _ _ => pixArc_inj, ?_⟩, by simp only [List.map_cons, List.map_nil]; decide +kernel, ?_⟩
  · apply hp
    simp only [List.map_cons, List.map_nil]
    decide +kernel
  · intro k hk k' hk'
    rcases List.mem_append.mp hk with h1 | h1
    · simp only [List.map_cons, List.map_nil] at h1 hk'
      clear hk
      have : ∀ k ∈ ["INSTRUME", "SVER", "RTCNAME", "RTCVER", "TELESCOP", "RUNID", "LOOP", "DATE-OBS", "TELDIAM", "TELOBS", "FR", "NBDM", "DMNACTU", "DMACTS", "DMCOND", "DMTYPE", "DMGAIN", "NBSCRNS", "SCRNALT",
          "WINDSPD", "NBWFS", "NSUB", "NSLOP"], ∀ k' ∈ ["WFSPOSX", "WFSPOSY", "WFSSUBX", "WFSSUBY", "NFRAMES"], k ≠ k' := by decide +kernel
      exact this k h1 k' hk'
    · refine (hp _ ?_ k' hk' k h1).symm
      simp only [List.map_cons, List.map_nil]
      decide +kernel

private theorem init_ok {ver now : String} {c : Cfg} {nActs meas : List ℕ} {s : State} (h : aoinit ver now c nActs meas = .ok s) :
    setAll (cards ver now { c with scrnHeights := c.scrnHeights.take c.scrnNo } nActs.sum meas.sum) [] = .ok s.header ∧ s.cfg = { c with scrnHeights := c.scrnHeights.take c.scrnNo } ∧
    s.winds = Atmos.winds c.scrnNo c.r0 c.tau0 c.windSpeeds c.scrnStrengths ∧ s.acts = nActs.map (fun n => List.replicate n true) ∧ s.meas = meas := by
  unfold aoinit makeSaveHeader at h
  dsimp only at h
  split_ifs at h with h0
  · simp [Except.map] at h
  · cases e : setAll (cards ver now { c with scrnHeights := c.scrnHeights.take c.scrnNo } nActs.sum meas.sum) [] with
    | error x => rw [e] at h; simp [Except.map] at h
    | ok H => rw [e] at h; simp only [Except.map, Except.ok.injEq] at h; subst h; exact ⟨rfl, rfl, rfl, rfl, rfl⟩

private theorem modify_map {α β : Type} (l : List α) (i : ℕ) (f : α → α) (g : α → β) (h : ∀ a, g (f a) = g a) : (l.modify i f).map g = l.map g := by
  apply List.ext_getElem
  · simp
  · intro j h1 h2
    simp only [List.getElem_map, List.getElem_modify]
    split_ifs
    · exact h _
    · rfl

/-- What no step changes. -/
private structure Same (s t : State) : Prop where
  header : t.header = s.header
  winds : t.winds = s.winds
  meas : t.meas = s.meas
  scalars : t.cfg.simName = s.cfg.simName ∧ t.cfg.telDiam = s.cfg.telDiam ∧ t.cfg.obsDiam = s.cfg.obsDiam ∧ t.cfg.loopTime = s.cfg.loopTime ∧ t.cfg.nIters = s.cfg.nIters ∧ t.cfg.scrnNo = s.cfg.scrnNo
  air : t.cfg.scrnHeights = s.cfg.scrnHeights ∧ t.cfg.windSpeeds = s.cfg.windSpeeds
  dms : t.cfg.dms.map DmC.nxActuators = s.cfg.dms.map DmC.nxActuators ∧ t.cfg.dms.map DmC.svdConditioning = s.cfg.dms.map DmC.svdConditioning ∧ t.cfg.dms.map DmC.type = s.cfg.dms.map DmC.type ∧
    t.cfg.dms.length = s.cfg.dms.length
  wfss : t.cfg.wfss.map WfsC.nxSubaps = s.cfg.wfss.map WfsC.nxSubaps ∧ t.cfg.wfss.map (fun w => w.subapFOV / (w.pxlsPerSubap : ℝ)) = s.cfg.wfss.map (fun w => w.subapFOV / (w.pxlsPerSubap : ℝ)) ∧ t.cfg.wfss.length = s.cfg.wfss.length

private theorem same_steps (s : State) (l : List Step) : Same s (l.foldl step s) := by
  induction l using List.reverseRecOn with
  | nil => exact ⟨rfl, rfl, rfl, ⟨rfl, rfl, rfl, rfl, rfl, rfl⟩, ⟨rfl, rfl⟩, ⟨rfl, rfl, rfl, rfl⟩, ⟨rfl, rfl, rfl⟩⟩
  | append_singleton l a ih =>
    rw [List.foldl_append]
    generalize l.foldl step s = t at ih
    obtain ⟨i1, i2, i3, i4, i5, i6, i7⟩ := ih
    rw [List.foldl_cons, List.foldl_nil]
    cases a with
    | gain i g => 
      refine ⟨i1, i2, i3, i4, i5, ?_, i7⟩
      exact ⟨(modify_map _ i (fun d : DmC => ⟨d.nxActuators, d.svdConditioning, d.type, g⟩) _ fun _ => rfl).trans i6.1, (modify_map _ i (fun d : DmC => ⟨d.nxActuators, d.svdConditioning, d.type, g⟩) _ fun _ => rfl).trans i6.2.1, (modify_map _ i (fun d : DmC => ⟨d.nxActuators, d.svdConditioning, d.type, g⟩) _ fun _ => rfl).trans i6.2.2.1, (List.length_modify ..).trans i6.2.2.2⟩
    | move i p =>
      refine ⟨i1, i2, i3, i4, i5, i6, ?_⟩
      exact ⟨(modify_map _ i (fun w : WfsC => ⟨p, w.nxSubaps, w.subapFOV, w.pxlsPerSubap⟩) _ fun _ => rfl).trans i7.1, (modify_map _ i (fun w : WfsC => ⟨p, w.nxSubaps, w.subapFOV, w.pxlsPerSubap⟩) _ fun _ => rfl).trans i7.2.1, (List.length_modify ..).trans i7.2.2⟩
    | calibrate v => exact ⟨i1, i2, i3, i4, i5, i6, i7⟩

/-- **C129 (what stays true).** Whatever gains are set, guide stars moved and actuators dropped after initialisation: the header of every file gives the telescope, the frame rate, the numbers of mirrors, sensors, layers,
frames and measurements, the heights of the layers that are simulated, the grids and types of the mirrors and the grids and pixel scales of the sensors as they are when the file is written. -/
theorem C129_header (ver now : String) (c : Cfg) (nActs meas : List ℕ) (s0 s : State) (l : List Step) (h : aoinit ver now c nActs meas = .ok s0) (hs : s = l.foldl step s0) :
    card "TELDIAM" s.header = some (.real s.cfg.telDiam) ∧ card "TELOBS" s.header = some (.real s.cfg.obsDiam) ∧ card "FR" s.header = some (.real (1 / s.cfg.loopTime)) ∧
    card "NBDM" s.header = some (.int s.cfg.dms.length) ∧ card "NBWFS" s.header = some (.int s.cfg.wfss.length) ∧ card "NBSCRNS" s.header = some (.int s.cfg.scrnNo) ∧
    card "NFRAMES" s.header = some (.int s.cfg.nIters) ∧ card "NSLOP" s.header = some (.int s.meas.sum) ∧
    card "SCRNALT" s.header = some (.reals (c.scrnHeights.take s.cfg.scrnNo)) ∧
    card "DMACTS" s.header = some (.ints (s.cfg.dms.map DmC.nxActuators)) ∧ card "DMTYPE" s.header = some (.strs (s.cfg.dms.map DmC.type)) ∧
    card "DMCOND" s.header = some (.reals (s.cfg.dms.map DmC.svdConditioning)) ∧
    card "WFSSUBX" s.header = some (.ints (s.cfg.wfss.map WfsC.nxSubaps)) ∧ card "WFSSUBY" s.header = some (.ints (s.cfg.wfss.map WfsC.nxSubaps)) ∧
    (∀ i (hi : i < s.cfg.wfss.length), card (pixArc i) s.header = some (.real (s.cfg.wfss[i].subapFOV / s.cfg.wfss[i].pxlsPerSubap))) ∧
    (∀ n, s.cfg.simName = some n → card "RUNID" s.header = some (.str n)) ∧ (s.cfg.simName = none → card "RUNID" s.header = some .undefined) ∧ card "SVER" s.header = some (.str ver) ∧ card "DATE-OBS" s.header = some (.str now) := by
  obtain ⟨h1, h2, h3, h4, h5⟩ := init_ok h
  have G := get_of_mem _ (nodup ver now { c with scrnHeights := c.scrnHeights.take c.scrnNo } nActs.sum meas.sum) _ h1
  have S := same_steps s0 l
  rw [← hs] at S
  obtain ⟨e1, e2, e3, ⟨a1, a2, a3, a4, a5, a6⟩, ⟨b1, b2⟩, ⟨d1, d2, d3, d4⟩, ⟨w1, w2, w3⟩⟩ := S
  rw [h2] at a1 a2 a3 a4 a5 a6 b1 b2 d1 d2 d3 d4 w1 w2 w3
  rw [h5] at e3
  dsimp only at a1 a2 a3 a4 a5 a6 b1 b2 d1 d2 d3 d4 w1 w2 w3
  rw [e1]
  refine ⟨?_, ?_, ?_, ?_, ?_, ?_, ?_, ?_, ?_, ?_, ?_, ?_, ?_, ?_, ?_, ?_, ?_, ?_, ?_⟩
  case refine_17 =>
    intro hn
    rw [a1] at hn
    have : Val.undefined = runId c.simName := by rw [hn]; rfl
    rw [this]
    apply G
    unfold cards
    simp only [List.mem_append, List.mem_cons, Prod.mk.injEq, true_or, or_true]
  case refine_15 =>
    intro i hi
    have hq : s.cfg.wfss[i].subapFOV / s.cfg.wfss[i].pxlsPerSubap = (c.wfss[i]'(by rw [← w3]; exact hi)).subapFOV / (c.wfss[i]'(by rw [← w3]; exact hi)).pxlsPerSubap := by
      have := List.getElem_of_eq w2 (i := i) (by simpa using hi)
      simpa using this
    rw [hq]
    apply G
    unfold cards
    refine List.mem_append_left _ (List.mem_append_right _ (List.mem_map.mpr ⟨(c.wfss[i]'(by rw [← w3]; exact hi), i), ?_, rfl⟩))
    rw [List.mem_zipIdx_iff_getElem?]
    simp
  case refine_16 =>
    intro n hn
    rw [a1] at hn
    have : Val.str n = runId c.simName := by rw [hn]; rfl
    rw [this]
    apply G
    unfold cards
    simp only [List.mem_append, List.mem_cons, Prod.mk.injEq, true_or, or_true]
  all_goals
    try rw [a2]
    try rw [a3]
    try rw [a4]
    try rw [a5]
    try rw [a6]
    try rw [d1]
    try rw [d2]
    try rw [d3]
    try rw [d4]
    try rw [w1]
    try rw [w3]
    try rw [e3]
    apply G
    unfold cards
    simp only [List.mem_append, List.mem_cons, Prod.mk.injEq, true_or, or_true]

/-- **C129.** The cards on gains, guide stars, wind and actuators are right exactly as long as the quantities are what they were in the configuration at initialisation: gains and positions not changed since, no
actuator dropped, wind not rescaled to a coherence time.  Missing: those cases (`C129_violated`). -/
theorem C129_partial (ver now : String) (c : Cfg) (nActs meas : List ℕ) (s0 s : State) (l : List Step) (h : aoinit ver now c nActs meas = .ok s0) (hs : s = l.foldl step s0) :
    (card "DMGAIN" s.header = some (.reals (s.cfg.dms.map DmC.gain)) ↔ s.cfg.dms.map DmC.gain = c.dms.map DmC.gain) ∧
    (card "WFSPOSX" s.header = some (.reals (s.cfg.wfss.map fun w => w.pos.1)) ∧ card "WFSPOSY" s.header = some (.reals (s.cfg.wfss.map fun w => w.pos.2)) ↔ s.cfg.wfss.map WfsC.pos = c.wfss.map WfsC.pos) ∧
    (card "DMNACTU" s.header = some (.int (commands s)) ↔ commands s = nActs.sum) ∧
    (card "WINDSPD" s.header = some (.reals s.winds) ↔ Atmos.winds c.scrnNo c.r0 c.tau0 c.windSpeeds c.scrnStrengths = c.windSpeeds) := by
  obtain ⟨h1, h2, h3, h4, h5⟩ := init_ok h
  have G := get_of_mem _ (nodup ver now { c with scrnHeights := c.scrnHeights.take c.scrnNo } nActs.sum meas.sum) _ h1
  have S := same_steps s0 l
  rw [← hs] at S
  have g1 : card "DMGAIN" s0.header = some (.reals (c.dms.map DmC.gain)) := by
    apply G; unfold cards; simp only [List.mem_append, List.mem_cons, Prod.mk.injEq, true_or, or_true]
  have g2 : card "WFSPOSX" s0.header = some (.reals (c.wfss.map fun w => w.pos.1)) := by
    apply G; unfold cards; simp only [List.mem_append, List.mem_cons, Prod.mk.injEq, true_or, or_true]
  have g3 : card "WFSPOSY" s0.header = some (.reals (c.wfss.map fun w => w.pos.2)) := by
    apply G; unfold cards; simp only [List.mem_append, List.mem_cons, Prod.mk.injEq, true_or, or_true]
  have g4 : card "DMNACTU" s0.header = some (.int nActs.sum) := by
    apply G; unfold cards; simp only [List.mem_append, List.mem_cons, Prod.mk.injEq, true_or, or_true]
  have g5 : card "WINDSPD" s0.header = some (.reals c.windSpeeds) := by
    apply G; unfold cards; simp only [List.mem_append, List.mem_cons, Prod.mk.injEq, true_or, or_true]
  rw [S.header, g1, g2, g3, g4, g5, S.winds, h3]
  simp only [Option.some.injEq, Val.reals.injEq, Val.int.injEq]
  refine ⟨eq_comm, ?_, ?_, eq_comm⟩
  · constructor
    · rintro ⟨p, q⟩
      have hl : c.wfss.length = s.cfg.wfss.length := by simpa using congrArg List.length p
      apply List.ext_getElem
      · simp [hl]
      · intro i i1 i2
        have p' := List.getElem_of_eq p (i := i) (by simpa using i2)
        have q' := List.getElem_of_eq q (i := i) (by simpa using i2)
        simp only [List.getElem_map] at p' q' ⊢
        exact Prod.ext p'.symm q'.symm
    · intro e
      have e1 := congrArg (List.map Prod.fst) e
      have e2 := congrArg (List.map Prod.snd) e
      simp only [List.map_map] at e1 e2
      exact ⟨e1.symm, e2.symm⟩
  · constructor
    · intro e; exact_mod_cast e.symm
    · intro e; rw [e]

/-- Without steps and without a requested coherence time those cards are right as well. -/
theorem C129_untouched (ver now : String) (c : Cfg) (nActs meas : List ℕ) (s : State) (h : aoinit ver now c nActs meas = .ok s) (ht : c.tau0 = none ∨ c.tau0 = some 0) :
    card "DMGAIN" s.header = some (.reals (s.cfg.dms.map DmC.gain)) ∧ card "WFSPOSX" s.header = some (.reals (s.cfg.wfss.map fun w => w.pos.1)) ∧
    card "WFSPOSY" s.header = some (.reals (s.cfg.wfss.map fun w => w.pos.2)) ∧ card "DMNACTU" s.header = some (.int (commands s)) ∧ card "WINDSPD" s.header = some (.reals s.winds) := by
  obtain ⟨p1, p2, p3, p4⟩ := C129_partial ver now c nActs meas s s [] h rfl
  obtain ⟨h1, h2, h3, h4, h5⟩ := init_ok h
  have q2 := p2.mpr (by rw [h2])
  refine ⟨p1.mpr (by rw [h2]), q2.1, q2.2, p3.mpr ?_, p4.mpr ?_⟩
  · unfold commands
    rw [h4, List.map_map]
    congr 1
    conv_rhs => rw [← List.map_id nActs]
    apply List.map_congr_left
    intro n _
    simp
  · rcases ht with ht | ht <;> rw [ht]
    · exact (C28_unchanged _ _ _ _).1
    · exact (C28_unchanged _ _ _ _).2

/-- **C129 (sub-apertures).** `NSUB` is the number of sub-apertures when every sensor gives two measurements for each of its sub-apertures. -/
theorem C129_subaps (ver now : String) (c : Cfg) (nActs subaps : List ℕ) (s : State) (h : aoinit ver now c nActs (subaps.map (2 * ·)) = .ok s) : card "NSUB" s.header = some (.int subaps.sum) := by
  obtain ⟨h1, -⟩ := init_ok h
  have G := get_of_mem _ (nodup ver now { c with scrnHeights := c.scrnHeights.take c.scrnNo } nActs.sum _) _ h1
  have e : (subaps.map (2 * ·)).sum = 2 * subaps.sum := by rw [List.sum_map_mul_left]; simp
  rw [e] at G
  have := G "NSUB" (.int ((2 * subaps.sum / 2 : ℕ) : ℤ)) (by unfold cards; simp only [List.mem_append, List.mem_cons, Prod.mk.injEq, true_or, or_true])
  rw [this, Nat.mul_div_cancel_left _ (by norm_num)]

/-- **C129 (names).** Initialisation gets a header exactly when no quotient has 0 below and the name of the simulation, the types of the mirrors, the version and the time are printable ASCII; a name with any other
letter stops it with `ValueError`. -/
theorem C129_name (ver now : String) (c : Cfg) (nActs meas : List ℕ) (hl : c.loopTime ≠ 0) (hp : ∀ w ∈ c.wfss, w.pxlsPerSubap ≠ 0) :
    ((∃ s, aoinit ver now c nActs meas = .ok s) ↔ printable ver = true ∧ printable now = true ∧ (∀ n ∈ c.simName, printable n = true) ∧ ∀ d ∈ c.dms, printable d.type = true) ∧
    (∀ n ∈ c.simName, printable n = false → aoinit ver now c nActs meas = .error .valueError) := by
  have h0 : ¬ (c.loopTime = 0 ∨ ∃ w ∈ c.wfss, w.pxlsPerSubap = 0) := by
    rintro (h | ⟨w, hw, h⟩)
    · exact hl h
    · exact hp w hw h
  have key : (∃ s, aoinit ver now c nActs meas = .ok s) ↔ printable ver = true ∧ printable now = true ∧ (∀ n ∈ c.simName, printable n = true) ∧ ∀ d ∈ c.dms, printable d.type = true := by
    have e : (∃ s, aoinit ver now c nActs meas = .ok s) ↔ ∃ H, setAll (cards ver now { c with scrnHeights := c.scrnHeights.take c.scrnNo } nActs.sum meas.sum) [] = .ok H := by
      unfold aoinit makeSaveHeader
      dsimp only
      rw [if_neg h0]
      cases setAll (cards ver now { c with scrnHeights := c.scrnHeights.take c.scrnNo } nActs.sum meas.sum) [] <;> simp [Except.map]
    rw [e, setAll_ok]
    have hso : printable "SOAPY" = true := by decide +kernel
    have hz : ∀ x ∈ (c.wfss.zipIdx.map fun w => ((pixArc w.2, Val.real (w.1.subapFOV / w.1.pxlsPerSubap)) : String × Val)), allowed x.2 = true := by
      intro x hx
      obtain ⟨w, -, rfl⟩ := List.mem_map.mp hx
      rfl
    unfold cards
    rw [List.forall_mem_append, List.forall_mem_append]
    have hz' := iff_true_intro hz
    dsimp only at hz' ⊢
    rw [hz']
    cases hn : c.simName <;>
      simp [allowed, runId, hso] <;> tauto
  refine ⟨key, fun n hn hb => ?_⟩
  cases e : aoinit ver now c nActs meas with
  | ok s =>
    have := (key.mp ⟨s, e⟩).2.2.1 n hn
    rw [hb] at this; simp at this
  | error x =>
    congr 1
    unfold aoinit makeSaveHeader at e
    dsimp only at e
    rw [if_neg h0] at e
    cases e' : setAll (cards ver now { c with scrnHeights := c.scrnHeights.take c.scrnNo } nActs.sum meas.sum) [] with
    | ok H => rw [e'] at e; simp [Except.map] at e
    | error y => rw [e'] at e; simp only [Except.map, Except.error.injEq] at e; rw [← e]; exact setAll_err _ _ _ e'

/-- A small configuration: one mirror, one sensor, one layer. -/
private noncomputable def small (t : Option ℝ) : Cfg := ⟨some "run", 8, 1, 1 / 400, 1000, [⟨9, 1 / 20, "Piezo", 1 / 2⟩], [⟨(0, 0), 8, 2, 10⟩], 1, [0], [1], [1], 1, t⟩

private theorem small_ok (t : Option ℝ) (n m : ℕ) : ∃ s, aoinit "1" "now" (small t) [n] [m] = .ok s := by
  refine (C129_name "1" "now" (small t) [n] [m] (by norm_num [small]) (by simp [small])).1.mpr ⟨by decide +kernel, by decide +kernel, ?_, ?_⟩
  · intro x hx
    simp only [small, Option.mem_def, Option.some.injEq] at hx
    subst hx; decide +kernel
  · intro d hd
    simp only [small, List.mem_singleton] at hd
    subst hd; decide +kernel

/-- **C129, violated.** With a requested coherence time the header gives wind speeds which are not simulated; after actuators have been dropped it gives a number of actuators which are not commanded, after a gain has been
changed the old one. -/
theorem C129_violated :
    (∃ c s, aoinit "1" "now" c [2] [4] = .ok s ∧ c.tau0 = some 1 ∧ card "WINDSPD" s.header ≠ some (.reals s.winds)) ∧
    (∃ c s0 s, aoinit "1" "now" c [2] [4] = .ok s0 ∧ s = step s0 (.calibrate [[true, false]]) ∧ card "DMNACTU" s.header ≠ some (.int (commands s))) ∧
    (∃ c s0 s, aoinit "1" "now" c [2] [4] = .ok s0 ∧ s = step s0 (.gain 0 1) ∧ card "DMGAIN" s.header ≠ some (.reals (s.cfg.dms.map DmC.gain))) := by
  refine ⟨?_, ?_, ?_⟩
  · obtain ⟨s, hs⟩ := small_ok (some 1) 2 4
    refine ⟨_, s, hs, rfl, fun e => ?_⟩
    have := (C129_partial _ _ _ _ _ _ _ [] hs rfl).2.2.2.mp e
    norm_num [small, Atmos.winds, Atmos.tau, Atmos.vBar, Atmos.shares] at this
  · obtain ⟨s, hs⟩ := small_ok none 2 4
    refine ⟨_, s, _, hs, rfl, fun e => ?_⟩
    have := (C129_partial _ _ _ _ _ _ _ [.calibrate [[true, false]]] hs rfl).2.2.1.mp e
    simp [step, commands] at this
  · obtain ⟨s, hs⟩ := small_ok none 2 4
    refine ⟨_, s, _, hs, rfl, fun e => ?_⟩
    have := (C129_partial _ _ _ _ _ _ _ [.gain 0 1] hs rfl).1.mp e
    obtain ⟨-, h2, -⟩ := init_ok hs
    rw [List.foldl_cons, List.foldl_nil] at this
    simp only [step, h2, small] at this
    norm_num at this

example : ∃ s, aoinit "1" "now" (small none) [2] ([4].map (2 * ·)) = .ok s ∧ card "NSUB" s.header = some (.int 4) ∧ card (pixArc 0) s.header = some (.real (2 / (10 : ℕ))) := by
  obtain ⟨s, hs⟩ := small_ok none 2 8
  obtain ⟨-, h2, -⟩ := init_ok hs
  refine ⟨s, hs, C129_subaps _ _ _ _ [4] _ hs, ?_⟩
  have := (C129_header _ _ _ _ _ _ _ [] hs rfl).2.2.2.2.2.2.2.2.2.2.2.2.2.2.1 0 (by rw [List.foldl_nil, h2]; simp [small])
  simp only [List.foldl_nil] at this
  rw [this]
  simp [h2, small]

example : printable "Kömm" = false := by decide +kernel

end Soapy.Props
