/-
Lemmas on the loop model.
-/
import Verif.Model.Loop
import Verif.Lemmas.Control
import Verif.Lemmas.Delay
import Mathlib.Data.List.Induction
import Mathlib.Tactic.Linarith

namespace Soapy.Loop

open Soapy.Vec Soapy.Control

theorem firstActs_length (ds : List DmCtl) (t : ℕ) : (firstActs ds t).length = ds.length := by
  induction ds generalizing t with
  | nil => rfl
  | cons d ds ih => simp [firstActs, ih]

theorem firstActs_get (ds : List DmCtl) (t k : ℕ) (hk : k < ds.length) :
    (firstActs ds t)[k]? = some (t + ((ds.take k).map DmCtl.nValid).sum) := by
  induction ds generalizing t k with
  | nil => simp at hk
  | cons d ds ih =>
    cases k with
    | zero => simp [firstActs]
    | succ k =>
      simp at hk
      simp [firstActs, ih (t + d.nValid) k hk]; omega

/-- Effect of `runDM` slot by slot. -/
theorem runDM_spec {Surf : Type} (surface : ℕ → List ℚ → Except PyErr Surf) (closed : Bool)
    (cmds : List ℚ) (ds : List DmCtl) (as : List ℕ) (k : ℕ) (buf out : List Surf)
    (h : runDM surface closed cmds k ds as buf = .ok out) (hlen : k + ds.length ≤ buf.length) :
    out.length = buf.length ∧
    (∀ i : ℕ, (i < k ∨ k + ds.length ≤ i) → out[i]? = buf[i]?) ∧
    (∀ (i : ℕ) (d : DmCtl) (a : ℕ), ds[i]? = some d → as[i]? = some a →
      if d.closed = closed then ∃ s, surface (k + i) (slice cmds a (a + d.nValid)) = .ok s ∧
        out[k + i]? = some s
      else out[k + i]? = buf[k + i]?) := by
  induction ds generalizing as k buf with
  | nil => simp [runDM] at h; subst h; simp
  | cons d ds ih =>
    cases as with
    | nil => simp [runDM] at h
    | cons a as =>
      rw [runDM] at h
      simp only [List.length_cons] at hlen
      split_ifs at h with hc
      · cases hs : surface k (slice cmds a (a + d.nValid)) with
        | error e => rw [hs] at h; cases h
        | ok s =>
          rw [hs] at h
          dsimp only at h
          obtain ⟨h1, h2, h3⟩ := ih as (k + 1) (buf.set k s) h (by simp; omega)
          simp only [List.length_set] at h1
          refine ⟨h1, ?_, ?_⟩
          · intro i hi
            simp only [List.length_cons] at hi
            rw [h2 i (by omega), List.getElem?_set_ne (by omega)]
          · intro i d' a' hd ha
            cases i with
            | zero =>
              simp at hd ha; subst hd; subst ha
              rw [if_pos hc]
              refine ⟨s, by simpa using hs, ?_⟩
              rw [Nat.add_zero, h2 k (by omega), List.getElem?_set_self (by omega)]
            | succ i =>
              simp at hd ha
              have := h3 i d' a' hd ha
              rw [show k + 1 + i = k + (i + 1) by omega] at this
              rwa [List.getElem?_set_ne (by omega)] at this
      · obtain ⟨h1, h2, h3⟩ := ih as (k + 1) buf h (by omega)
        refine ⟨h1, ?_, ?_⟩
        · intro i hi
          simp only [List.length_cons] at hi
          exact h2 i (by omega)
        · intro i d' a' hd ha
          cases i with
          | zero =>
            simp at hd ha; subst hd; subst ha
            rw [if_neg hc]
            exact h2 _ (by omega)
          | succ i =>
            simp at hd ha
            have := h3 i d' a' hd ha
            rwa [show k + 1 + i = k + (i + 1) by omega] at this

variable {σ Surf : Type} [Add Surf]

/-- Everything `loopFrame` guarantees when it succeeds. -/
theorem loopFrame_ok (sys : Sys Surf) (pl : Plant σ Surf) (dms : List DmCtl) (s s' : State σ Surf)
    (t : Trace Surf) (h : loopFrame sys pl dms s = .ok (s', t)) :
    control sys dms s.recon s.dmCommands s.buffer s.slopes = .ok (s'.recon, s'.buffer, t.cmds) ∧
    runDM sys.surface true t.cmds 0 dms (firstActs dms 0) s.closedCorr = .ok s'.closedCorr ∧
    runDM sys.surface false t.cmds 0 dms (firstActs dms 0) s.openCorr = .ok s'.openCorr ∧
    pl.sense s.plant s.iters s'.closedCorr = .ok (s'.plant, t.slopes) ∧
    t.seenByWfs = s'.closedCorr ∧ t.seenBySci = List.zipWith (· + ·) s'.openCorr s'.closedCorr ∧
    s'.dmCommands = t.cmds ∧ s'.slopes = t.slopes ∧ s'.iters = s.iters + 1 ∧ sys.nIters ≠ 0 ∧
    storeRow sys.saveSlopes s.allSlopes (s.iters % sys.nIters) t.slopes = .ok s'.allSlopes ∧
    storeRow sys.saveDmCommands s.allDmCommands (s.iters % sys.nIters) t.cmds = .ok s'.allDmCommands := by
  unfold loopFrame at h
  cases hc : control sys dms s.recon s.dmCommands s.buffer s.slopes with
  | error e => rw [hc] at h; cases h
  | ok p =>
    obtain ⟨recon, buffer, cmds⟩ := p
    rw [hc] at h
    dsimp only at h
    cases h1 : runDM sys.surface true cmds 0 dms (firstActs dms 0) s.closedCorr with
    | error e => rw [h1] at h; cases h
    | ok closedCorr =>
      rw [h1] at h
      dsimp only at h
      cases h2 : pl.sense s.plant s.iters closedCorr with
      | error e => rw [h2] at h; cases h
      | ok q =>
        obtain ⟨plant, slopes⟩ := q
        rw [h2] at h
        dsimp only at h
        cases h3 : runDM sys.surface false cmds 0 dms (firstActs dms 0) s.openCorr with
        | error e => rw [h3] at h; cases h
        | ok openCorr =>
          rw [h3] at h
          dsimp only at h
          split_ifs at h with hN
          cases h4 : storeRow sys.saveSlopes s.allSlopes (s.iters % sys.nIters) slopes with
          | error e => rw [h4] at h; cases h
          | ok as =>
            rw [h4] at h
            dsimp only at h
            cases h5 : storeRow sys.saveDmCommands s.allDmCommands (s.iters % sys.nIters) cmds with
            | error e => rw [h5] at h; cases h
            | ok ad =>
              rw [h5] at h
              simp only [Except.ok.injEq, Prod.mk.injEq] at h
              obtain ⟨rfl, rfl⟩ := h
              exact ⟨rfl, h1, h3, h2, rfl, rfl, rfl, rfl, rfl, hN, h4, h5⟩

theorem runLoop_cons (sys : Sys Surf) (pl : Plant σ Surf) (s s' : State σ Surf) (dms : List DmCtl)
    (rest : List (List DmCtl)) (ts : List (Trace Surf))
    (h : runLoop sys pl s (dms :: rest) = .ok (s', ts)) :
    ∃ s1 t ts', loopFrame sys pl dms s = .ok (s1, t) ∧ runLoop sys pl s1 rest = .ok (s', ts') ∧
      ts = t :: ts' := by
  rw [runLoop] at h
  cases h1 : loopFrame sys pl dms s with
  | error e => rw [h1] at h; cases h
  | ok p =>
    obtain ⟨s1, t⟩ := p
    rw [h1] at h
    dsimp only at h
    cases h2 : runLoop sys pl s1 rest with
    | error e => rw [h2] at h; cases h
    | ok q =>
      obtain ⟨s2, ts'⟩ := q
      rw [h2] at h
      simp only [Except.ok.injEq, Prod.mk.injEq] at h
      obtain ⟨rfl, rfl⟩ := h
      exact ⟨s1, t, ts', rfl, h2, rfl⟩

theorem runLoop_length (sys : Sys Surf) (pl : Plant σ Surf) (s s' : State σ Surf)
    (cfg : List (List DmCtl)) (ts : List (Trace Surf)) (h : runLoop sys pl s cfg = .ok (s', ts)) :
    ts.length = cfg.length ∧ s'.iters = s.iters + cfg.length := by
  induction cfg generalizing s ts with
  | nil => simp [runLoop] at h; obtain ⟨rfl, rfl⟩ := h; simp
  | cons dms rest ih =>
    obtain ⟨s1, t, ts', h1, h2, rfl⟩ := runLoop_cons sys pl s s' dms rest ts h
    obtain ⟨h3, h4⟩ := ih s1 ts' h2
    have := (loopFrame_ok sys pl dms s s1 t h1).2.2.2.2.2.2.2.2.1
    simp [h3, h4, this]; omega

theorem record_snoc {α : Type} (N : ℕ) (hist : List α) (k : ℕ) (xs : List α) (x : α) :
    record N hist k (xs ++ [x]) = (record N hist k xs).set ((k + xs.length) % N) x := by
  induction xs generalizing hist k with
  | nil => simp [record, store]
  | cons y ys ih =>
    simp only [List.cons_append, record, ih, List.length_cons]
    rw [show k + 1 + ys.length = k + (ys.length + 1) by omega]

theorem record_length {α : Type} (N : ℕ) (hist : List α) (k : ℕ) (xs : List α) :
    (record N hist k xs).length = hist.length := by
  induction xs generalizing hist k with
  | nil => rfl
  | cons y ys ih => simp [record, ih, store]

theorem storeRow_record (save : Bool) (hist out : List (List ℚ)) (N i : ℕ) (row : List ℚ)
    (h : storeRow save hist (i % N) row = .ok out) :
    out = if save then store N hist i row else hist := by
  unfold storeRow at h
  cases save
  · simp at h; simp [h]
  · simp only [if_true] at h ⊢
    cases hh : hist[i % N]? with
    | none => rw [hh] at h; cases h
    | some old =>
      rw [hh] at h
      dsimp only at h
      split_ifs at h
      simp at h
      rw [← h]; rfl

theorem runLoop_record (sys : Sys Surf) (pl : Plant σ Surf) (s s' : State σ Surf)
    (cfg : List (List DmCtl)) (ts : List (Trace Surf)) (h : runLoop sys pl s cfg = .ok (s', ts)) :
    (sys.saveSlopes = true →
      s'.allSlopes = record sys.nIters s.allSlopes s.iters (ts.map Trace.slopes)) ∧
    (sys.saveDmCommands = true →
      s'.allDmCommands = record sys.nIters s.allDmCommands s.iters (ts.map Trace.cmds)) := by
  induction cfg generalizing s ts with
  | nil => simp [runLoop] at h; obtain ⟨rfl, rfl⟩ := h; simp [record]
  | cons dms rest ih =>
    obtain ⟨s1, t, ts', h1, h2, rfl⟩ := runLoop_cons sys pl s s' dms rest ts h
    obtain ⟨h3, h4⟩ := ih s1 ts' h2
    obtain ⟨_, _, _, _, _, _, _, _, hi, _, ha, hb⟩ := loopFrame_ok sys pl dms s s1 t h1
    constructor
    · intro hs
      rw [h3 hs, List.map_cons, record, hi, storeRow_record _ _ _ _ _ _ ha, if_pos hs]
    · intro hs
      rw [h4 hs, List.map_cons, record, hi, storeRow_record _ _ _ _ _ _ hb, if_pos hs]

/-! ### Runs that cannot fail -/

theorem runDM_total {Surf : Type} (surface : ℕ → List ℚ → Except PyErr Surf) (closed : Bool)
    (cmds : List ℚ) (ds : List DmCtl) (k start : ℕ) (buf : List Surf)
    (hs : ∀ (i : ℕ) (d : DmCtl), ds[i]? = some d → ∀ c : List ℚ, c.length = d.nValid →
      ∃ x, surface (k + i) c = .ok x)
    (hc : start + (ds.map DmCtl.nValid).sum ≤ cmds.length) :
    ∃ out, runDM surface closed cmds k ds (firstActs ds start) buf = .ok out ∧
      out.length = buf.length := by
  induction ds generalizing k start buf with
  | nil => exact ⟨buf, rfl, rfl⟩
  | cons d ds ih =>
    simp only [List.map_cons, List.sum_cons] at hc
    have ih' := fun b : List Surf => ih (k + 1) (start + d.nValid) b
      (fun i d' hd c hl => by
        have := hs (i + 1) d' (by simpa using hd) c hl
        rwa [show k + (i + 1) = k + 1 + i by omega] at this) (by omega)
    rw [firstActs, runDM]
    split_ifs with hcl
    · obtain ⟨x, hx⟩ := hs 0 d (by simp) (slice cmds start (start + d.nValid))
        (by simp [slice]; omega)
      rw [Nat.add_zero] at hx
      rw [hx]
      obtain ⟨out, h1, h2⟩ := ih' (buf.set k x)
      exact ⟨out, h1, by simpa using h2⟩
    · exact ih' buf

/-- The sizes that stay the same during a run. -/
structure Sized (sys : Sys Surf) (nAct nMeas nDm nStore : ℕ) (s : State σ Surf) : Prop where
  recon : ∀ a, s.recon.actuatorValues = some a → a.length = nAct
  cmds : s.dmCommands.length = nAct
  buffer : ∀ b ∈ s.buffer, b.length = nAct
  slopes : s.slopes.length = nMeas
  closed : s.closedCorr.length = nDm
  opened : s.openCorr.length = nDm
  rows : s.allSlopes.length = sys.nIters
  row : ∀ r ∈ s.allSlopes, r.length = nMeas
  rows' : s.allDmCommands.length = sys.nIters
  row' : ∀ r ∈ s.allDmCommands, r.length = nStore

theorem storeRow_total (save : Bool) (hist : List (List ℚ)) (i N len : ℕ) (row : List ℚ)
    (hi : i < N) (hN : hist.length = N) (hr : ∀ r ∈ hist, r.length = len) (hl : save = true → row.length = len) :
    ∃ out, storeRow save hist i row = .ok out ∧ out.length = N ∧ ∀ r ∈ out, r.length = len := by
  unfold storeRow
  cases save
  · exact ⟨hist, by simp, hN, hr⟩
  · rw [if_pos rfl, List.getElem?_eq_getElem (by omega)]
    dsimp only
    rw [if_pos (by rw [hr _ (List.getElem_mem _), hl rfl])]
    refine ⟨_, rfl, by simpa using hN, ?_⟩
    intro r hmem
    rcases List.mem_or_eq_of_mem_set hmem with h | h
    · exact hr r h
    · rw [h]; exact hl rfl

theorem delay_sized (nAct : ℕ) (buf : List (List ℚ)) (v : List ℚ) (c : ℕ)
    (hb : ∀ b ∈ buf, b.length = nAct) (hv : v.length = nAct) :
    ∃ buf' o, Delay.delay zeroLike buf v (c : ℤ) = .ok (buf', o) ∧ o.length = nAct ∧
      ∀ b ∈ buf', b.length = nAct := by
  have hall : ∀ b ∈ buf ++ [v], b.length = nAct := by
    intro b hmem
    rcases List.mem_append.mp hmem with h | h
    · exact hb b h
    · simp at h; rw [h]; exact hv
  rw [Delay.delay_nat]
  split_ifs with h
  · exact ⟨_, _, rfl, by simp [zeroLike, hv], hall⟩
  · refine ⟨_, _, rfl, ?_, fun b hmem => hall b (List.mem_of_mem_drop hmem)⟩
    rw [List.getElem?_eq_getElem (by simp; omega), Option.getD_some]
    exact hall _ (List.getElem_mem _)

theorem loopFrame_total (sys : Sys Surf) (pl : Plant σ Surf) (dms : List DmCtl)
    (nMeas nStore d : ℕ) (s : State σ Surf)
    (hs : Sized sys (dms.map DmCtl.nValid).sum nMeas dms.length nStore s)
    (hsurf : ∀ (i : ℕ) (m : DmCtl), dms[i]? = some m → ∀ c : List ℚ, c.length = m.nValid →
      ∃ x, sys.surface i c = .ok x)
    (hprod : ∀ m : List ℚ, m.length = nMeas → ∃ u, sys.product m = .ok u ∧
      u.length = (dms.map DmCtl.nValid).sum)
    (hsense : ∀ (x : σ) (i : ℕ) (c : List Surf), c.length = dms.length →
      ∃ x' m, pl.sense x i c = .ok (x', m) ∧ m.length = nMeas)
    (hN : 1 ≤ sys.nIters) (hd : sys.loopDelay = d)
    (hstore : sys.saveDmCommands = true → nStore = (dms.map DmCtl.nValid).sum) :
    ∃ s' t, loopFrame sys pl dms s = .ok (s', t) ∧
      Sized sys (dms.map DmCtl.nValid).sum nMeas dms.length nStore s' := by
  have hctl : ∃ r b c, control sys dms s.recon s.dmCommands s.buffer s.slopes = .ok (r, b, c) ∧
      (∀ a, r.actuatorValues = some a → a.length = (dms.map DmCtl.nValid).sum) ∧
      (∀ x ∈ b, x.length = (dms.map DmCtl.nValid).sum) ∧ c.length = (dms.map DmCtl.nValid).sum := by
    unfold control
    split_ifs with h0
    · obtain ⟨b, o, e1, e2, e3⟩ := delay_sized _ s.buffer s.dmCommands d hs.buffer hs.cmds
      dsimp only
      rw [hd, e1]
      exact ⟨_, _, _, rfl, hs.recon, e3, e2⟩
    · obtain ⟨u, hu1, hu2⟩ := hprod s.slopes hs.slopes
      have hrec : ∃ act : List ℚ, act.length = (dms.map DmCtl.nValid).sum ∧
          reconstruct dms (dms.map DmCtl.nValid).sum sys.product s.recon s.slopes =
          .ok (⟨some (flatUpdate dms act u)⟩, flatUpdate dms act u) := by
        unfold reconstruct
        rw [hu1]
        cases ha : s.recon.actuatorValues with
        | none =>
          have hz : (zeros (dms.map DmCtl.nValid).sum).length = (dms.map DmCtl.nValid).sum := by
            simp [zeros]
          exact ⟨_, hz, by dsimp only; rw [applyGain_flat dms _ u hz hu2]⟩
        | some a =>
          exact ⟨a, hs.recon a ha, by dsimp only; rw [applyGain_flat dms a u (hs.recon a ha) hu2]⟩
      obtain ⟨act, hact2, hrec⟩ := hrec
      have hfl := flatUpdate_length dms act u hact2 hu2
      rw [hrec]
      dsimp only
      rw [if_pos (by rw [hfl, hs.cmds])]
      dsimp only
      obtain ⟨b, o, e1, e2, e3⟩ := delay_sized _ s.buffer _ d hs.buffer hfl
      rw [hd, e1]
      refine ⟨_, _, _, rfl, ?_, e3, e2⟩
      intro a ha
      simp at ha
      rw [← ha]; exact hfl
  obtain ⟨r, b, c, hc1, hc2, hc3, hc4⟩ := hctl
  obtain ⟨cc, d1, d2⟩ := runDM_total sys.surface true c dms 0 0 s.closedCorr
    (fun i m hm x hx => by simpa using hsurf i m hm x hx) (by omega)
  obtain ⟨oc, o1, o2⟩ := runDM_total sys.surface false c dms 0 0 s.openCorr
    (fun i m hm x hx => by simpa using hsurf i m hm x hx) (by omega)
  obtain ⟨x', m, p1, p2⟩ := hsense s.plant s.iters cc (by rw [d2, hs.closed])
  have hi : s.iters % sys.nIters < sys.nIters := Nat.mod_lt _ (by omega)
  obtain ⟨h1, q1, q2, q3⟩ := storeRow_total sys.saveSlopes s.allSlopes _ _ nMeas m hi hs.rows hs.row
    (fun _ => p2)
  obtain ⟨h2, r1, r2, r3⟩ := storeRow_total sys.saveDmCommands s.allDmCommands _ _ nStore c hi hs.rows'
    hs.row' (fun h => by rw [hc4, hstore h])
  unfold loopFrame
  rw [hc1]
  dsimp only
  rw [d1]
  dsimp only
  rw [p1]
  dsimp only
  rw [o1]
  dsimp only
  rw [if_neg (by omega), q1]
  dsimp only
  rw [r1]
  exact ⟨_, _, rfl, ⟨hc2, hc4, hc3, p2, by rw [d2, hs.closed], by rw [o2, hs.opened], q2, q3, r2, r3⟩⟩

end Soapy.Loop
