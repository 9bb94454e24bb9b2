/-
C106: buttons of the GUI: one job at a time, and Stop stops.
-/
import Verif.Model.GuiThreads
import Mathlib.Data.List.Basic
import Mathlib.Tactic.Linarith

namespace Soapy.Props

open Soapy.GuiThreads

/-- Number of jobs at work on the simulation. -/
def guiBusy (s : State) : ℕ := s.loops.countP (· ≠ .dead) + s.inits.countP (· ≠ .dead) + s.imats.countP (· ≠ .dead) + (if s.main = .idle then 0 else 1)

private theorem countP_set_le {α : Type} [DecidableEq α] (p : α → Bool) (l : List α) (i : ℕ) (x y : α) (h : l[i]? = some x) (hxy : p y = true → p x = true) : (l.set i y).countP p ≤ l.countP p := by
  induction l generalizing i with
  | nil => simp
  | cons a l ih =>
    cases i with
    | zero =>
      simp only [List.getElem?_cons_zero, Option.some.injEq] at h
      subst h
      simp only [List.set_cons_zero, List.countP_cons]
      by_cases hy : p y = true
      · simp [hy, hxy hy]
      · simp [hy]
    | succ i =>
      simp only [List.getElem?_cons_succ] at h
      simp only [List.set_cons_succ, List.countP_cons]
      have := ih i h
      omega

private theorem countP_set_lt {α : Type} [DecidableEq α] (p : α → Bool) (l : List α) (i : ℕ) (x y : α) (h : l[i]? = some x) (hx : p x = true) (hy : p y = false) :
    (l.set i y).countP p + 1 = l.countP p := by
  induction l generalizing i with
  | nil => simp at h
  | cons a l ih =>
    cases i with
    | zero =>
      simp only [List.getElem?_cons_zero, Option.some.injEq] at h
      subst h
      simp [hx, hy]
    | succ i =>
      simp only [List.getElem?_cons_succ] at h
      simp only [List.set_cons_succ, List.countP_cons]
      have := ih i h
      omega

/-- Only a button other than Stop adds a job, and it adds one. -/
private theorem busy_step (n : ℕ) (s : State) (a : Act) : guiBusy (step n s a) ≤ guiBusy s ∨ (∃ b, a = .press b ∧ b ≠ .stop ∧ guiBusy (step n s a) ≤ guiBusy s + 1) := by
  cases a with
  | press b =>
    by_cases hm : s.main = .idle
    · cases b with
      | stop => left; simp [step, hm, press, guiBusy]
      | run => right; exact ⟨_, rfl, by decide, by simp only [step, hm, if_true, press, guiBusy, List.countP_append]; simp; omega⟩
      | init => right; exact ⟨_, rfl, by decide, by simp only [step, hm, if_true, press, guiBusy, List.countP_append]; simp; omega⟩
      | iMat =>
        by_cases hi : s.imats.getLast? = some .making
        · left; simp [step, hm, press, hi]
        · right; exact ⟨_, rfl, by decide, by simp only [step, hm, if_true, press, hi, if_false, guiBusy, List.countP_append]; simp; omega⟩
      | frame => right; exact ⟨_, rfl, by decide, by simp [step, hm, press, guiBusy]⟩
      | reset => right; exact ⟨_, rfl, by decide, by simp [step, hm, press, guiBusy]⟩
    · left; simp [step, hm]
  | main => left; cases hm : s.main <;> simp [step, hm, guiBusy]
  | loop i =>
    left
    simp only [step]
    cases h : s.loops[i]? with
    | none => exact le_rfl
    | some x =>
      cases x with
      | starting => have := countP_set_le (· ≠ L.dead) s.loops i _ .test h (by decide); simp only [guiBusy]; omega
      | test =>
        have := countP_set_le (· ≠ L.dead) s.loops i _ (if s.iters < n ∧ s.go = true then .frame else .ending) h (by intro _; decide)
        simp only [guiBusy]; omega
      | frame => have := countP_set_le (· ≠ L.dead) s.loops i _ .test h (by decide); simp only [guiBusy]; omega
      | ending => have := countP_set_le (· ≠ L.dead) s.loops i _ .dead h (by decide); simp only [guiBusy]; omega
      | dead => exact le_rfl
  | crash i =>
    left
    simp only [step]
    cases h : s.loops[i]? with
    | none => exact le_rfl
    | some x =>
      cases x with
      | frame => have := countP_set_le (· ≠ L.dead) s.loops i _ .dead h (by decide); simp only [guiBusy]; omega
      | _ => exact le_rfl
  | init i =>
    left
    simp only [step]
    cases h : s.inits[i]? with
    | none => exact le_rfl
    | some x =>
      cases x with
      | waiting => have := countP_set_le (· ≠ I.dead) s.inits i _ .initing h (by decide); simp only [guiBusy]; omega
      | initing => have := countP_set_le (· ≠ I.dead) s.inits i _ .dead h (by decide); simp only [guiBusy]; omega
      | dead => exact le_rfl
  | imat i =>
    left
    simp only [step]
    cases h : s.imats[i]? with
    | none => exact le_rfl
    | some x =>
      cases x with
      | making => have := countP_set_le (· ≠ M.dead) s.imats i _ .dead h (by decide); simp only [guiBusy]; omega
      | dead => exact le_rfl

/-- The user presses a button other than Stop only when nothing is at work. -/
def Polite (n : ℕ) : State → List Act → Prop
  | _, [] => True
  | s, a :: as => (∀ b, a = .press b → b ≠ .stop → guiBusy s = 0) ∧ Polite n (step n s a) as

/-- A user who waits has one job at a time, whatever the threads do.  Missing: users who do not wait (`C106_violated`). -/
theorem C106_exclusive_partial (n : ℕ) (acts : List Act) (h : Polite n start acts) : guiBusy (exec n start acts) ≤ 1 := by
  have key : ∀ (acts : List Act) (s : State), guiBusy s ≤ 1 → Polite n s acts → guiBusy (exec n s acts) ≤ 1 := by
    intro acts
    induction acts with
    | nil => intro s hs _; exact hs
    | cons a acts ih =>
      intro s hs hp
      refine ih _ ?_ hp.2
      rcases busy_step n s a with h1 | ⟨b, hb, hs', h1⟩
      · omega
      · have := hp.1 b hb hs'
        omega
  exact key acts start (by decide) h

/-- At most one thread makes the interaction matrix, however often the button is pressed. -/
theorem C106_one_imat (n : ℕ) (acts : List Act) : (exec n start acts).imats.countP (· = .making) ≤ 1 := by
  have key : ∀ (acts : List Act) (s : State), (∀ x ∈ s.imats.dropLast, x = M.dead) → (∀ x ∈ (exec n s acts).imats.dropLast, x = M.dead) := by
    intro acts
    induction acts with
    | nil => intro s hs; exact hs
    | cons a acts ih =>
      intro s hs
      refine ih _ ?_
      cases a with
      | press b =>
        by_cases hm : s.main = .idle
        · cases b with
          | iMat =>
            by_cases hi : s.imats.getLast? = some .making
            · simpa [step, hm, press, hi] using hs
            · simp only [step, hm, if_true, press, hi, if_false, List.dropLast_concat]
              intro x hx
              rcases List.eq_nil_or_concat s.imats with h0 | ⟨l, y, h0⟩
              · rw [h0] at hx; simp at hx
              · rw [List.concat_eq_append] at h0
                rw [h0] at hx hs hi
                rw [List.dropLast_concat] at hs
                rw [List.getLast?_append] at hi
                rcases List.mem_append.mp hx with hx | hx
                · exact hs x hx
                · have : x = y := by simpa using hx
                  subst this
                  cases x
                  · simp at hi
                  · rfl
          | _ => simpa [step, hm, press] using hs
        · simpa [step, hm] using hs
      | main => cases hm : s.main <;> simpa [step, hm] using hs
      | loop i =>
        simp only [step]
        cases h : s.loops[i]? with
        | none => exact hs
        | some x => cases x <;> exact hs
      | crash i =>
        simp only [step]
        cases h : s.loops[i]? with
        | none => exact hs
        | some x => cases x <;> exact hs
      | init i =>
        simp only [step]
        cases h : s.inits[i]? with
        | none => exact hs
        | some x => cases x <;> exact hs
      | imat i =>
        simp only [step]
        cases h : s.imats[i]? with
        | none => exact hs
        | some x =>
          cases x with
          | dead => exact hs
          | making =>
            simp only
            intro x hx
            have hd : (s.imats.set i .dead).dropLast = s.imats.dropLast.set i .dead := by
              rw [List.dropLast_eq_take, List.dropLast_eq_take, List.length_set, List.take_set]
            rw [hd] at hx
            rcases List.mem_or_eq_of_mem_set hx with h1 | h1
            · exact hs x h1
            · exact h1
  have h := key acts start (by simp [start])
  generalize (exec n start acts).imats = l at h
  rcases List.eq_nil_or_concat l with rfl | ⟨l', y, rfl⟩
  · simp
  · rw [List.concat_eq_append] at h ⊢
    rw [List.dropLast_concat] at h
    rw [List.countP_append, List.countP_eq_zero.mpr (fun x hx => by simp [h x hx])]
    simp only [List.countP_cons, List.countP_nil]
    split <;> omega

private theorem stop_inv (n : ℕ) (s : State) (a : Act) (ha : a ≠ .press .run) (hg : s.go = false) (hl : ∀ x ∈ s.loops, x ≠ L.starting) :
    (step n s a).go = false ∧ (∀ x ∈ (step n s a).loops, x ≠ L.starting) ∧
      (step n s a).done + (step n s a).loops.countP (· = .frame) ≤ s.done + s.loops.countP (· = .frame) := by
  cases a with
  | press b =>
    by_cases hm : s.main = .idle
    · cases b with
      | run => exact absurd rfl ha
      | iMat => by_cases hi : s.imats.getLast? = some .making <;> simpa [step, hm, press, hi, hg] using hl
      | _ => simpa [step, hm, press, hg] using hl
    · simpa [step, hm, hg] using hl
  | main => cases hm : s.main <;> simpa [step, hm, hg] using hl
  | init i =>
    simp only [step]
    cases h : s.inits[i]? with
    | none => exact ⟨hg, hl, le_rfl⟩
    | some x => cases x <;> exact ⟨by first | rfl | exact hg, hl, le_rfl⟩
  | imat i =>
    simp only [step]
    cases h : s.imats[i]? with
    | none => exact ⟨hg, hl, le_rfl⟩
    | some x => cases x <;> exact ⟨by first | rfl | exact hg, hl, le_rfl⟩
  | crash i =>
    simp only [step]
    cases h : s.loops[i]? with
    | none => exact ⟨hg, hl, le_rfl⟩
    | some x =>
      cases x with
      | frame =>
        refine ⟨rfl, fun y hy => ?_, ?_⟩
        · rcases List.mem_or_eq_of_mem_set hy with h1 | h1
          · exact hl y h1
          · rw [h1]; decide
        · have := countP_set_le (· = L.frame) s.loops i _ .dead h (by decide)
          simp only; omega
      | _ => exact ⟨hg, hl, le_rfl⟩
  | loop i =>
    simp only [step]
    cases h : s.loops[i]? with
    | none => exact ⟨hg, hl, le_rfl⟩
    | some x =>
      cases x with
      | starting => exact absurd rfl (hl _ (List.mem_of_getElem? h))
      | test =>
        have e : (if s.iters < n ∧ s.go = true then L.frame else .ending) = .ending := by simp [hg]
        simp only [e]
        refine ⟨hg, fun y hy => ?_, ?_⟩
        · rcases List.mem_or_eq_of_mem_set hy with h1 | h1
          · exact hl y h1
          · rw [h1]; decide
        · have := countP_set_le (· = L.frame) s.loops i _ .ending h (by decide)
          omega
      | frame =>
        refine ⟨hg, fun y hy => ?_, ?_⟩
        · rcases List.mem_or_eq_of_mem_set hy with h1 | h1
          · exact hl y h1
          · rw [h1]; decide
        · have := countP_set_lt (· = L.frame) s.loops i _ .test h (by decide) (by decide)
          simp only; omega
      | ending =>
        refine ⟨rfl, fun y hy => ?_, ?_⟩
        · rcases List.mem_or_eq_of_mem_set hy with h1 | h1
          · exact hl y h1
          · rw [h1]; decide
        · have := countP_set_le (· = L.frame) s.loops i _ .dead h (by decide)
          simp only; omega
      | dead => exact ⟨hg, hl, le_rfl⟩

private theorem stop_done (n : ℕ) : ∀ (acts : List Act) (s : State), s.go = false → (∀ x ∈ s.loops, x ≠ L.starting) → Act.press .run ∉ acts →
    (exec n s acts).done ≤ s.done + s.loops.countP (· = .frame) := by
  intro acts
  induction acts with
  | nil => intro s _ _ _; simp [exec]
  | cons a acts ih =>
    intro s hg hl ha
    obtain ⟨h1, h2, h3⟩ := stop_inv n s a (fun h => ha (by rw [h]; exact List.mem_cons_self)) hg hl
    have := ih _ h1 h2 (fun h => ha (List.mem_cons_of_mem _ h))
    have e : exec n s (a :: acts) = exec n (step n s a) acts := rfl
    rw [e]
    omega

/-- **C106 (nothing runs of itself).** However the window is used after it has opened, until Run is pressed `sim.go` is False and no frame of a loop is computed. -/
theorem C106_quiet (n : ℕ) (acts : List Act) (ha : Act.press .run ∉ acts) : (exec n start acts).go = false ∧ (exec n start acts).done = 0 := by
  constructor
  · have key : ∀ (acts : List Act) (s : State), s.go = false → (∀ x ∈ s.loops, x ≠ L.starting) → Act.press .run ∉ acts → (exec n s acts).go = false := by
      intro acts
      induction acts with
      | nil => intro s hg _ _; exact hg
      | cons a acts ih =>
        intro s hg hl ha
        obtain ⟨h1, h2, _⟩ := stop_inv n s a (fun h => ha (by rw [h]; exact List.mem_cons_self)) hg hl
        exact ih _ h1 h2 (fun h => ha (List.mem_cons_of_mem _ h))
    exact key acts start rfl (by simp [start]) ha
  · have := stop_done n acts start rfl (by simp [start]) ha
    simpa [start] using this

/-- The window opened, initialised and calibrated. -/
example : Act.press .run ∉ [Act.init 0, .init 0, .press .iMat, .imat 0] ∧ (exec 5 start [.init 0, .init 0, .press .iMat, .imat 0]).imats = [.dead] := by decide

/-- After Stop, when every loop thread has begun and Run is not pressed again, the loop threads complete no frame but those they are in. -/
theorem C106_stop_partial (n : ℕ) (s : State) (hm : s.main = .idle) (hl : ∀ x ∈ s.loops, x ≠ L.starting) (acts : List Act) (ha : Act.press .run ∉ acts) :
    (exec n (step n s (.press .stop)) acts).done ≤ s.done + s.loops.countP (· = .frame) := by
  have h := stop_done n acts (step n s (.press .stop)) (by simp [step, hm, press]) (by simpa [step, hm, press] using hl) ha
  simpa [step, hm, press] using h

/-- Init stops as Stop does: once its thread has begun, the loop threads complete no frame but those they are in (unless Run is pressed again). -/
theorem C106_init_stops_partial (n : ℕ) (s : State) (i : ℕ) (hi : s.inits[i]? = some .waiting) (hl : ∀ x ∈ s.loops, x ≠ L.starting) (acts : List Act) (ha : Act.press .run ∉ acts) :
    (exec n (step n s (.init i)) acts).done ≤ s.done + s.loops.countP (· = .frame) := by
  have h := stop_done n acts (step n s (.init i)) (by simp [step, hi]) (by simpa [step, hi] using hl) ha
  simpa [step, hi] using h

/-- **C106 (single frame, reset).**  The button for one frame runs one frame and nothing else, the button for a reset sets the counter to zero and does nothing else; both leave the main thread free. -/
theorem C106_single (n : ℕ) (s : State) (hm : s.main = .idle) : exec n s [.press .frame, .main] = { s with iters := s.iters + 1 } ∧ exec n s [.press .reset, .main] = { s with iters := 0 } := by
  cases s
  simp only at hm
  subst hm
  simp [exec, step, press]

example : (exec 5 start [.press .frame, .main, .press .frame, .main]).iters = 2 := by decide

/-- Run pressed after a completed Init runs exactly `nIters` frames and ends, whatever was run before. -/
theorem C106_init_run (n : ℕ) (s : State) (hm : s.main = .idle) :
    let s' := exec n s ([.press .init, .init s.inits.length, .init s.inits.length, .press .run, .loop s.loops.length] ++ (List.replicate n [Act.loop s.loops.length, .loop s.loops.length]).flatten ++
      [.loop s.loops.length, .loop s.loops.length])
    s'.done = s.done + n ∧ s'.iters = n ∧ s'.go = false ∧ s'.loops = s.loops ++ [.dead] ∧ s'.inits = s.inits ++ [.dead] := by
  obtain ⟨go, iters, loops, inits, imats, main, done⟩ := s
  simp only at hm
  subst hm
  have e : exec n ⟨go, iters, loops, inits, imats, .idle, done⟩ [.press .init, .init inits.length, .init inits.length, .press .run, .loop loops.length] =
      ⟨true, 0, loops ++ [.test], inits ++ [.dead], imats, .idle, done⟩ := by
    simp [exec, step, press]
  have key : ∀ k, k ≤ n → exec n ⟨true, 0, loops ++ [.test], inits ++ [.dead], imats, .idle, done⟩ (List.replicate k [Act.loop loops.length, .loop loops.length]).flatten =
      ⟨true, k, loops ++ [.test], inits ++ [.dead], imats, .idle, done + k⟩ := by
    intro k
    induction k with
    | zero => intro _; rfl
    | succ k ih =>
      intro hk
      rw [List.replicate_succ', List.flatten_append]
      unfold exec at ih ⊢
      rw [List.foldl_append, ih (by omega)]
      simp [step, show k < n by omega]
      omega
  have e2 : exec n ⟨go, iters, loops, inits, imats, .idle, done⟩ ([.press .init, .init inits.length, .init inits.length, .press .run, .loop loops.length] ++
      (List.replicate n [Act.loop loops.length, .loop loops.length]).flatten ++ [.loop loops.length, .loop loops.length]) =
      ⟨false, n, loops ++ [.dead], inits ++ [.dead], imats, .idle, done + n⟩ := by
    unfold exec at e key ⊢
    rw [List.foldl_append, List.foldl_append, e, key n le_rfl]
    simp [step]
  intro s'
  have : s' = ⟨false, n, loops ++ [.dead], inits ++ [.dead], imats, .idle, done + n⟩ := e2
  rw [this]
  exact ⟨rfl, rfl, rfl, rfl, rfl⟩

/-- Steps a loop thread needs to end once it was stopped. -/
private def rank : Option L → ℕ
  | some .starting => 4
  | some .frame => 3
  | some .test => 2
  | some .ending => 1
  | _ => 0

/-- After Stop every loop thread that has begun ends within three steps of its own, whatever else happens (unless Run is pressed again). -/
theorem C106_stop_ends_partial (n : ℕ) (s : State) (hm : s.main = .idle) (hl : ∀ x ∈ s.loops, x ≠ L.starting) (acts : List Act) (ha : Act.press .run ∉ acts) (i : ℕ) (hi : 3 ≤ acts.count (.loop i))
    (x : L) (hx : (exec n (step n s (.press .stop)) acts).loops[i]? = some x) : x = .dead := by
  have one : ∀ (s : State) (a : Act), a ≠ .press .run → s.go = false → (∀ x ∈ s.loops, x ≠ L.starting) →
      rank (step n s a).loops[i]? + (if a = .loop i then 1 else 0) ≤ max (rank s.loops[i]?) (if a = .loop i then 1 else 0) := by
    intro s a ha hg hl
    have other : ∀ (k : ℕ) (y : L), k ≠ i → rank (s.loops.set k y)[i]? = rank s.loops[i]? := by
      intro k y hk
      rw [List.getElem?_set_ne hk]
    cases a with
    | press b =>
      by_cases hm : s.main = .idle
      · cases b with
        | run => exact absurd rfl ha
        | iMat => by_cases hq : s.imats.getLast? = some .making <;> simp [step, hm, press, hq]
        | _ => simp [step, hm, press]
      · simp [step, hm]
    | main => cases hm : s.main <;> simp [step, hm]
    | init k =>
      simp only [step]
      cases h : s.inits[k]? with
      | none => simp
      | some y => cases y <;> simp
    | imat k =>
      simp only [step]
      cases h : s.imats[k]? with
      | none => simp
      | some y => cases y <;> simp
    | crash k =>
      simp only [step]
      cases h : s.loops[k]? with
      | none => simp
      | some y =>
        cases y with
        | frame =>
          by_cases hk : k = i
          · subst hk
            have : (s.loops.set k L.dead)[k]? = some .dead := by rw [List.getElem?_set_self']; simp [h]
            simp [this, rank]
          · simp [other k .dead hk]
        | _ => simp
    | loop k =>
      by_cases hk : k = i
      · subst hk
        simp only [step, if_true]
        cases h : s.loops[k]? with
        | none => simp [h, rank]
        | some y =>
          have self : ∀ z, (s.loops.set k z)[k]? = some z := by intro z; rw [List.getElem?_set_self']; simp [h]
          cases y with
          | starting => exact absurd rfl (hl _ (List.mem_of_getElem? h))
          | test => simp [hg, self, rank]
          | frame => simp [self, rank]
          | ending => simp [self, rank]
          | dead => simp [h, rank]
      · have hne : Act.loop k ≠ .loop i := fun h => hk (by injection h)
        simp only [step, if_neg hne]
        cases h : s.loops[k]? with
        | none => simp
        | some y => cases y <;> simp [other k _ hk]
  have key : ∀ (acts : List Act) (s : State), s.go = false → (∀ x ∈ s.loops, x ≠ L.starting) → Act.press .run ∉ acts →
      rank (exec n s acts).loops[i]? ≤ rank s.loops[i]? - acts.count (.loop i) := by
    intro acts
    induction acts with
    | nil => intro s _ _ _; simp [exec]
    | cons a acts ih =>
      intro s hg hl ha
      have hne : a ≠ .press .run := fun h => ha (by rw [h]; exact List.mem_cons_self)
      obtain ⟨h1, h2, h3⟩ := stop_inv n s a hne hg hl
      have h4 := ih _ h1 h2 (fun h => ha (List.mem_cons_of_mem _ h))
      have h5 := one s a hne hg hl
      have e : exec n s (a :: acts) = exec n (step n s a) acts := rfl
      rw [e, List.count_cons]
      by_cases hai : a = .loop i
      · simp only [hai, if_true, beq_self_eq_true] at h4 h5 ⊢
        omega
      · simp only [hai, if_false, beq_iff_eq] at h4 h5 ⊢
        omega
  have hr : rank (step n s (.press .stop)).loops[i]? ≤ 3 := by
    have : (step n s (.press .stop)).loops = s.loops := by simp [step, hm, press]
    rw [this]
    cases h : s.loops[i]? with
    | none => simp [rank]
    | some y =>
      cases y with
      | starting => exact absurd rfl (hl _ (List.mem_of_getElem? h))
      | _ => simp [rank]
  have h := key acts (step n s (.press .stop)) (by simp [step, hm, press]) (by simpa [step, hm, press] using hl) ha
  rw [hx] at h
  have h0 : rank (some x) = 0 := by omega
  cases x <;> simp [rank] at h0 ⊢

/-- A Stop pressed before the new thread sets `go` is lost: all frames are run. -/
theorem C106_lost_stop (n : ℕ) : ∃ acts, Act.press .run ∉ acts ∧ (exec n (exec n start [.init 0, .init 0, .press .run, .press .stop]) acts).done = n := by
  refine ⟨.loop 0 :: (List.replicate n [Act.loop 0, .loop 0]).flatten, ?_, ?_⟩
  · simp [List.mem_flatten, List.mem_replicate]
  · have key : ∀ k, k ≤ n → exec n ⟨true, 0, [.test], [.dead], [], .idle, 0⟩ (List.replicate k [Act.loop 0, .loop 0]).flatten = ⟨true, k, [.test], [.dead], [], .idle, k⟩ := by
      intro k
      induction k with
      | zero => intro _; rfl
      | succ k ih =>
        intro hk
        rw [List.replicate_succ', List.flatten_append]
        unfold exec at ih ⊢
        rw [List.foldl_append, ih (by omega)]
        simp [step, show k < n by omega]
    have e : exec n (exec n start [.init 0, .init 0, .press .run, .press .stop]) (.loop 0 :: (List.replicate n [Act.loop 0, .loop 0]).flatten) =
        exec n ⟨true, 0, [.test], [.dead], [], .idle, 0⟩ (List.replicate n [Act.loop 0, .loop 0]).flatten := rfl
    rw [e, key n le_rfl]

/-- Without waiting: two loops compute frames at the same time, the simulation is made anew while a loop is in a frame, a calibration runs beside a loop and its end stops the loop. -/
theorem C106_violated :
    (∃ acts, (exec 10 start acts).loops = [.frame, .frame]) ∧ (∃ acts, (exec 10 start acts).loops = [.frame] ∧ .initing ∈ (exec 10 start acts).inits) ∧
    (∃ acts, (exec 10 start acts).loops = [.frame] ∧ .making ∈ (exec 10 start acts).imats) ∧
    (∃ acts, Act.press .stop ∉ acts ∧ (exec 10 start acts).loops = [.dead] ∧ (exec 10 start acts).iters < 10) := by
  refine ⟨⟨[.init 0, .init 0, .press .run, .loop 0, .loop 0, .press .run, .loop 1, .loop 1], by decide⟩, ⟨[.init 0, .init 0, .press .run, .loop 0, .loop 0, .press .init, .init 1], by decide, by decide⟩,
    ⟨[.init 0, .init 0, .press .run, .loop 0, .loop 0, .press .iMat], by decide, by decide⟩,
    ⟨[.init 0, .init 0, .press .run, .loop 0, .loop 0, .press .iMat, .imat 0, .loop 0, .loop 0, .loop 0], by decide, by decide, by decide⟩⟩

example : Polite 3 start [.init 0, .init 0, .press .iMat, .imat 0, .press .run, .loop 0, .loop 0, .press .stop, .loop 0, .loop 0, .loop 0, .press .frame] := by
  simp only [Polite]
  refine ⟨?_, ?_, ?_, ?_, ?_, ?_, ?_, ?_, ?_, ?_, ?_, ?_, trivial⟩ <;> intro b hb hs <;> cases hb <;> first | decide | exact absurd rfl hs

example : ∃ s, s = exec 5 start [.init 0, .init 0, .press .run, .loop 0, .loop 0] ∧ s.main = .idle ∧ (∀ x ∈ s.loops, x ≠ L.starting) ∧ s.loops.countP (· = .frame) = 1 := by
  refine ⟨_, rfl, by decide, by decide, by decide⟩

end Soapy.Props
