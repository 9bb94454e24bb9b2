/-
Property theorems C47–C50: loop threads, the run loop, the GUI queue, logging.
-/
import Verif.Model.Threads
import Verif.Model.RunLoop
import Verif.Model.GuiQueue
import Mathlib.Tactic.Common
import Mathlib.Data.List.Basic
import Mathlib.Order.Basic
import Mathlib.Tactic.SplitIfs
import Mathlib.Data.List.Range

namespace Soapy.Props

section threads
open Soapy.Threads

/-- What holds between any two steps if only caller 0 calls. -/
def ThreadInv (s : State) : Prop :=
  (∀ c, c ≠ 0 → s.pcs c = .idle) ∧
  (∀ t, t ≠ s.cur → s.threads t = .dead) ∧ (∀ t, s.count ≤ t → s.threads t = .dead) ∧
  match s.pcs 0 with
  | .idle => s.threads s.cur ≠ .new ∧ (s.running = false → s.threads s.cur = .dead) ∧ s.starts = s.saves + (if s.running then 1 else 0)
  | .create => s.running = false ∧ s.threads s.cur = .dead ∧ s.starts = s.saves
  | .flag => s.running = false ∧ s.threads s.cur = .new ∧ s.starts = s.saves
  | .launch => s.running = true ∧ s.threads s.cur = .new ∧ s.starts = s.saves + 1
  | .clear => s.running = true ∧ s.threads s.cur ≠ .new ∧ s.starts = s.saves + 1
  | .fetch => s.running = false ∧ s.threads s.cur ≠ .new ∧ s.starts = s.saves + 1
  | .joining t => s.running = false ∧ t = s.cur ∧ s.threads s.cur ≠ .new ∧ s.starts = s.saves + 1
  | .saving => s.running = false ∧ s.threads s.cur = .dead ∧ s.starts = s.saves + 1

/-- An execution with one caller. -/
def OneCaller (as : List Act) : Prop := ∀ a ∈ as, ∀ c, (a = .start c ∨ a = .stop c ∨ a = .line c) → c = 0

theorem inv_thread (s : State) (t : ℕ) (x : T) (h : ThreadInv s) (hx : x ≠ .new) (ht : s.threads t = .ready ∨ s.threads t = .inFrame)
    (hr : x = .dead ∨ s.running = true ∨ (x = .ready ∧ s.threads t = .inFrame)) : ThreadInv (s.thread t x) := by
  obtain ⟨h1, h2, h3, h4⟩ := h
  have htc : t = s.cur := by
    by_contra hne
    have := h2 t hne
    rcases ht with h | h <;> rw [this] at h <;> cases h
  subst htc
  have hcnt : s.cur < s.count := by
    by_contra hc
    have := h3 s.cur (by omega)
    rcases ht with h | h <;> rw [this] at h <;> cases h
  refine ⟨h1, ?_, ?_, ?_⟩
  · intro u hu
    have hu' : u ≠ s.cur := hu
    simp only [State.thread, Function.update_of_ne hu']
    exact h2 u hu'
  · intro u hu
    have hu0 : s.count ≤ u := hu
    have hu' : u ≠ s.cur := by omega
    simp only [State.thread, Function.update_of_ne hu']
    exact h3 u hu0
  · have e : (s.thread s.cur x).threads (s.thread s.cur x).cur = x := by simp [State.thread]
    have ep : (s.thread s.cur x).pcs = s.pcs := rfl
    have er : (s.thread s.cur x).running = s.running := rfl
    have ec : (s.thread s.cur x).cur = s.cur := rfl
    have es : (s.thread s.cur x).starts = s.starts := rfl
    have ev : (s.thread s.cur x).saves = s.saves := rfl
    rw [ep]
    cases hp : s.pcs 0 <;> rw [hp] at h4 <;> dsimp only at h4 ⊢ <;> rw [e, er, es, ev]
    · refine ⟨hx, fun hrun => ?_, h4.2.2⟩
      have := h4.2.1 hrun
      rcases ht with h | h <;> rw [this] at h <;> cases h
    · rcases ht with h | h <;> rw [h4.2.1] at h <;> cases h
    · rcases ht with h | h <;> rw [h4.2.1] at h <;> cases h
    · rcases ht with h | h <;> rw [h4.2.1] at h <;> cases h
    · exact ⟨h4.1, hx, h4.2.2⟩
    · exact ⟨h4.1, hx, h4.2.2⟩
    · exact ⟨h4.1, h4.2.1, hx, h4.2.2.2⟩
    · rcases ht with h | h <;> rw [h4.2.1] at h <;> cases h

theorem threadInv_step (s : State) (a : Act) (h : ThreadInv s) (hc : ∀ c, (a = .start c ∨ a = .stop c ∨ a = .line c) → c = 0) : ThreadInv (step s a) := by
  have hmain := h
  obtain ⟨h1, h2, h3, h4⟩ := h
  have upd : ∀ (p : Pc) (c : ℕ), c ≠ 0 → Function.update s.pcs 0 p c = .idle := by
    intro p c hc; rw [Function.update_of_ne hc]; exact h1 c hc
  cases a with
  | start c =>
    have : c = 0 := hc c (Or.inl rfl)
    subst this
    simp only [step]
    split_ifs with hi
    · rw [hi.1] at h4
      dsimp only at h4
      refine ⟨upd _, h2, h3, ?_⟩
      simp only [State.goto, Function.update_self]
      refine ⟨hi.2, h4.2.1 hi.2, ?_⟩
      have := h4.2.2
      rw [hi.2] at this
      simpa using this
    · exact hmain
  | stop c =>
    have : c = 0 := hc c (Or.inr (Or.inl rfl))
    subst this
    simp only [step]
    split_ifs with hi
    · rw [hi.1] at h4
      dsimp only at h4
      refine ⟨upd _, h2, h3, ?_⟩
      simp only [State.goto, Function.update_self]
      refine ⟨hi.2, h4.1, ?_⟩
      have := h4.2.2
      rw [hi.2] at this
      simpa using this
    · exact hmain
  | line c =>
    have : c = 0 := hc c (Or.inr (Or.inr rfl))
    subst this
    cases hp : s.pcs 0 with
    | idle => simp only [step, hp]; exact hmain
    | create =>
      rw [hp] at h4
      dsimp only at h4
      simp only [step, hp]
      refine ⟨upd _, ?_, ?_, ?_⟩
      · intro t ht
        have ht' : t ≠ s.count := ht
        simp only [State.goto, Function.update_of_ne ht']
        by_cases hcur : t = s.cur
        · rw [hcur]; exact h4.2.1
        · exact h2 t hcur
      · intro t ht
        have ht' : s.count + 1 ≤ t := ht
        have : t ≠ s.count := by omega
        simp only [State.goto, Function.update_of_ne this]
        exact h3 t (by omega)
      · simp only [State.goto, Function.update_self]
        exact ⟨h4.1, trivial, h4.2.2⟩
    | flag =>
      rw [hp] at h4
      dsimp only at h4
      simp only [step, hp]
      refine ⟨upd _, h2, h3, ?_⟩
      simp only [State.goto, Function.update_self]
      exact ⟨trivial, h4.2.1, by omega⟩
    | launch =>
      rw [hp] at h4
      dsimp only at h4
      simp only [step, hp, h4.2.1, if_true]
      refine ⟨upd _, ?_, ?_, ?_⟩
      · intro t ht
        have ht' : t ≠ s.cur := ht
        simp only [State.goto, State.thread, Function.update_of_ne ht']
        exact h2 t ht'
      · intro t ht
        have ht' : s.count ≤ t := ht
        have : t ≠ s.cur := by
          intro he
          have := h3 t ht'
          rw [he, h4.2.1] at this
          cases this
        simp only [State.goto, State.thread, Function.update_of_ne this]
        exact h3 t ht'
      · simp only [State.goto, State.thread, Function.update_self]
        refine ⟨by decide, ?_, ?_⟩
        · intro hr; rw [h4.1] at hr; cases hr
        · have := h4.2.2
          have hr := h4.1
          change s.starts = s.saves + (if s.running then 1 else 0)
          rw [hr]; simpa using this
    | clear =>
      rw [hp] at h4
      dsimp only at h4
      simp only [step, hp]
      refine ⟨upd _, h2, h3, ?_⟩
      simp only [State.goto, Function.update_self]
      exact ⟨trivial, h4.2.1, h4.2.2⟩
    | fetch =>
      rw [hp] at h4
      dsimp only at h4
      simp only [step, hp]
      refine ⟨upd _, h2, h3, ?_⟩
      simp only [State.goto, Function.update_self]
      exact ⟨h4.1, trivial, h4.2.1, h4.2.2⟩
    | joining t =>
      rw [hp] at h4
      dsimp only at h4
      obtain ⟨a1, a2, a3, a4⟩ := h4
      subst a2
      simp only [step, hp]
      rw [if_neg a3]
      split_ifs with hd
      · refine ⟨upd _, h2, h3, ?_⟩
        simp only [State.goto, Function.update_self]
        exact ⟨a1, hd, a4⟩
      · exact hmain
    | saving =>
      rw [hp] at h4
      dsimp only at h4
      simp only [step, hp]
      refine ⟨upd _, h2, h3, ?_⟩
      simp only [State.goto, Function.update_self]
      refine ⟨by rw [h4.2.1]; decide, fun _ => h4.2.1, ?_⟩
      have := h4.2.2
      have hr := h4.1
      change s.starts = s.saves + 1 + (if s.running then 1 else 0)
      rw [hr]; simpa using this
  | loop t =>
    cases ht : s.threads t with
    | new => simp only [step, ht]; exact hmain
    | dead => simp only [step, ht]; exact hmain
    | ready =>
      simp only [step, ht]
      split_ifs with hr
      · exact inv_thread s t _ hmain (by decide) (Or.inl ht) (Or.inr (Or.inl hr))
      · exact inv_thread s t _ hmain (by decide) (Or.inl ht) (Or.inl rfl)
    | inFrame =>
      simp only [step, ht]
      exact inv_thread s t _ hmain (by decide) (Or.inr ht) (Or.inr (Or.inr ⟨rfl, ht⟩))
  | crash t =>
    simp only [step]
    split_ifs with ht
    · exact inv_thread s t _ hmain (by decide) (Or.inr ht) (Or.inl rfl)
    · exact hmain

theorem threadInv_run (as : List Act) (s : State) (h : ThreadInv s) (hc : OneCaller as) : ThreadInv (run s as) := by
  induction as generalizing s with
  | nil => exact h
  | cons a as ih =>
    exact ih (step s a) (threadInv_step s a h (hc a (by simp))) (fun b hb => hc b (by simp [hb]))

theorem threadInv_init : ThreadInv init := ⟨fun _ _ => rfl, fun _ _ => rfl, fun _ _ => rfl, by simp [init]⟩

/-- **C47 (one caller, partial: calls do not overlap).** However the steps of the caller and of the loop threads are interleaved, and even if frames raise: at most one loop thread is alive, while data are saved none is, and whenever no call is in progress the number of
saves is the number of starts, minus one while the loop is running.  Missing: several callers at once, see `C47_two_callers_violated`. -/
theorem C47_one_caller_partial (as : List Act) (hc : OneCaller as) :
    let s := run init as
    (∀ t u, s.threads t ≠ .dead → s.threads u ≠ .dead → t = u) ∧
    (s.pcs 0 = .saving → ∀ t, s.threads t = .dead) ∧
    (s.pcs 0 = .idle → s.starts = s.saves + (if s.running then 1 else 0)) := by
  obtain ⟨_, h2, _, h4⟩ := threadInv_run as init threadInv_init hc
  refine ⟨?_, ?_, ?_⟩
  · intro t u ht hu
    have h1 : t = (run init as).cur := by by_contra h; exact ht (h2 t h)
    have h2 : u = (run init as).cur := by by_contra h; exact hu (h2 u h)
    rw [h1, h2]
  · intro hp t
    rw [hp] at h4
    dsimp only at h4
    by_cases h : t = (run init as).cur
    · rw [h]; exact h4.2.1
    · exact h2 t h
  · intro hp
    rw [hp] at h4
    exact h4.2.2

/-- **C47 (stopping ends).** A caller waiting in `join` waits at most for the frame being computed: two more steps of the loop thread and the caller goes on to save. -/
theorem C47_stop_terminates (as : List Act) (hc : OneCaller as) (t : ℕ) (hp : (run init as).pcs 0 = .joining t) :
    (run init (as ++ [.loop t, .loop t, .line 0])).pcs 0 = .saving := by
  have hinv := threadInv_run as init threadInv_init hc
  obtain ⟨_, _, _, h4⟩ := hinv
  have e : run init (as ++ [.loop t, .loop t, .line 0]) = run (run init as) [.loop t, .loop t, .line 0] := by
    unfold run; rw [List.foldl_append]
  rw [e]
  generalize run init as = s at *
  rw [hp] at h4
  dsimp only at h4
  obtain ⟨a1, rfl, a3, _⟩ := h4
  cases ht : s.threads s.cur with
  | new => exact absurd ht a3
  | dead => simp [run, step, ht, hp, State.goto]
  | ready => simp [run, step, ht, hp, a1, State.goto, State.thread]
  | inFrame => simp [run, step, ht, hp, a1, State.goto, State.thread]

/-- Start, two frames, stop. -/
def startStop : List Act := [.start 0, .line 0, .line 0, .line 0, .loop 0, .loop 0, .loop 0, .stop 0, .line 0, .line 0, .loop 0, .loop 0, .line 0, .line 0]

example : (run init startStop).saves = 1 ∧ (run init startStop).threads 0 = .dead ∧ (run init (startStop.take 7)).threads 0 = .inFrame ∧ (run init startStop).pcs 0 = .idle := by decide

/-- **C47 (two callers, violated).** Two callers starting at the same time start two loop threads; a stop that overlaps with a start of another caller saves while a frame is being computed. -/
theorem C47_two_callers_violated :
    (∃ as, (run init as).threads 0 = .inFrame ∧ (run init as).threads 1 = .inFrame) ∧
    (∃ as, (run init as).pcs 0 = .saving ∧ (run init as).threads 1 = .inFrame) := by
  refine ⟨⟨[.start 0, .start 1, .line 0, .line 0, .line 0, .line 1, .line 1, .line 1, .loop 0, .loop 1], by decide⟩,
    ⟨[.start 0, .line 0, .line 0, .line 0, .stop 0, .line 0, .line 0, .loop 0, .start 1, .line 1, .line 1, .line 1, .loop 1, .line 0], by decide⟩⟩

/-- **C47 (finding).** If a frame raises, the loop thread is gone but still marked as running: starting again does nothing until stop has been called. -/
theorem C47_crash_blocks_start (as : List Act) (hc : OneCaller as) (t : ℕ) (hp : (run init as).pcs 0 = .idle) (ht : (run init as).threads t = .inFrame) :
    let s := step (step (run init as) (.crash t)) (.start 0)
    (∀ u, s.threads u = .dead) ∧ s.running = true ∧ s.pcs 0 = .idle := by
  obtain ⟨_, h2, _, h4⟩ := threadInv_run as init threadInv_init hc
  generalize run init as = s at *
  rw [hp] at h4
  dsimp only at h4
  have htc : t = s.cur := by
    by_contra h; rw [h2 t h] at ht; cases ht
  have hr : s.running = true := by
    cases hrr : s.running with
    | true => rfl
    | false => have := h4.2.1 hrr; rw [← htc, ht] at this; cases this
  simp only [step, ht, if_true, State.thread, hr]
  refine ⟨?_, by simp, by simp [hp]⟩
  intro u
  simp only [and_false, if_false, Bool.true_eq_false]
  by_cases hu : u = t
  · rw [hu]; simp
  · rw [Function.update_of_ne hu]; exact h2 u (by rw [← htc]; exact hu)

end threads

section runloop
open Soapy.RunLoop

theorem whileLoop_ok (n : ℕ) (nature : ℕ → Outcome) (fuel : ℕ) (s : State) (hf : n - s.iters ≤ fuel) (hgo : s.go = true)
    (h : ∀ i, s.iters ≤ i → i < n → nature i = .ok true) :
    whileLoop n nature fuel s = .ok ⟨max s.iters n, s.done ++ List.range' s.iters (n - s.iters), s.saves, true⟩ := by
  induction fuel generalizing s with
  | zero =>
    obtain ⟨i, d, sv, g⟩ := s
    dsimp only at *
    subst hgo
    simp only [whileLoop, show n - i = 0 by omega, List.range'_zero, List.append_nil, Nat.max_eq_left (by omega : n ≤ i)]
  | succ f ih =>
    obtain ⟨i, d, sv, g⟩ := s
    dsimp only at *
    subst hgo
    simp only [whileLoop, if_true]
    split_ifs with hi
    · rw [h i (le_refl _) hi]
      dsimp only
      rw [ih _ (by dsimp only; omega) rfl (fun j h1 h2 => h j (by dsimp only at h1; omega) h2)]
      dsimp only
      have e : n - i = (n - (i + 1)) + 1 := by omega
      rw [e, List.range'_succ, List.append_assoc, List.singleton_append]
      congr 2
      omega
    · simp only [show n - i = 0 by omega, List.range'_zero, List.append_nil, Nat.max_eq_left (by omega : n ≤ i)]

/-- **C48.** If nothing interrupts, `aoloop` runs exactly the frames from the present counter to `nIters`, in order, and saves once.
Missing: `nIters = 0`, which raises in `finishUp` (`C48_no_frames`). -/
theorem C48_all_frames_partial (n : ℕ) (nature : ℕ → Outcome) (s : State) (hn : 1 ≤ n) (h : ∀ i, s.iters ≤ i → i < n → nature i = .ok true) :
    aoloop n nature s = .ok ⟨max s.iters n, s.done ++ List.range' s.iters (n - s.iters), s.saves + 1, true⟩ := by
  unfold aoloop
  rw [whileLoop_ok n nature _ { s with go := true } (le_refl _) rfl h]
  dsimp only
  rw [if_neg (by omega)]

/-- **C48 (fresh).** From a fresh simulation: frames `0 … nIters - 1`; a second call runs no frame (and saves again). -/
theorem C48_fresh (n : ℕ) (nature : ℕ → Outcome) (hn : 1 ≤ n) (h : ∀ i, i < n → nature i = .ok true) :
    ∃ s, aoloop n nature ⟨0, [], 0, false⟩ = .ok s ∧ s.done = List.range n ∧ s.iters = n ∧ s.saves = 1 ∧
      ∃ s', aoloop n nature s = .ok s' ∧ s'.done = List.range n ∧ s'.iters = n ∧ s'.saves = 2 := by
  refine ⟨_, C48_all_frames_partial n nature _ hn (fun i _ hi => h i hi), ?_, by simp, rfl, ?_⟩
  · simp [List.range_eq_range']
  · refine ⟨_, C48_all_frames_partial n nature _ hn ?_, ?_, ?_, rfl⟩
    · intro i h1 h2; dsimp only at h1; omega
    · simp [List.range_eq_range']
    · simp

/-- **C48 (stopped).** If frame `k` is the first that does not simply complete: interrupted frames are not counted and all completed ones are kept; if `go` is cleared during frame `k`, that frame is still completed and counted; data are saved once. -/
theorem C48_interrupted (n k : ℕ) (nature : ℕ → Outcome) (s : State) (hk : s.iters ≤ k) (hkn : k < n) (h : ∀ i, s.iters ≤ i → i < k → nature i = .ok true) :
    (nature k = .interrupt → aoloop n nature s = .ok ⟨k, s.done ++ List.range' s.iters (k - s.iters), s.saves + 1, false⟩) ∧
    (nature k = .ok false → aoloop n nature s = .ok ⟨k + 1, s.done ++ List.range' s.iters (k + 1 - s.iters), s.saves + 1, false⟩) ∧
    (∀ e, nature k = .error e → aoloop n nature s = .error e) := by
  have key : ∀ (fuel : ℕ) (s : State), n - s.iters ≤ fuel → s.go = true → s.iters ≤ k → (∀ i, s.iters ≤ i → i < k → nature i = .ok true) →
      (nature k = .interrupt → whileLoop n nature fuel s = .ok ⟨k, s.done ++ List.range' s.iters (k - s.iters), s.saves, false⟩) ∧
      (nature k = .ok false → whileLoop n nature fuel s = .ok ⟨k + 1, s.done ++ List.range' s.iters (k + 1 - s.iters), s.saves, false⟩) ∧
      (∀ e, nature k = .error e → whileLoop n nature fuel s = .error e) := by
    intro fuel
    induction fuel with
    | zero => intro s hf; omega
    | succ f ih =>
      intro s hf hgo hk h
      obtain ⟨i, d, sv, g⟩ := s
      dsimp only at *
      subst hgo
      simp only [whileLoop, if_true]
      rw [if_pos (by omega)]
      by_cases hik : i = k
      · subst hik
        refine ⟨fun e => ?_, fun e => ?_, fun er e => ?_⟩
        · rw [e]; simp
        · rw [e]
          dsimp only
          rw [show i + 1 - i = 1 by omega]
          cases f with
          | zero => simp [whileLoop]
          | succ f => simp [whileLoop]
        · rw [e]
      · rw [h i (le_refl _) (by omega)]
        dsimp only
        obtain ⟨a1, a2, a3⟩ := ih ⟨i + 1, d ++ [i], sv, true⟩ (by dsimp only; omega) rfl (by dsimp only; omega)
          (fun j h1 h2 => h j (by dsimp only at h1; omega) h2)
        have e1 : k - i = (k - (i + 1)) + 1 := by omega
        have e2 : k + 1 - i = (k + 1 - (i + 1)) + 1 := by omega
        refine ⟨fun e => ?_, fun e => ?_, fun er e => a3 er e⟩
        · rw [a1 e, e1, List.range'_succ]; simp
        · rw [a2 e, e2, List.range'_succ]; simp
  obtain ⟨a1, a2, a3⟩ := key (n - s.iters) { s with go := true } (le_refl _) rfl hk h
  unfold aoloop
  refine ⟨fun e => ?_, fun e => ?_, fun er e => ?_⟩
  · rw [a1 e]; dsimp only; rw [if_neg (by omega)]
  · rw [a2 e]; dsimp only; rw [if_neg (by omega)]
  · rw [a3 er e]

example : aoloop 5 (fun i => if i = 3 then .interrupt else .ok true) ⟨0, [], 0, false⟩ = .ok ⟨3, [0, 1, 2], 1, false⟩ := by decide

/-- **C48 (resuming).** After an interruption a new call continues with the interrupted frame and completes the run. -/
theorem C48_resume (n k : ℕ) (nature nature' : ℕ → Outcome) (hkn : k < n) (h : ∀ i, i < k → nature i = .ok true) (hi : nature k = .interrupt)
    (h' : ∀ i, k ≤ i → i < n → nature' i = .ok true) :
    ∃ s s', aoloop n nature ⟨0, [], 0, false⟩ = .ok s ∧ aoloop n nature' s = .ok s' ∧ s'.done = List.range n ∧ s'.iters = n := by
  refine ⟨_, _, (C48_interrupted n k nature ⟨0, [], 0, false⟩ (Nat.zero_le _) hkn (fun i _ h2 => h i h2)).1 hi, C48_all_frames_partial n nature' _ (by omega) h', ?_, ?_⟩
  · dsimp only
    rw [List.range_eq_range', List.nil_append, show k - 0 = k from rfl]
    have := List.range'_append (s := 0) (m := k) (n := n - k) (step := 1)
    simp only [Nat.one_mul, Nat.zero_add] at this
    rw [this]
    congr 1; omega
  · dsimp only; omega

/-- **C48 (finding).** Without frames to run the call ends with a division by zero after saving. -/
theorem C48_no_frames (nature : ℕ → Outcome) (s : State) : aoloop 0 nature s = .error .zeroDivisionError := by
  simp [aoloop, whileLoop]

/-- **C48 (finding).** A request to stop that comes before `aoloop` has begun is lost: `go` is set on entry. -/
theorem C48_early_stop_lost (n : ℕ) (nature : ℕ → Outcome) (s : State) : aoloop n nature { s with go := false } = aoloop n nature { s with go := true } := rfl

/-- **C50.** A message is shown exactly if the logging level is at least its own; raising the level never hides messages. -/
theorem C50_level (lvl lvl' level : ℤ) : (shown lvl level = true ↔ level ≤ lvl) ∧ (lvl ≤ lvl' → shown lvl level = true → shown lvl' level = true) := by
  unfold shown
  simp only [decide_eq_true_eq]
  exact ⟨trivial, fun h1 h2 => le_trans h2 h1⟩

/-- **C50 (documented levels).** 0: nothing, 1: warnings, 2: warnings and information, 3: everything. -/
theorem C50_documented (f : Fn) : shown 0 f.level = false ∧ (shown 1 f.level = true ↔ f = .warning) ∧ (shown 2 f.level = true ↔ f = .warning ∨ f = .info) ∧ shown 3 f.level = true := by
  cases f <;> decide

/-- **C50 (runs).** A run of calls at a higher level shows at least the same messages in the same order. -/
theorem C50_monotone (calls : List (Fn × String)) (lvl lvl' : ℤ) (h : lvl ≤ lvl') :
    (logRun lvl (calls.map fun c => .log c.1 c.2)).Sublist (logRun lvl' (calls.map fun c => .log c.1 c.2)) := by
  induction calls with
  | nil => exact List.Sublist.refl _
  | cons c cs ih =>
    simp only [List.map_cons, logRun]
    split_ifs with h1 h2 h2
    · exact ih.cons_cons _
    · exact absurd ((C50_level lvl lvl' c.1.level).2 h h1) h2
    · exact ih.cons _
    · exact ih

/-- The latest `setLoggingLevel` counts for what follows it and changes nothing before. -/
theorem C50_set (lvl l : ℤ) (pre post : List Call) : logRun lvl (pre ++ .set l :: post) = logRun lvl pre ++ logRun l post := by
  induction pre generalizing lvl with
  | nil => rfl
  | cons c cs ih =>
    cases c with
    | set k => exact ih k
    | log f m =>
      simp only [List.cons_append, logRun]
      split_ifs
      · rw [ih lvl, List.cons_append]
      · exact ih lvl

example : logRun 1 [.log .info "a", .log .warning "b", .set 2, .log .info "c", .log .debug "d"] = ["b", "c"] := by decide

/-- **C50 (finding).** `print_`, documented to log regardless of the level, is silent at levels 0, 1 and 2. -/
theorem C50_print_is_silent (lvl : ℤ) (h : lvl < 3) : shown lvl Fn.print_.level = false :=
  decide_eq_false (by show ¬ ((3 : ℤ) ≤ lvl); omega)

end runloop

section guiqueue
open Soapy.GuiQueue

/-- Number of puts the simulation may still make before a further request. -/
def pend (s : State) : ℕ :=
  match s.sim with
  | .test => if s.waiting then 1 else 0
  | .lock | .put => 1
  | .unlock | .clear => 0

/-- What holds between any two steps. -/
structure QInv (s : State) : Prop where
  req : s.puts + pend s ≤ s.requests
  len : s.queue.length + pend s ≤ (if s.gui = .idle ∨ s.gui = .unlock then 1 else 2)
  emptied : s.gui = .unlock → s.queue = []
  lockS : s.lock = .sim ↔ s.sim = .put ∨ s.sim = .unlock
  lockG : s.lock = .gui ↔ s.gui = .drain ∨ s.gui = .unlock
  sorted : s.queue.Pairwise (· < ·)
  young : ∀ k ∈ s.queue, k ≤ s.frame ∧ (s.sim = .test ∨ s.sim = .lock ∨ s.sim = .put → k < s.frame)
  plotYoung : ∀ p, s.plot = some p ∨ s.shown = some p → p ≤ s.frame ∧ (s.sim = .test ∨ s.sim = .lock ∨ s.sim = .put → p < s.frame)
  plotOld : ∀ p, s.plot = some p ∨ s.shown = some p → ∀ k ∈ s.queue, p < k
  plotNew : s.gui = .drain ∨ s.gui = .unlock → ∀ p q, s.plot = some p → s.shown = some q → q < p
  noPlot : s.gui = .lock → s.plot = none
  lastQ : s.queue ≠ [] → s.queue.getLast? = s.last
  lastP : s.gui = .drain ∨ s.gui = .unlock → s.queue = [] → s.plot ≠ none → s.plot = s.last
  fine : s.full = 0
  serve : s.requests ≠ 0 → s.sim = .test → s.waiting = true ∨ s.served = true
  served2 : s.sim = .unlock ∨ s.sim = .clear → s.served = true

theorem pend_le (s : State) : pend s ≤ 1 := by
  unfold pend; cases s.sim <;> simp; split_ifs <;> simp

theorem qinv_sim (cap : ℕ) (hcap : 2 ≤ cap) (s : State) (h : QInv s) : QInv (simStep cap s) := by
  obtain ⟨req, len, emptied, lockS, lockG, sorted, young, plotYoung, plotOld, plotNew, noPlot, lastQ, lastP, fine, serve, served2⟩ := h
  cases hp : s.sim with
  | test =>
    cases hw : s.waiting with
    | true =>
      have e : simStep cap s = { s with sim := .lock } := by simp [simStep, hp, hw]
      rw [e]
      have pe : pend s = 1 := by simp [pend, hp, hw]
      refine ⟨by simpa [pend, pe] using (pe ▸ req), by simpa [pend] using (pe ▸ len), emptied, by simpa [hp] using lockS, lockG, sorted, ?_, ?_, plotOld, plotNew, noPlot, lastQ, lastP, fine, by simp, by simp⟩
      · intro k hk; exact ⟨(young k hk).1, fun _ => (young k hk).2 (Or.inl hp)⟩
      · intro p h; exact ⟨(plotYoung p h).1, fun _ => (plotYoung p h).2 (Or.inl hp)⟩
    | false =>
      have e : simStep cap s = { s with frame := s.frame + 1 } := by simp [simStep, hp, hw]
      rw [e]
      refine ⟨req, len, emptied, lockS, lockG, sorted, ?_, ?_, plotOld, plotNew, noPlot, lastQ, lastP, fine, serve, served2⟩
      · intro k hk
        have := (young k hk).1
        exact ⟨by show k ≤ s.frame + 1; omega, fun _ => by show k < s.frame + 1; omega⟩
      · intro p h
        have := (plotYoung p h).1
        exact ⟨by show p ≤ s.frame + 1; omega, fun _ => by show p < s.frame + 1; omega⟩
  | lock =>
    by_cases hl : s.lock = .none
    · have e : simStep cap s = { s with lock := .sim, sim := .put } := by simp [simStep, hp, hl]
      rw [e]
      have pe : pend s = 1 := by simp [pend, hp]
      refine ⟨by simpa [pend] using (pe ▸ req), by simpa [pend] using (pe ▸ len), emptied, by simp, ?_, sorted, ?_, ?_, plotOld, plotNew, noPlot, lastQ, lastP, fine, by simp, by simp⟩
      · simpa [hl] using lockG
      · intro k hk; exact ⟨(young k hk).1, fun _ => (young k hk).2 (Or.inr (Or.inl hp))⟩
      · intro p h; exact ⟨(plotYoung p h).1, fun _ => (plotYoung p h).2 (Or.inr (Or.inl hp))⟩
    · have e : simStep cap s = s := by simp [simStep, hp, hl]
      rw [e]
      exact ⟨req, len, emptied, lockS, lockG, sorted, young, plotYoung, plotOld, plotNew, noPlot, lastQ, lastP, fine, serve, served2⟩
  | put =>
    have hl : s.lock = .sim := lockS.mpr (Or.inl hp)
    have pe : pend s = 1 := by simp [pend, hp]
    have hg : ¬ (s.gui = .drain ∨ s.gui = .unlock) := by
      intro hh; rw [← lockG, hl] at hh; cases hh
    have hlen : s.queue.length < cap := by
      rw [pe] at len
      split_ifs at len <;> omega
    have e : simStep cap s = { s with queue := s.queue ++ [s.frame], puts := s.puts + 1, last := some s.frame, served := true, sim := .unlock } := by
      simp [simStep, hp, hlen]
    rw [e]
    refine ⟨?_, ?_, ?_, by simp [hl], by simpa using lockG, ?_, ?_, ?_, ?_, ?_, noPlot, ?_, ?_, fine, by simp, by simp⟩
    · rw [pe] at req; simpa [pend] using req
    · rw [pe] at len; simpa [pend] using len
    · intro hu; exact absurd (Or.inr hu) hg
    · rw [List.pairwise_append]
      refine ⟨sorted, by simp, ?_⟩
      intro a ha b hb
      rw [List.mem_singleton] at hb
      rw [hb]
      exact (young a ha).2 (Or.inr (Or.inr hp))
    · intro k hk
      refine ⟨?_, by simp⟩
      rcases List.mem_append.mp hk with h | h
      · exact (young k h).1
      · rw [List.mem_singleton] at h; rw [h]
    · intro p h; exact ⟨(plotYoung p h).1, by simp⟩
    · intro p h k hk
      rcases List.mem_append.mp hk with hk | hk
      · exact plotOld p h k hk
      · rw [List.mem_singleton] at hk; rw [hk]; exact (plotYoung p h).2 (Or.inr (Or.inr hp))
    · intro hu; exact absurd hu hg
    · intro _; simp
    · intro hu; exact absurd hu hg
  | unlock =>
    have hl : s.lock = .sim := lockS.mpr (Or.inr hp)
    have e : simStep cap s = { s with lock := .none, sim := .clear } := by simp [simStep, hp]
    rw [e]
    have pe : pend s = 0 := by simp [pend, hp]
    rw [pe] at req len
    refine ⟨by simpa [pend] using req, by simpa [pend] using len, emptied, by simp, ?_, sorted, ?_, ?_, plotOld, plotNew, noPlot, lastQ, lastP, fine, by simp, ?_⟩
    · rw [hl] at lockG; simpa using lockG
    · intro k hk; exact ⟨(young k hk).1, by simp⟩
    · intro p h; exact ⟨(plotYoung p h).1, by simp⟩
    · intro _; exact served2 (Or.inl hp)
  | clear =>
    have e : simStep cap s = { s with waiting := false, frame := s.frame + 1, sim := .test } := by simp [simStep, hp]
    rw [e]
    have pe : pend s = 0 := by simp [pend, hp]
    rw [pe] at req len
    refine ⟨by simpa [pend] using req, by simpa [pend] using len, emptied, by simpa [hp] using lockS, lockG, sorted, ?_, ?_, plotOld, plotNew, noPlot, lastQ, lastP, fine, ?_, by simp⟩
    · intro k hk
      have := (young k hk).1
      exact ⟨by show k ≤ s.frame + 1; omega, fun _ => by show k < s.frame + 1; omega⟩
    · intro p h
      have := (plotYoung p h).1
      exact ⟨by show p ≤ s.frame + 1; omega, fun _ => by show p < s.frame + 1; omega⟩
    · intro _ _; exact Or.inr (served2 (Or.inr hp))

theorem qinv_gui (s : State) (h : QInv s) : QInv (guiStep s) := by
  obtain ⟨req, len, emptied, lockS, lockG, sorted, young, plotYoung, plotOld, plotNew, noPlot, lastQ, lastP, fine, serve, served2⟩ := h
  cases hg : s.gui with
  | idle =>
    have e : guiStep s = { s with waiting := true, requests := s.requests + 1, plot := none, gui := .lock, served := decide (s.sim = .unlock ∨ s.sim = .clear) } := by
      simp [guiStep, hg]
    rw [e]
    have hpe : ∀ t : State, t.sim = s.sim → pend t ≤ pend s + 1 ∧ pend t ≤ 1 := fun t _ => ⟨le_trans (pend_le t) (by omega), pend_le t⟩
    refine ⟨?_, ?_, by simp, lockS, ?_, sorted, young, ?_, ?_, by simp, by simp, lastQ, by simp, fine, by simp, ?_⟩
    · have := (hpe { s with waiting := true, requests := s.requests + 1, plot := none, gui := .lock, served := decide (s.sim = .unlock ∨ s.sim = .clear) } rfl).1
      show s.puts + _ ≤ s.requests + 1
      omega
    · have := (hpe { s with waiting := true, requests := s.requests + 1, plot := none, gui := .lock, served := decide (s.sim = .unlock ∨ s.sim = .clear) } rfl).2
      rw [if_pos (Or.inl hg)] at len
      show s.queue.length + _ ≤ 2
      omega
    · simpa [hg] using lockG
    · intro p h
      rcases h with h | h
      · cases h
      · exact plotYoung p (Or.inr h)
    · intro p h
      rcases h with h | h
      · cases h
      · exact plotOld p (Or.inr h)
    · intro h; simpa using h
  | lock =>
    by_cases hl : s.lock = .none
    · have e : guiStep s = { s with lock := .gui, gui := .drain } := by simp [guiStep, hg, hl]
      rw [e]
      have np := noPlot hg
      refine ⟨req, by simpa [hg, pend] using len, by simp, by simpa [hl] using lockS, by simp, sorted, young, plotYoung, plotOld, ?_, by simp, lastQ, ?_, fine, serve, served2⟩
      · intro _ p q hp
        rw [show ({ s with lock := .gui, gui := .drain } : State).plot = s.plot from rfl, np] at hp
        cases hp
      · intro _ _ hp; exact absurd np hp
    · have e : guiStep s = s := by simp [guiStep, hg, hl]
      rw [e]
      exact ⟨req, len, emptied, lockS, lockG, sorted, young, plotYoung, plotOld, plotNew, noPlot, lastQ, lastP, fine, serve, served2⟩
  | drain =>
    cases hq : s.queue with
    | nil =>
      have e : guiStep s = { s with gui := .unlock } := by simp [guiStep, hg, hq]
      rw [e]
      refine ⟨req, ?_, fun _ => hq, lockS, by simpa [hg] using lockG, sorted, young, plotYoung, plotOld, ?_, by simp, lastQ, ?_, fine, serve, served2⟩
      · have := pend_le s
        have e2 : pend { s with gui := .unlock } = pend s := rfl
        rw [e2]
        simp only [hq, List.length_nil]
        simpa using this
      · intro _; exact plotNew (Or.inl hg)
      · intro _; exact lastP (Or.inl hg)
    | cons k q =>
      have e : guiStep s = { s with queue := q, plot := some k } := by simp [guiStep, hg, hq]
      rw [e]
      rw [hq] at sorted young plotOld lastQ len
      have hs := List.pairwise_cons.mp sorted
      refine ⟨req, ?_, ?_, lockS, lockG, hs.2, fun j hj => young j (by simp [hj]), ?_, ?_, ?_, ?_, ?_, ?_, fine, serve, served2⟩
      · have e2 : pend { s with queue := q, plot := some k } = pend s := rfl
        rw [e2]
        simp only [List.length_cons] at len
        show q.length + pend s ≤ _
        refine le_trans ?_ len
        omega
      · intro hu; rw [show ({ s with queue := q, plot := some k } : State).gui = s.gui from rfl, hg] at hu; cases hu
      · intro p h
        rcases h with h | h
        · injection h with h; subst h; exact young k (by simp)
        · exact plotYoung p (Or.inr h)
      · intro p h j hj
        rcases h with h | h
        · injection h with h; subst h; exact hs.1 j hj
        · exact plotOld p (Or.inr h) j (by simp [show j ∈ q from hj])
      · intro _ p r hp hr
        injection hp with hp; subst hp
        exact plotOld r (Or.inr hr) k (by simp)
      · intro hu; rw [show ({ s with queue := q, plot := some k } : State).gui = s.gui from rfl, hg] at hu; cases hu
      · intro hne
        have := lastQ (by simp)
        rw [List.getLast?_cons_of_ne_nil hne] at this
        exact this
      · intro _ hnil _
        have hnil' : q = [] := hnil
        have := lastQ (by simp)
        rw [hnil'] at this
        simpa using this
  | unlock =>
    have hl : s.lock = .gui := lockG.mpr (Or.inr hg)
    have e : guiStep s = { s with lock := .none, shown := s.plot, gui := .idle } := by simp [guiStep, hg]
    rw [e]
    refine ⟨req, by simpa [hg, pend] using len, by simp, ?_, by simp, sorted, young, ?_, ?_, by simp, by simp, lastQ, by simp, fine, serve, served2⟩
    · rw [hl] at lockS; simpa using lockS
    · intro p h; exact plotYoung p (Or.inl (by rcases h with h | h <;> exact h))
    · intro p h; exact plotOld p (Or.inl (by rcases h with h | h <;> exact h))

theorem qinv_run (cap : ℕ) (hcap : 2 ≤ cap) (sched : List Bool) (s : State) (h : QInv s) : QInv (run cap s sched) := by
  induction sched generalizing s with
  | nil => exact h
  | cons b bs ih =>
    refine ih _ ?_
    cases b
    · exact qinv_gui s h
    · exact qinv_sim cap hcap s h

theorem qinv_init : QInv GuiQueue.init := by
  refine ⟨?_, ?_, ?_, ?_, ?_, ?_, ?_, ?_, ?_, ?_, ?_, ?_, ?_, ?_, ?_, ?_⟩ <;> simp [GuiQueue.init, pend]

/-- **C49 (at most one update per request).** In every interleaving of frames and polls, with room for two updates (there is room for ten), updates never outnumber requests, at most two wait in the queue and putting never fails. -/
theorem C49_one_per_request (cap : ℕ) (hcap : 2 ≤ cap) (sched : List Bool) :
    let s := run cap GuiQueue.init sched
    s.puts ≤ s.requests ∧ s.queue.length ≤ 2 ∧ s.full = 0 := by
  have h := qinv_run cap hcap sched _ qinv_init
  refine ⟨by have := h.req; omega, ?_, h.fine⟩
  have := h.len
  split_ifs at this <;> omega

/-- **C49 (newest).** When a poll has emptied the queue, what it is about to display is the newest update ever put, and it is newer than what was displayed before. -/
theorem C49_newest (cap : ℕ) (hcap : 2 ≤ cap) (sched : List Bool) (k : ℕ) :
    let s := run cap GuiQueue.init sched
    s.gui = .unlock → s.plot = some k → s.queue = [] ∧ s.last = some k ∧ ∀ q, s.shown = some q → q < k := by
  have h := qinv_run cap hcap sched _ qinv_init
  intro s hg hp
  have hq := h.emptied hg
  refine ⟨hq, ?_, fun q hs => h.plotNew (Or.inr hg) k q hp hs⟩
  have := h.lastP (Or.inr hg) hq (by rw [show s.plot = some k from hp]; simp)
  rw [← this]; exact hp

/-- **C49 (never blocks).** The simulation can always take its next step unless the GUI is just emptying the queue, which takes the GUI at most `length + 2` steps of its own, whatever the simulation does not do; in particular a GUI that stopped asking never holds up the simulation. -/
theorem C49_never_blocks (cap : ℕ) (hcap : 2 ≤ cap) (sched : List Bool) :
    let s := run cap GuiQueue.init sched
    (s.lock ≠ .gui → simStep cap s ≠ s) ∧ (s.gui = .idle → s.lock ≠ .gui) ∧ (s.lock = .gui → ∃ m ≤ s.queue.length + 2, (run cap s (List.replicate m false)).lock = .none) := by
  have h := qinv_run cap hcap sched _ qinv_init
  intro s
  refine ⟨?_, ?_, ?_⟩
  · intro hl he
    have hlen : s.sim = .put → s.queue.length < cap := by
      intro hp
      have : s.queue.length + pend s ≤ _ := h.len
      have pe : pend s = 1 := by simp [pend, hp]
      rw [pe] at this
      split_ifs at this <;> omega
    have hsim := congrArg State.sim he
    have hfr := congrArg State.frame he
    cases hp : s.sim with
    | test =>
      cases hw : s.waiting with
      | true => simp [simStep, hp, hw] at hsim
      | false => simp [simStep, hp, hw] at hfr
    | lock =>
      have : s.lock = .none := by
        cases hk : s.lock with
        | none => rfl
        | sim => have := h.lockS.mp hk; rw [show s.sim = .lock from hp] at this; simp at this
        | gui => exact absurd hk hl
      simp [simStep, hp, this] at hsim
    | put => simp [simStep, hp, hlen hp] at hsim
    | unlock => simp [simStep, hp] at hsim
    | clear => simp [simStep, hp] at hsim
  · intro hg hl
    have := h.lockG.mp hl
    rw [show s.gui = .idle from hg] at this
    simp at this
  · intro hl
    have drain : ∀ (q : List ℕ) (s : State), s.queue = q → s.gui = .drain → (run cap s (List.replicate (q.length + 2) false)).lock = .none := by
      intro q
      induction q with
      | nil =>
        intro s hq hg
        simp [run, List.replicate, guiStep, hg, hq]
      | cons k q ih =>
        intro s hq hg
        have : run cap s (List.replicate ((k :: q).length + 2) false) = run cap { s with queue := q, plot := some k } (List.replicate (q.length + 2) false) := by
          rw [show (k :: q).length + 2 = (q.length + 2) + 1 from rfl, List.replicate_succ]
          simp [run, guiStep, hg, hq]
        rw [this]
        exact ih _ rfl hg
    rcases h.lockG.mp hl with hg | hg
    · exact ⟨_, le_refl _, drain s.queue s rfl hg⟩
    · exact ⟨1, by omega, by simp [run, guiStep, show s.gui = .unlock from hg]⟩

/-- **C49 (no request is lost).** At the start of every frame after the first request, either a request is pending or an update was put for the latest one. -/
theorem C49_requests_served (cap : ℕ) (hcap : 2 ≤ cap) (sched : List Bool) :
    let s := run cap GuiQueue.init sched
    s.requests ≠ 0 → s.sim = .test → s.waiting = true ∨ s.served = true :=
  (qinv_run cap hcap sched _ qinv_init).serve

/-- Two frames, a poll, three more frames with the update, the next poll displays it. -/
example : (run 10 GuiQueue.init [true, true, false, true, true, true, false, true, true, true, false, false, false, false]).shown = some 2 := by decide

/-- Without room for two updates putting can fail. -/
example : (run 1 GuiQueue.init [false, false, false, false, true, true, true, true, true, false, true, true, true]).full = 1 := by decide

end guiqueue

end Soapy.Props
