/-
Property theorems C01–C04: the command delay.
-/
import Verif.Lemmas.Delay

namespace Soapy.Props

open Soapy.Delay Soapy.DelaySpec

variable {α V : Type*}

/-- **C01.** A buffer used with the constant delay `d` never fails, returns one result per call,
and result `n` is a zero for `n < d` and otherwise exactly the value handed in at call `n - d`.
The values still pending are exactly the last `min d (number of calls)` ones, in order. -/
theorem C01_constant_delay (zeroLike : α → α) (d : ℕ) (xs : List α) :
    ∃ outs, runDelay zeroLike [] (xs.map fun x => (x, (d : ℤ))) = .ok (xs.drop (xs.length - d), outs) ∧
      outs.length = xs.length ∧
      ∀ n, n < xs.length → outs[n]? = constDelay zeroLike d xs n := by
  obtain ⟨outs, h1, h2, h3⟩ := runDelay_inv zeroLike [] (xs.map fun x => (x, d))
  have hgone : ∀ ys : List α, gone (ys.map fun x => (x, d)) = ys.length - d := by
    intro ys
    induction ys using List.reverseRecOn with
    | nil => simp [gone]
    | append_singleton ys y ih =>
      rw [List.map_append, List.map_singleton, gone_snoc, ih]; simp; omega
  have hfst : (xs.map fun x => (x, d)).map Prod.fst = xs := by
    rw [List.map_map]; simp [Function.comp_def]
  simp only [List.nil_append, hgone, hfst, gone_nil, List.map_nil, List.drop_nil] at h1 h3
  refine ⟨outs, ?_, by simpa using h2, ?_⟩
  · rw [← h1]; simp [asCalls, Function.comp_def]
  · intro n hn
    have := h3 n (by simpa using hn)
    simp only [List.length_nil, Nat.zero_add] at this
    rw [this]
    have hget : ∀ (i ci : ℕ), ((xs.map fun x => (x, d)).map Prod.snd)[i]? = some ci → ci = d := by
      intro i ci h
      simp only [List.map_map, List.getElem?_map] at h
      cases hx : xs[i]? <;> simp [hx] at h
      exact h.symm
    have hn' : ((xs.map fun x => (x, d)).map Prod.snd)[n]? = some d := by
      simp [List.getElem?_eq_getElem hn]
    simp only [varDelay, hn', constDelay]
    by_cases hd : n < d
    · rw [if_neg (by omega), if_pos hd]
    · rw [if_pos ⟨by omega, fun i hi ci hci => by rw [hget i ci hci]; omega⟩, if_neg hd]

-- C01 is not vacuous: delay 2 on the commands 5,6,7,8 gives 0,0,5,6 and leaves 7,8 pending.
example : runDelay (fun x : ℤ => x * 0) [] ([5, 6, 7, 8].map fun x => (x, ((2 : ℕ) : ℤ)))
    = .ok ([7, 8], [0, 0, 5, 6]) := by rfl

/-- **C02 (law).** When every call may ask for its own delay, call `n` returns the value handed in
`cs n` calls ago if it exists and is newer than every value asked for before, otherwise a zero; no
call fails. -/
theorem C02_varying_delay (zeroLike : α → α) (calls : List (α × ℕ)) :
    ∃ buf outs, runDelay zeroLike [] (calls.map fun p => (p.1, (p.2 : ℤ))) = .ok (buf, outs) ∧
      outs.length = calls.length ∧
      ∀ n, n < calls.length →
        outs[n]? = varDelay zeroLike (calls.map Prod.fst) (calls.map Prod.snd) n := by
  obtain ⟨outs, h1, h2, h3⟩ := runDelay_inv zeroLike [] calls
  refine ⟨_, outs, h1, h2, fun n hn => ?_⟩
  have := h3 n hn
  simpa using this

example : runDelay (fun x : ℤ => x * 0) [] ([(5, 1), (6, 1), (7, 2), (8, 0), (9, 3)].map
    fun p : ℤ × ℕ => (p.1, (p.2 : ℤ))) = .ok ([9], [0, 5, 0, 8, 0]) := by rfl

/-- **C02 (no replay, no reordering).** Seen through the positions of the values in the input:
there is an assignment of an input position (or "zero") to every call such that the results are
the values at these positions, a call with delay `c` only ever returns the value of exactly `c` calls ago,
and later calls return strictly later values. -/
theorem C02_no_replay (zeroLike : α → α) (calls : List (α × ℕ)) :
    ∃ buf outs, ∃ src : ℕ → Option ℕ,
      runDelay zeroLike [] (calls.map fun p => (p.1, (p.2 : ℤ))) = .ok (buf, outs) ∧
      (∀ n, n < calls.length → outs[n]? = match src n with
        | some j => (calls.map Prod.fst)[j]?
        | none => ((calls.map Prod.fst)[n]?).map zeroLike) ∧
      (∀ n j, src n = some j → ∃ c, (calls.map Prod.snd)[n]? = some c ∧ j + c = n) ∧
      (∀ m n i j, m < n → src m = some i → src n = some j → i < j) := by
  obtain ⟨buf, outs, h1, _, h3⟩ := C02_varying_delay zeroLike calls
  classical
  refine ⟨buf, outs, fun n => match (calls.map Prod.snd)[n]? with
    | none => none
    | some c => if c ≤ n ∧ ∀ i, i < n → ∀ ci, (calls.map Prod.snd)[i]? = some ci → i + c < n + ci
        then some (n - c) else none, h1, ?_, ?_, ?_⟩
  · intro n hn
    rw [h3 n hn]
    unfold varDelay
    beta_reduce
    cases hc : (calls.map Prod.snd)[n]? with
    | none => simp at hc; omega
    | some c =>
      dsimp only
      split_ifs <;> rfl
  · intro n j h
    cases hc : (calls.map Prod.snd)[n]? with
    | none => simp [hc] at h
    | some c =>
      simp only [hc] at h
      split at h
      · rename_i hh; simp at h; exact ⟨c, rfl, by omega⟩
      · simp at h
  · intro m n i j hmn hi hj
    cases hcm : (calls.map Prod.snd)[m]? with
    | none => simp [hcm] at hi
    | some cm =>
      cases hcn : (calls.map Prod.snd)[n]? with
      | none => simp [hcn] at hj
      | some cn =>
        simp only [hcm] at hi
        simp only [hcn] at hj
        split at hi <;> [skip; (simp at hi)]
        split at hj <;> [skip; (simp at hj)]
        rename_i h1 h2
        simp at hi hj
        have := h2.2 m hmn cm hcm
        omega

/-- **C02 (bounded backlog).** Right after a call with delay `c` at most `c` values are pending. -/
theorem C02_backlog (zeroLike : α → α) (calls : List (α × ℕ)) (v : α) (c : ℕ) :
    ∃ buf outs, runDelay zeroLike []
        ((calls ++ [(v, c)]).map fun p => (p.1, (p.2 : ℤ))) = .ok (buf, outs) ∧
      buf.length ≤ c := by
  obtain ⟨outs, h1, _, _⟩ := runDelay_inv zeroLike [] (calls ++ [(v, c)])
  refine ⟨_, outs, h1, ?_⟩
  simp only [List.nil_append, gone_snoc]
  simp; omega

/-- **C02 (rejected input).** A negative delay makes the call fail with `IndexError`. -/
theorem C02_negative_delay_fails (zeroLike : α → α) (buf : List α) (v : α) (c : ℤ) (h : c < 0) :
    delay zeroLike buf v c = .error .indexError := by
  unfold delay
  simp only [List.length_append, List.length_cons, List.length_nil, zero_add, Nat.cast_add,
    Nat.cast_one]
  rw [if_neg (by omega), popLoop_eq, if_neg (by simp; omega)]

/-- **C03.** With arrays as mutable objects (in-place writes every frame, aliasing between the loop and
the buffer), the contents handed to the mirrors still follow the delay law, whatever resets and
re-makings of the command array happen in between: frame `n` receives what `varDelay` prescribes
for the reconstructed command vectors. -/
theorem C03_aliasing_safe (zeroLike : V → V) (w : V) (ops : List (HOp V)) (frames : List (V × ℕ))
    (hf : framesOf ops = frames.map fun p => (p.1, (p.2 : ℤ))) :
    ∃ s outs, (HState.init w).run zeroLike ops = .ok (s, outs) ∧
      outs.length = frames.length ∧
      ∀ n, n < frames.length →
        outs[n]? = varDelay zeroLike (frames.map Prod.fst) (frames.map Prod.snd) n := by
  obtain ⟨s, os, h1, _, h2⟩ := HState.run_refines zeroLike ops (HState.init w) (HState.init_inv w)
    (by rw [hf]; intro p hp; simp at hp; obtain ⟨a, b, _, rfl⟩ := hp; simp)
  obtain ⟨buf, outs, h3, h4, h5⟩ := C02_varying_delay zeroLike frames
  have hb : (HState.init w).buf.map (HState.init w).heap = [] := rfl
  rw [hb, hf, h3] at h2
  have hinj := Except.ok.inj h2
  have ho : outs = os := (Prod.mk.inj hinj).2
  subst ho
  exact ⟨s, outs, h1, h4, h5⟩

example : framesOf [HOp.frame (1 : ℤ) 2, .reset, .frame 2 2, .makeIMat 0, .frame 3 2]
    = [((1 : ℤ), 2), (2, 2), (3, 2)].map fun p : ℤ × ℕ => (p.1, (p.2 : ℤ)) := by rfl

/-- **C04 (what really happens).** After `reset_loop` the pipeline is *not* clean: with constant delay
`d`, history `xs` before the reset and commands `ys` after it, frame `n` after the reset receives
the last-but-`d - n` command computed before the reset as long as `n < d`. -/
theorem C04_reset_stale (zeroLike : V → V) (w : V) (d : ℕ) (xs ys : List V)
    (hx : d ≤ xs.length) :
    ∃ s outs, (HState.init w).run zeroLike
        ((xs.map fun x => HOp.frame x (d : ℤ)) ++ [.reset] ++ (ys.map fun y => HOp.frame y (d : ℤ)))
        = .ok (s, outs) ∧
      ∀ n, n < ys.length → outs[xs.length + n]? =
        if n < d then xs[xs.length + n - d]? else ys[n - d]? := by
  have hfr : ∀ zs : List V, framesOf (zs.map fun x => HOp.frame x (d : ℤ)) = zs.map fun x => (x, (d : ℤ)) := by
    intro zs; induction zs with
    | nil => rfl
    | cons z zs ih => simp [framesOf, ih]
  have happ : ∀ a b : List (HOp V), framesOf (a ++ b) = framesOf a ++ framesOf b := by
    intro a b; induction a with
    | nil => rfl
    | cons o a ih => cases o <;> simp [framesOf, ih]
  obtain ⟨s, os, h1, _, h2⟩ := HState.run_refines zeroLike
    ((xs.map fun x => HOp.frame x (d : ℤ)) ++ [.reset] ++ (ys.map fun y => HOp.frame y (d : ℤ)))
    (HState.init w) (HState.init_inv w) (by
      rw [happ, happ, hfr, hfr]
      intro p hp
      simp [framesOf] at hp
      rcases hp with ⟨_, _, rfl⟩ | ⟨_, _, rfl⟩ <;> simp)
  refine ⟨s, os, h1, fun n hn => ?_⟩
  obtain ⟨outs, h3, h4, h5⟩ := C01_constant_delay zeroLike d (xs ++ ys)
  have hb : (HState.init w).buf.map (HState.init w).heap = [] := rfl
  have hfe : framesOf ((xs.map fun x => HOp.frame x (d : ℤ)) ++ [.reset] ++
      (ys.map fun y => HOp.frame y (d : ℤ))) = (xs ++ ys).map fun x => (x, (d : ℤ)) := by
    rw [happ, happ, hfr, hfr]; simp [framesOf]
  rw [hb, hfe, h3] at h2
  have ho : outs = os := (Prod.mk.inj (Except.ok.inj h2)).2
  subst ho
  rw [h5 (xs.length + n) (by simp; omega)]
  unfold constDelay
  rw [if_neg (by omega)]
  by_cases h : n < d
  · rw [if_pos h, List.getElem?_append_left (by omega)]
  · rw [if_neg h, List.getElem?_append_right (by omega)]
    congr 1; omega

/-- **C04 is violated** for delay 1: a command computed before the reset reaches the mirrors after it,
although a clean start requires a zero. -/
theorem C04_reset_violated :
    ∃ s, (HState.init (0 : ℤ)).run (· * 0) [.frame 7 1, .reset, .frame 0 1] = .ok (s, [0, 7]) :=
  ⟨_, rfl⟩

/-- **C04 (part that holds).** Without loop delay nothing computed before a reset is ever sent to the
mirrors after it: frame `n` after the reset receives its own commands, as in a fresh run.
Missing for the full statement: delays `d ≥ 1`, where it is false (`C04_reset_violated`). -/
theorem C04_reset_clean_partial (zeroLike : V → V) (w : V) (xs ys : List V) :
    ∃ s outs s0 outs0,
      (HState.init w).run zeroLike
        ((xs.map fun x => HOp.frame x 0) ++ [.reset] ++ (ys.map fun y => HOp.frame y 0))
        = .ok (s, outs) ∧
      (HState.init w).run zeroLike (ys.map fun y => HOp.frame y 0) = .ok (s0, outs0) ∧
      ∀ n, n < ys.length → outs[xs.length + n]? = ys[n]? ∧ outs0[n]? = ys[n]? := by
  obtain ⟨s, outs, h1, h2⟩ := C04_reset_stale zeroLike w 0 xs ys (Nat.zero_le _)
  have hfr : ∀ zs : List V, framesOf (zs.map fun x => HOp.frame x 0)
      = (zs.map fun x => (x, 0)).map fun p : V × ℕ => (p.1, (p.2 : ℤ)) := by
    intro zs; induction zs with
    | nil => rfl
    | cons z zs ih => simp [framesOf, ih]
  obtain ⟨s0, outs0, h3, h4, h5⟩ := C03_aliasing_safe zeroLike w _ _ (hfr ys)
  refine ⟨s, outs, s0, outs0, h1, h3, fun n hn => ⟨?_, ?_⟩⟩
  · have := h2 n hn; simpa using this
  · rw [h5 n (by simpa using hn)]
    have e : (ys.map fun x => (x, 0)).map Prod.fst = ys := by
      rw [List.map_map]; simp [Function.comp_def]
    have hn' : ((ys.map fun x => (x, 0)).map Prod.snd)[n]? = some 0 := by
      simp [List.getElem?_eq_getElem hn]
    simp only [varDelay, hn', e]
    rw [if_pos ⟨Nat.zero_le _, fun i hi ci _ => by omega⟩]
    simp

end Soapy.Props
