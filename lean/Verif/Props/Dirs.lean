/-
Property theorem C97: runs keep to their own directories.
-/
import Verif.Model.Archive
import Mathlib.Tactic.Linarith

namespace Soapy.Props

open Soapy.Dirs

variable {δ : Type}

/-- The run a process is in. -/
def runOf : Pc → Option ℕ
  | .idle | .failed => none
  | .asleep r _ _ | .mkPath r _ | .mkTop r _ | .mkAgain r _ | .live r _ => some r

/-- Numbers of runs are used once, a run writes to a directory it has made, and every file in a directory was written by the run that made the directory. -/
structure Orderly (s : State δ) : Prop where
  below : ∀ p r, runOf (s.pcs p) = some r → r < s.runs
  apart : ∀ p p' r, runOf (s.pcs p) = some r → runOf (s.pcs p') = some r → p = p'
  dirsBelow : ∀ q r, s.dirs q = some r → r < s.runs
  own : ∀ p r q, s.pcs p = .live r q → s.dirs q = some r
  files : ∀ q f r d, s.files (q ++ [f]) = some (r, d) → s.dirs q = some r

theorem goto_pcs (s : State δ) (p : ℕ) (c : Pc) (p' : ℕ) : (s.goto p c).pcs p' = if p' = p then c else s.pcs p' := by
  unfold State.goto; by_cases h : p' = p
  · subst h; simp
  · simp [h]

/-- A process goes on in its run (or leaves it) without touching anything else. -/
theorem orderly_goto (s : State δ) (h : Orderly s) (p : ℕ) (c : Pc) (hc : runOf c = none ∨ runOf c = runOf (s.pcs p)) (hl : ∀ r q, c = .live r q → s.dirs q = some r) : Orderly (s.goto p c) := by
  have hrun : ∀ p' r, runOf ((s.goto p c).pcs p') = some r → runOf (s.pcs p') = some r := by
    intro p' r hr
    rw [goto_pcs] at hr
    split at hr
    · rename_i e
      rcases hc with hc | hc
      · rw [hc] at hr; simp at hr
      · rw [e, ← hc]; exact hr
    · exact hr
  refine ⟨fun p' r hr => h.below p' r (hrun p' r hr), fun p1 p2 r h1 h2 => h.apart p1 p2 r (hrun _ _ h1) (hrun _ _ h2), h.dirsBelow, fun p' r q hp => ?_, h.files⟩
  rw [goto_pcs] at hp
  split at hp
  · exact hl r q hp
  · exact h.own p' r q hp

/-- A new directory. -/
theorem orderly_mkdir (s s' : State δ) (h : Orderly s) (p r : ℕ) (q : Path) (hr : runOf (s.pcs p) = some r) (hm : mkdir r q s = some s') :
    Orderly s' ∧ s'.pcs = s.pcs ∧ s'.dirs = Function.update s.dirs q (some r) ∧ s.dirs q = none ∧ s'.files = s.files ∧ s'.runs = s.runs ∧ s'.now = s.now := by
  unfold mkdir at hm
  split at hm
  · rename_i hc
    have hnone : s.dirs q = none := by simpa using hc.1
    simp only [Option.some.injEq] at hm
    subst hm
    refine ⟨⟨h.below, h.apart, fun q' r' hd => ?_, fun p' r' q' hp => ?_, fun q' f r' d hf => ?_⟩, rfl, rfl, hnone, rfl, rfl, rfl⟩
    · by_cases e : q' = q
      · subst e; simp at hd; subst hd; exact h.below p r hr
      · simp [e] at hd; exact h.dirsBelow q' r' hd
    · have := h.own p' r' q' hp
      have e : q' ≠ q := by rintro rfl; rw [hnone] at this; simp at this
      simp [e, this]
    · have := h.files q' f r' d hf
      have e : q' ≠ q := by rintro rfl; rw [hnone] at this; simp at this
      simp [e, this]
  · simp at hm

theorem orderly_step (K : ℕ) (fmt : ℕ → ℕ) (name : ℕ → Path) (s : State δ) (h : Orderly s) (a : Act δ) : Orderly (step K fmt name s a) := by
  cases a with
  | tick => exact ⟨h.below, h.apart, h.dirsBelow, h.own, h.files⟩
  | start p =>
    simp only [step]
    split
    · rename_i hi
      refine ⟨fun p' r hr => ?_, fun p1 p2 r h1 h2 => ?_, fun q r hd => ?_, fun p' r q hp => ?_, h.files⟩
      · rw [goto_pcs] at hr
        change r < s.runs + 1
        split at hr
        · simp [runOf] at hr; omega
        · have := h.below p' r hr; omega
      · rw [goto_pcs] at h1 h2
        split at h1 <;> split at h2
        · omega
        · simp [runOf] at h1
          have := h.below p2 r h2
          omega
        · simp [runOf] at h2
          have := h.below p1 r h1
          omega
        · exact h.apart p1 p2 r h1 h2
      · have := h.dirsBelow q r hd
        change r < s.runs + 1
        omega
      · rw [goto_pcs] at hp
        split at hp
        · simp at hp
        · exact h.own p' r q hp
    · exact h
  | line p =>
    simp only [step]
    cases hp : s.pcs p with
    | idle => exact h
    | failed => exact h
    | live r q => exact h
    | asleep r t u =>
      simp only
      split
      · exact orderly_goto s h p _ (Or.inr (by rw [hp]; rfl)) (by simp)
      · exact h
    | mkPath r t =>
      simp only
      cases hm : mkdir r (name p ++ [t]) s with
      | none => exact orderly_goto s h p _ (Or.inr (by rw [hp]; rfl)) (by simp)
      | some s' =>
        obtain ⟨h', e1, e2, _⟩ := orderly_mkdir s s' h p r _ (by rw [hp]; rfl) hm
        refine orderly_goto s' h' p _ (Or.inr (by rw [e1, hp]; rfl)) fun r' q' e => ?_
        simp only [Pc.live.injEq] at e
        rw [e2, ← e.2, ← e.1]; simp
    | mkTop r t =>
      simp only
      cases hm : mkdir r (name p) s with
      | none => exact orderly_goto s h p _ (Or.inl rfl) (by simp)
      | some s' =>
        obtain ⟨h', e1, _⟩ := orderly_mkdir s s' h p r _ (by rw [hp]; rfl) hm
        exact orderly_goto s' h' p _ (Or.inr (by rw [e1, hp]; rfl)) (by simp)
    | mkAgain r t =>
      simp only
      cases hm : mkdir r (name p ++ [t]) s with
      | none => exact orderly_goto s h p _ (Or.inl rfl) (by simp)
      | some s' =>
        obtain ⟨h', e1, e2, _⟩ := orderly_mkdir s s' h p r _ (by rw [hp]; rfl) hm
        refine orderly_goto s' h' p _ (Or.inr (by rw [e1, hp]; rfl)) fun r' q' e => ?_
        simp only [Pc.live.injEq] at e
        rw [e2, ← e.2, ← e.1]; simp
  | write p f d =>
    simp only [step]
    cases hp : s.pcs p with
    | live r q =>
      refine ⟨h.below, h.apart, h.dirsBelow, h.own, fun q' f' r' d' hf => ?_⟩
      simp only at hf
      by_cases e : q' ++ [f'] = q ++ [f]
      · rw [e, Function.update_self] at hf
        simp only [Option.some.injEq, Prod.mk.injEq] at hf
        have := List.append_inj_left' e rfl
        rw [this, ← hf.1]
        exact h.own p r q hp
      · rw [Function.update_of_ne e] at hf
        exact h.files q' f' r' d' hf
    | _ => exact h
  | stop p =>
    simp only [step]
    cases hp : s.pcs p with
    | failed => exact h
    | _ => exact orderly_goto s h p _ (Or.inl rfl) (by simp)

theorem exec_cons (K : ℕ) (fmt : ℕ → ℕ) (name : ℕ → Path) (s : State δ) (a : Act δ) (as : List (Act δ)) : exec K fmt name s (a :: as) = exec K fmt name (step K fmt name s a) as := rfl

/-- **C97 (no mixing).** Whatever processes do, at the same time and under the same name or not, and whatever the clock shows: every file in a directory was written by the run that made the directory. -/
theorem C97_no_mixing (K : ℕ) (fmt : ℕ → ℕ) (name : ℕ → Path) (as : List (Act δ)) (s : State δ) (h : Orderly s) : Orderly (exec K fmt name s as) := by
  induction as generalizing s with
  | nil => exact h
  | cons a as ih => exact ih _ (orderly_step K fmt name s h a)

/-- Directories stay with their makers; no run takes an old number. -/
theorem step_keeps (K : ℕ) (fmt : ℕ → ℕ) (name : ℕ → Path) (s : State δ) (h : Orderly s) (a : Act δ) (r : ℕ) (hr : r < s.runs) (hover : ∀ p, runOf (s.pcs p) ≠ some r) :
    (∀ q r', s.dirs q = some r' → (step K fmt name s a).dirs q = some r') ∧ (∀ p, runOf ((step K fmt name s a).pcs p) ≠ some r) ∧ r < (step K fmt name s a).runs ∧
    (∀ q f, s.dirs q = some r → (step K fmt name s a).files (q ++ [f]) = s.files (q ++ [f])) := by
  have hgoto : ∀ (s' : State δ) (p : ℕ) (c : Pc), s'.pcs = s.pcs → (runOf c = none ∨ runOf c = runOf (s.pcs p)) → ∀ p', runOf ((s'.goto p c).pcs p') ≠ some r := by
    intro s' p c he hc p' hcon
    rw [goto_pcs, he] at hcon
    split at hcon
    · rcases hc with hc | hc
      · rw [hc] at hcon; simp at hcon
      · rw [hc] at hcon; exact hover p hcon
    · exact hover p' hcon
  have hmk : ∀ (p r' : ℕ) (q : Path) (s' : State δ), runOf (s.pcs p) = some r' → mkdir r' q s = some s' →
      s'.pcs = s.pcs ∧ s'.runs = s.runs ∧ s'.files = s.files ∧ ∀ q' r'', s.dirs q' = some r'' → s'.dirs q' = some r'' := by
    intro p r' q s' hp hm
    obtain ⟨_, e1, e2, e3, e4, e5, _⟩ := orderly_mkdir s s' h p r' q hp hm
    refine ⟨e1, e5, e4, fun q' r'' hd => ?_⟩
    have e : q' ≠ q := by rintro rfl; rw [e3] at hd; simp at hd
    rw [e2]; simp [e, hd]
  cases a with
  | tick => exact ⟨fun _ _ hd => hd, hover, hr, fun _ _ _ => rfl⟩
  | start p =>
    simp only [step]
    split
    · refine ⟨fun _ _ hd => hd, fun p' hcon => ?_, by change r < s.runs + 1; omega, fun _ _ _ => rfl⟩
      rw [goto_pcs] at hcon
      split at hcon
      · simp [runOf] at hcon; omega
      · exact hover p' hcon
    · exact ⟨fun _ _ hd => hd, hover, hr, fun _ _ _ => rfl⟩
  | line p =>
    simp only [step]
    have same : (∀ q r', s.dirs q = some r' → s.dirs q = some r') ∧ (∀ p, runOf (s.pcs p) ≠ some r) ∧ r < s.runs ∧ (∀ q f, s.dirs q = some r → s.files (q ++ [f]) = s.files (q ++ [f])) :=
      ⟨fun _ _ hd => hd, hover, hr, fun _ _ _ => rfl⟩
    cases hp : s.pcs p with
    | idle => exact same
    | failed => exact same
    | live r q => exact same
    | asleep r' t u =>
      simp only
      split
      · exact ⟨fun _ _ hd => hd, hgoto s p _ rfl (Or.inr (by rw [hp]; rfl)), hr, fun _ _ _ => rfl⟩
      · exact same
    | mkPath r' t =>
      simp only
      cases hm : mkdir r' (name p ++ [t]) s with
      | none => exact ⟨fun _ _ hd => hd, hgoto s p _ rfl (Or.inr (by rw [hp]; rfl)), hr, fun _ _ _ => rfl⟩
      | some s' =>
        obtain ⟨e1, e2, e3, e4⟩ := hmk p r' _ s' (by rw [hp]; rfl) hm
        exact ⟨e4, hgoto s' p _ e1 (Or.inr (by rw [hp]; rfl)), by change r < s'.runs; omega, fun q f _ => by change s'.files _ = _; rw [e3]⟩
    | mkTop r' t =>
      simp only
      cases hm : mkdir r' (name p) s with
      | none => exact ⟨fun _ _ hd => hd, hgoto s p _ rfl (Or.inl rfl), hr, fun _ _ _ => rfl⟩
      | some s' =>
        obtain ⟨e1, e2, e3, e4⟩ := hmk p r' _ s' (by rw [hp]; rfl) hm
        exact ⟨e4, hgoto s' p _ e1 (Or.inr (by rw [hp]; rfl)), by change r < s'.runs; omega, fun q f _ => by change s'.files _ = _; rw [e3]⟩
    | mkAgain r' t =>
      simp only
      cases hm : mkdir r' (name p ++ [t]) s with
      | none => exact ⟨fun _ _ hd => hd, hgoto s p _ rfl (Or.inl rfl), hr, fun _ _ _ => rfl⟩
      | some s' =>
        obtain ⟨e1, e2, e3, e4⟩ := hmk p r' _ s' (by rw [hp]; rfl) hm
        exact ⟨e4, hgoto s' p _ e1 (Or.inr (by rw [hp]; rfl)), by change r < s'.runs; omega, fun q f _ => by change s'.files _ = _; rw [e3]⟩
  | write p f d =>
    simp only [step]
    cases hp : s.pcs p with
    | live r' q =>
      refine ⟨fun _ _ hd => hd, hover, hr, fun q' f' hd => ?_⟩
      simp only
      by_cases e : q' ++ [f'] = q ++ [f]
      · exfalso
        have hq := List.append_inj_left' e rfl
        have := h.own p r' q hp
        rw [← hq, hd] at this
        simp only [Option.some.injEq] at this
        exact hover p (by rw [hp, this]; rfl)
      · rw [Function.update_of_ne e]
    | _ => exact ⟨fun _ _ hd => hd, hover, hr, fun _ _ _ => rfl⟩
  | stop p =>
    simp only [step]
    cases hp : s.pcs p with
    | failed => exact ⟨fun _ _ hd => hd, hover, hr, fun _ _ _ => rfl⟩
    | _ => exact ⟨fun _ _ hd => hd, hgoto s p _ rfl (Or.inl rfl), hr, fun _ _ _ => rfl⟩

/-- **C97 (results stay).** Once a run is over, the files in its directory never change again, whatever is run later. -/
theorem C97_results_stay (K : ℕ) (fmt : ℕ → ℕ) (name : ℕ → Path) (r : ℕ) (q : Path) (f : ℕ) (as : List (Act δ)) (s : State δ) (h : Orderly s)
    (hr : r < s.runs) (hover : ∀ p, runOf (s.pcs p) ≠ some r) (hq : s.dirs q = some r) : (exec K fmt name s as).files (q ++ [f]) = s.files (q ++ [f]) := by
  induction as generalizing s with
  | nil => rfl
  | cons a as ih =>
    obtain ⟨k1, k2, k3, k4⟩ := step_keeps K fmt name s h a r hr hover
    rw [exec_cons, ih _ (orderly_step K fmt name s h a) k3 k2 (k1 q r hq), k4 q f hq]

/-- An act of process `p`, or the clock. -/
def by_ (p : ℕ) : Act δ → Prop
  | .tick => True
  | .start p' | .line p' | .write p' _ _ | .stop p' => p' = p

/-- What keeps one process going. -/
structure Clear (K : ℕ) (fmt : ℕ → ℕ) (name : ℕ → Path) (p : ℕ) (s : State δ) : Prop where
  top : (s.dirs (name p)).isSome = true ∨ ((s.dirs (name p).dropLast).isSome = true ∧ name p ≠ [])
  free : ∃ t0, t0 ≤ s.now / K ∧ (∀ t, t0 ≤ t → s.dirs (name p ++ [fmt t]) = none) ∧
    match s.pcs p with
    | .asleep _ st u => st = fmt t0 ∧ u / K = t0 + 1
    | .mkPath _ st => st = fmt t0 ∧ t0 + 1 ≤ s.now / K
    | .mkTop _ st => st = fmt t0 ∧ t0 + 1 ≤ s.now / K ∧ s.dirs (name p) = none
    | .mkAgain _ st => st = fmt t0 ∧ t0 + 1 ≤ s.now / K ∧ (s.dirs (name p)).isSome = true
    | .failed => False
    | _ => True

theorem clear_step (K : ℕ) (hK : 0 < K) (fmt : ℕ → ℕ) (hfmt : Function.Injective fmt) (name : ℕ → Path) (p : ℕ) (s : State δ) (h : Clear K fmt name p s) (a : Act δ) (ha : by_ p a) :
    Clear K fmt name p (step K fmt name s a) := by
  obtain ⟨htop, t0, ht0, hfree, hpc⟩ := h
  cases a with
  | tick =>
    have hle : s.now / K ≤ (s.now + 1) / K := Nat.div_le_div_right (by omega)
    refine ⟨htop, t0, le_trans ht0 hle, hfree, ?_⟩
    simp only [step]
    cases hp : s.pcs p with
    | asleep r st u => rw [hp] at hpc; exact hpc
    | mkPath r st => rw [hp] at hpc; exact ⟨hpc.1, le_trans hpc.2 hle⟩
    | mkTop r st => rw [hp] at hpc; exact ⟨hpc.1, le_trans hpc.2.1 hle, hpc.2.2⟩
    | mkAgain r st => rw [hp] at hpc; exact ⟨hpc.1, le_trans hpc.2.1 hle, hpc.2.2⟩
    | failed => rw [hp] at hpc; exact hpc
    | idle => trivial
    | live r q => trivial
  | start p' =>
    have : p' = p := ha
    subst this
    simp only [step]
    split
    · refine ⟨htop, s.now / K, le_refl _, fun t ht => hfree t (by omega), ?_⟩
      rw [goto_pcs, if_pos rfl]
      exact ⟨rfl, Nat.add_div_right _ hK⟩
    · exact ⟨htop, t0, ht0, hfree, hpc⟩
  | line p' =>
    have : p' = p := ha
    subst this
    simp only [step]
    cases hp : s.pcs p' with
    | idle => exact ⟨htop, t0, ht0, hfree, by rw [hp]; trivial⟩
    | live r q => exact ⟨htop, t0, ht0, hfree, by rw [hp]; trivial⟩
    | failed => rw [hp] at hpc; exact hpc.elim
    | asleep r st u =>
      rw [hp] at hpc
      simp only
      split
      · rename_i hu
        refine ⟨htop, t0, ht0, hfree, ?_⟩
        rw [goto_pcs, if_pos rfl]
        exact ⟨hpc.1, by rw [← hpc.2]; exact Nat.div_le_div_right hu⟩
      · exact ⟨htop, t0, ht0, hfree, by rw [hp]; exact hpc⟩
    | mkPath r st =>
      rw [hp] at hpc
      obtain ⟨rfl, hlt⟩ := hpc
      simp only
      cases hm : mkdir r (name p' ++ [fmt t0]) s with
      | some s' =>
        unfold mkdir at hm
        split at hm
        · rename_i hc
          simp only [Option.some.injEq] at hm
          subst hm
          have hd : (s.dirs (name p')).isSome = true := by simpa using hc.2.1
          have hne : name p' ≠ name p' ++ [fmt t0] := by intro e; simpa using congrArg List.length e
          refine ⟨Or.inl (by simp [State.goto, hne, hd]), t0 + 1, hlt, fun t ht => ?_, ?_⟩
          · have : fmt t ≠ fmt t0 := fun e => by have := hfmt e; omega
            have : name p' ++ [fmt t] ≠ name p' ++ [fmt t0] := by simpa using this
            simp only [State.goto]
            rw [Function.update_of_ne this]
            exact hfree t (by omega)
          · rw [goto_pcs, if_pos rfl]; trivial
        · simp at hm
      | none =>
        unfold mkdir at hm
        split at hm
        · simp at hm
        · rename_i hc
          have hd : s.dirs (name p') = none := by
            by_contra hcon
            exact hc ⟨by rw [hfree t0 (le_refl _)]; rfl, by simpa [Option.isSome_iff_ne_none] using hcon, by simp⟩
          refine ⟨htop, t0, ht0, hfree, ?_⟩
          rw [goto_pcs, if_pos rfl]
          exact ⟨rfl, hlt, hd⟩
    | mkTop r st =>
      rw [hp] at hpc
      obtain ⟨rfl, hlt, hd⟩ := hpc
      simp only
      have htop' : (s.dirs (name p').dropLast).isSome = true ∧ name p' ≠ [] := by
        rcases htop with h | h
        · rw [hd] at h; simp at h
        · exact h
      cases hm : mkdir r (name p') s with
      | none =>
        unfold mkdir at hm
        rw [if_pos ⟨by rw [hd]; rfl, htop'⟩] at hm
        simp at hm
      | some s' =>
        unfold mkdir at hm
        rw [if_pos ⟨by rw [hd]; rfl, htop'⟩] at hm
        simp only [Option.some.injEq] at hm
        subst hm
        refine ⟨Or.inl (by simp [State.goto]), t0, ht0, fun t ht => ?_, ?_⟩
        · have hne : name p' ++ [fmt t] ≠ name p' := by intro e; simpa using congrArg List.length e
          simp only [State.goto]
          rw [Function.update_of_ne hne]
          exact hfree t ht
        · rw [goto_pcs, if_pos rfl]
          exact ⟨rfl, hlt, by simp [State.goto]⟩
    | mkAgain r st =>
      rw [hp] at hpc
      obtain ⟨rfl, hlt, hd⟩ := hpc
      simp only
      have hcond : (s.dirs (name p' ++ [fmt t0])).isNone = true ∧ (s.dirs (name p' ++ [fmt t0]).dropLast).isSome = true ∧ name p' ++ [fmt t0] ≠ [] :=
        ⟨by rw [hfree t0 (le_refl _)]; rfl, by simpa using hd, by simp⟩
      cases hm : mkdir r (name p' ++ [fmt t0]) s with
      | none =>
        unfold mkdir at hm
        rw [if_pos hcond] at hm
        simp at hm
      | some s' =>
        unfold mkdir at hm
        rw [if_pos hcond] at hm
        simp only [Option.some.injEq] at hm
        subst hm
        have hne : name p' ≠ name p' ++ [fmt t0] := by intro e; simpa using congrArg List.length e
        refine ⟨Or.inl (by simp [State.goto, hne, hd]), t0 + 1, hlt, fun t ht => ?_, ?_⟩
        · have : fmt t ≠ fmt t0 := fun e => by have := hfmt e; omega
          have : name p' ++ [fmt t] ≠ name p' ++ [fmt t0] := by simpa using this
          simp only [State.goto]
          rw [Function.update_of_ne this]
          exact hfree t (by omega)
        · rw [goto_pcs, if_pos rfl]; trivial
  | write p' f d =>
    have : p' = p := ha
    subst this
    simp only [step]
    cases hp : s.pcs p' with
    | live r q => exact ⟨htop, t0, ht0, hfree, by simp [hp]⟩
    | _ => exact ⟨htop, t0, ht0, hfree, by rw [hp] at hpc ⊢; exact hpc⟩
  | stop p' =>
    have : p' = p := ha
    subst this
    simp only [step]
    cases hp : s.pcs p' with
    | failed => rw [hp] at hpc; exact hpc.elim
    | _ => exact ⟨htop, t0, ht0, hfree, by rw [goto_pcs, if_pos rfl]; trivial⟩

/-- **C97 (one process), partial**: if only one process uses the name, its runs one after the other always get a directory (time stamps being different for different seconds, and directories of later seconds not there at the start). -/
theorem C97_sequential_partial (K : ℕ) (hK : 0 < K) (fmt : ℕ → ℕ) (hfmt : Function.Injective fmt) (name : ℕ → Path) (p : ℕ) (as : List (Act δ)) (has : ∀ a ∈ as, by_ p a) (s : State δ)
    (hidle : s.pcs p = .idle) (htop : (s.dirs (name p)).isSome = true ∨ ((s.dirs (name p).dropLast).isSome = true ∧ name p ≠ []))
    (hfree : ∀ t, s.now / K ≤ t → s.dirs (name p ++ [fmt t]) = none) : (exec K fmt name s as).pcs p ≠ .failed := by
  have key : ∀ (as : List (Act δ)) (s : State δ), (∀ a ∈ as, by_ p a) → Clear K fmt name p s → Clear K fmt name p (exec K fmt name s as) := by
    intro as
    induction as with
    | nil => intro s _ h; exact h
    | cons a as ih => intro s has h; exact ih _ (fun a' ha' => has a' (List.mem_cons_of_mem _ ha')) (clear_step K hK fmt hfmt name p s h a (has a (List.mem_cons_self ..)))
  obtain ⟨_, _, _, _, hpc⟩ := key as s has ⟨htop, s.now / K, le_refl _, hfree, by rw [hidle]; trivial⟩
  intro hcon
  rw [hcon] at hpc
  exact hpc

/-- Only the root is there, and perhaps a directory `1`. -/
def start0 (top : Bool) : State ℕ := ⟨0, fun q => if q = [] ∨ (top = true ∧ q = [1]) then some 0 else none, fun _ => none, fun _ => .idle, 1⟩

/-- **C97 is violated for parallel runs**: two processes that start in the same second, or in different seconds before the directory of the name is there, and one of them raises. -/
theorem C97_violated :
    (∃ as : List (Act ℕ), (exec 1 id (fun _ => [1]) (start0 true) as).pcs 1 = .failed ∧ (exec 1 id (fun _ => [1]) (start0 true) as).pcs 0 = .live 1 [1, 0]) ∧
    (∃ as : List (Act ℕ), (exec 1 id (fun _ => [1]) (start0 false) as).pcs 1 = .failed ∧ (exec 1 id (fun _ => [1]) (start0 false) as).pcs 0 = .live 1 [1, 0] ∧
      (exec 1 id (fun _ => [1]) (start0 false) as).dirs [1, 1] = none) := by
  refine ⟨⟨[.start 0, .start 1, .tick, .line 0, .line 1, .line 0, .line 1, .line 1], by decide, by decide⟩,
    ⟨[.start 0, .tick, .start 1, .tick, .line 0, .line 1, .line 0, .line 1, .line 0, .line 1, .line 0], by decide, by decide, by decide⟩⟩

theorem start0_orderly (top : Bool) : Orderly (start0 top) := by
  refine ⟨fun p r h => ?_, fun p p' r h => ?_, fun q r h => ?_, fun p r q h => ?_, fun q f r d h => ?_⟩
  · simp [start0, runOf] at h
  · simp [start0, runOf] at h
  · simp only [start0] at h ⊢
    split at h
    · simp at h; omega
    · simp at h
  · simp [start0] at h
  · simp [start0] at h

/-- Two runs of one process: each has its directory and file. -/
example : (exec 1 id (fun _ => [1]) (start0 false) [.start 0, .tick, .line 0, .line 0, .line 0, .line 0, .write 0 5 7, .stop 0, .start 0, .tick, .line 0, .line 0, .write 0 5 8]).files [1, 0, 5] = some (1, 7) ∧
    (exec 1 id (fun _ => [1]) (start0 false) [.start 0, .tick, .line 0, .line 0, .line 0, .line 0, .write 0 5 7, .stop 0, .start 0, .tick, .line 0, .line 0, .write 0 5 8]).files [1, 1, 5] = some (2, 8) := by decide

end Soapy.Props
