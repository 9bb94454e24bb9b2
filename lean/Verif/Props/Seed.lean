/-
C99: the same seed gives the same run.  C100: the same seed gives the same turbulence to every system.
-/
import Verif.Model.Seed
import Mathlib.Tactic.Common

namespace Soapy.Props

open Soapy.Seed

variable {R V S N G O : Type}

/-- The same generator algorithm in two processes that differ in their entropy. -/
def SameButEntropy (e e' : Rng R V) : Prop := e.draw = e'.draw ∧ e.seeded = e'.seeded

/-- Two atmospheres that have the same generator (there is one) and layers without generators of their own. -/
def AtmEq (a a' : Atm R V) : Prop := a.gen.isSome ∧ a.gen = a'.gen ∧ a.layers = a'.layers ∧ ∀ l ∈ a.layers, l.2 = none

theorem initLayers_seeded (e e' : Rng R V) (h : SameButEntropy e e') (c : Cfg V) (k : ℕ) : ∀ (i : ℕ) (r : R) (m m' : ℕ),
    (initLayers e c k i (some r) m).2.1.isSome ∧ (initLayers e c k i (some r) m).2.1 = (initLayers e' c k i (some r) m').2.1
      ∧ (initLayers e c k i (some r) m).1 = (initLayers e' c k i (some r) m').1 ∧ ∀ l ∈ (initLayers e c k i (some r) m).1, l.2 = none := by
  induction k with
  | zero => intro i r m m'; simp [initLayers]
  | succ k ih =>
    intro i r m m'
    rcases hc : c.infinite
    · simp only [initLayers, hc, drawWith, Bool.false_eq_true, if_false, h.1]
      obtain ⟨h1, h2, h3, h4⟩ := ih (i + 1) (e'.draw (.whole i) r).2 m m'
      exact ⟨h1, h2, by rw [h3], by simpa using h4⟩
    · simp only [initLayers, hc, if_true, h.1]
      obtain ⟨h1, h2, h3, h4⟩ := ih (i + 1) (e'.draw (.start i) r).2 m m'
      exact ⟨h1, h2, by rw [h3], by simpa using h4⟩

theorem atmInit_eq (e e' : Rng R V) (h : SameButEntropy e e') (c : Cfg V) (hs : c.seed.isSome) (m m' : ℕ) : AtmEq (atmInit e c m) (atmInit e' c m') := by
  obtain ⟨s, hs⟩ := Option.isSome_iff_exists.mp hs
  have := initLayers_seeded e e' h c c.scrnNo 0 (e.seeded s) m m'
  simp only [atmInit, AtmEq, hs, Option.map_some, ← h.2]
  exact this

theorem addRows_eq (e e' : Rng R V) (h : SameButEntropy e e') (c : Cfg V) (i n : ℕ) : ∀ (v : V) (r : R), addRows e c i n v r = addRows e' c i n v r := by
  induction n with
  | zero => intro v r; rfl
  | succ n ih => intro v r; simp only [addRows, h.1, ih]

theorem moveInf_seeded (e e' : Rng R V) (h : SameButEntropy e e') (c : Cfg V) (ls : List (V × Option R)) : ∀ (i : ℕ) (r : R), (∀ l ∈ ls, l.2 = none) →
    moveInf e c i ls (some r) = moveInf e' c i ls (some r) ∧ (moveInf e c i ls (some r)).2.isSome ∧ ∀ l ∈ (moveInf e c i ls (some r)).1.1, l.2 = none := by
  induction ls with
  | nil => intro i r _; simp [moveInf]
  | cons l ls ih =>
    intro i r hl
    obtain ⟨v, own⟩ := l
    have ho : own = none := hl (v, own) (by simp)
    subst ho
    obtain ⟨h1, h2, h3⟩ := ih (i + 1) (addRows e' c i (c.rows i v) v r).2 (fun l hm => hl l (by simp [hm]))
    simp only [moveInf, addRows_eq e e' h]
    refine ⟨by rw [h1], h2, ?_⟩
    intro l hm
    rcases List.mem_cons.mp hm with rfl | hm
    · rfl
    · exact h3 l hm

theorem moveFin_own (c : Cfg V) (ls : List (V × Option R)) : ∀ i : ℕ, (∀ l ∈ ls, l.2 = none) → ∀ l ∈ (moveFin c i ls).1, l.2 = none := by
  induction ls with
  | nil => intro i _; simp [moveFin]
  | cons l ls ih =>
    intro i hl
    simp only [moveFin, List.mem_cons, forall_eq_or_imp]
    exact ⟨hl l (by simp), ih (i + 1) fun l hm => hl l (by simp [hm])⟩

theorem randomLayers_seeded (e e' : Rng R V) (h : SameButEntropy e e') (c : Cfg V) (k : ℕ) : ∀ (i : ℕ) (r : R) (m m' : ℕ),
    (randomLayers e c k i (some r) m).2.1.isSome ∧ (randomLayers e c k i (some r) m).2.1 = (randomLayers e' c k i (some r) m').2.1
      ∧ (randomLayers e c k i (some r) m).1 = (randomLayers e' c k i (some r) m').1 := by
  induction k with
  | zero => intro i r m m'; simp [randomLayers]
  | succ k ih =>
    intro i r m m'
    simp only [randomLayers, drawWith, h.1]
    obtain ⟨h1, h2, h3⟩ := ih (i + 1) (e'.draw (.random i) r).2 m m'
    exact ⟨h1, h2, by rw [h3]⟩

theorem randomScrns_eq (e e' : Rng R V) (h : SameButEntropy e e') (c : Cfg V) (a a' : Atm R V) (ha : AtmEq a a') :
    AtmEq (randomScrns e c a).1 (randomScrns e' c a').1 ∧ (randomScrns e c a).2 = (randomScrns e' c a').2 := by
  obtain ⟨g1, g2, g3, g4⟩ := ha
  obtain ⟨r, hr⟩ := Option.isSome_iff_exists.mp g1
  have := randomLayers_seeded e e' h c c.scrnNo 0 r a.made a'.made
  simp only [randomScrns, AtmEq, ← g2, hr]
  exact ⟨⟨this.1, this.2.1, g3, g4⟩, this.2.2⟩

theorem moveScrns_eq (e e' : Rng R V) (h : SameButEntropy e e') (c : Cfg V) (a a' : Atm R V) (ha : AtmEq a a') :
    AtmEq (moveScrns e c a).1 (moveScrns e' c a').1 ∧ (moveScrns e c a).2 = (moveScrns e' c a').2 := by
  unfold moveScrns
  split
  · exact randomScrns_eq e e' h c a a' ha
  · obtain ⟨g1, g2, g3, g4⟩ := ha
    obtain ⟨r, hr⟩ := Option.isSome_iff_exists.mp g1
    split
    · obtain ⟨k1, k2, k3⟩ := moveInf_seeded e e' h c a.layers 0 r g4
      simp only [AtmEq, ← g2, ← g3, hr]
      exact ⟨⟨k2, by rw [k1], by rw [k1], k3⟩, by rw [k1]⟩
    · simp only [AtmEq, ← g3]
      exact ⟨⟨g1, g2, trivial, moveFin_own c a.layers 0 g4⟩, trivial⟩

theorem learnFrames_eq (e e' : Rng R V) (h : SameButEntropy e e') (c : Cfg V) (y : Sys S V N G O) (hq : y.noisy = false) (k : ℕ) : ∀ (w w' : Sim R V S G), AtmEq w.atm w'.atm → w.sys = w'.sys →
    AtmEq (learnFrames e c y k w).atm (learnFrames e' c y k w').atm ∧ (learnFrames e c y k w).sys = (learnFrames e' c y k w').sys := by
  induction k with
  | zero => intro w w' ha hs; exact ⟨ha, hs⟩
  | succ k ih =>
    intro w w' ha hs
    simp only [learnFrames]
    have hm : AtmEq (if y.learnRandom then randomScrns e c w.atm else moveScrns e c w.atm).1 (if y.learnRandom then randomScrns e' c w'.atm else moveScrns e' c w'.atm).1 ∧
        (if y.learnRandom then randomScrns e c w.atm else moveScrns e c w.atm).2 = (if y.learnRandom then randomScrns e' c w'.atm else moveScrns e' c w'.atm).2 := by
      split
      · exact randomScrns_eq e e' h c _ _ ha
      · exact moveScrns_eq e e' h c _ _ ha
    apply ih
    · exact hm.1
    · simp [noiseOf, hq, hs, hm.2]

/-- **C99 (seed given, no sensor noise).** Two runs of one program with the same seed show the same turbulence and record the same, whatever the entropy of the processes, the state of numpy's global generator,
and the random numbers drawn before. -/
theorem C99_same_seed_same_run (e e' : Rng R V) (h : SameButEntropy e e') (c : Cfg V) (hs : c.seed.isSome) (y : Sys S V N G O) (hq : y.noisy = false) (m m' : ℕ) (g g' : G) (s : S) (prog : List Op) :
    (run e c y prog (start e c m g s)).2 = (run e' c y prog (start e' c m' g' s)).2 := by
  have main : ∀ (w w' : Sim R V S G), AtmEq w.atm w'.atm → w.sys = w'.sys → (run e c y prog w).2 = (run e' c y prog w').2 := by
    induction prog with
    | nil => intros; rfl
    | cons o os ih =>
      intro w w' ha hy
      simp only [run]
      cases o with
      | frame =>
        have hm := moveScrns_eq e e' h c _ _ ha
        simp only [step, noiseOf, hq, hm.2, hy]
        congr 1
        exact ih _ _ hm.1 rfl
      | reset =>
        simp only [step, hy]
        congr 1
        exact ih _ _ ha rfl
      | calibrate new =>
        cases new
        · simp only [step, hy]
          congr 1
          exact ih _ _ ha rfl
        · simp only [step, noiseOf, hq, Bool.false_and, hy]
          congr 1
          split
          · have := learnFrames_eq (G := G) e e' h c y hq y.learnIters ⟨w.atm, w.glob, y.poke w'.sys y.quiet⟩ ⟨w'.atm, w'.glob, y.poke w'.sys y.quiet⟩ ha rfl
            exact ih _ _ this.1 (congrArg y.finish this.2)
          · exact ih _ _ ha rfl
  exact main _ _ (atmInit_eq e e' h c hs m m') rfl

/-- The layers of a new atmosphere without a seed: every one draws from a generator nobody has used before. -/
theorem initLayers_unseeded (e : Rng R V) (c : Cfg V) (k : ℕ) : ∀ (i m : ℕ), (initLayers e c k i none m).2.2 = m + k ∧ (initLayers e c k i none m).2.1 = none ∧
    (initLayers e c k i none m).1.map Prod.fst = (List.range k).map fun j => (e.draw (if c.infinite then .start (i + j) else .whole (i + j)) (e.entropy (m + j))).1 := by
  induction k with
  | zero => intro i m; simp [initLayers]
  | succ k ih =>
    intro i m
    obtain ⟨h1, h2, h3⟩ := ih (i + 1) (m + 1)
    by_cases hi : c.infinite
    · simp only [initLayers, hi, if_true, List.map_cons, h1, h2, h3, List.range_succ_eq_map, List.map_map]
      refine ⟨by omega, trivial, ?_⟩
      simp [Function.comp_def, Nat.add_assoc, Nat.add_comm 1]
    · simp only [initLayers, hi, drawWith, List.map_cons, List.range_succ_eq_map, List.map_map]
      refine ⟨by simp only [Bool.false_eq_true, if_false]; omega, by simp [h2], ?_⟩
      simp [h3, hi, Function.comp_def, Nat.add_assoc, Nat.add_comm 1]

/-- **C99 (no seed).** Without a seed, the layers of two simulations made one after the other in a process all come from different calls for entropy: layer `j` of the first from number `m + j`, of the second from `m + n + j`. -/
theorem C99_unseeded (e : Rng R V) (c : Cfg V) (hs : c.seed = none) (m : ℕ) :
    (atmInit e c m).layers.map Prod.fst = ((List.range c.scrnNo).map fun j => (e.draw (if c.infinite then .start j else .whole j) (e.entropy (m + j))).1) ∧
    (atmInit e c (atmInit e c m).made).layers.map Prod.fst = ((List.range c.scrnNo).map fun j => (e.draw (if c.infinite then .start j else .whole j) (e.entropy (m + c.scrnNo + j))).1) := by
  constructor
  · simpa [atmInit, hs] using (initLayers_unseeded e c c.scrnNo 0 m).2.2
  · have h := (initLayers_unseeded e c c.scrnNo 0 (m + c.scrnNo)).2.2
    simpa [atmInit, hs, (initLayers_unseeded e c c.scrnNo 0 m).1] using h

/-- **C99 (reset).** A reset puts the rest of the system back and leaves the atmosphere and the random numbers where they are: the frames after it are those of a system put back, on the turbulence that follows. -/
theorem C99_reset (e : Rng R V) (c : Cfg V) (y : Sys S V N G O) (p q : List Op) : ∀ w : Sim R V S G,
    (run e c y (p ++ .reset :: q) w).2 = (run e c y p w).2 ++ (run e c y q ⟨(run e c y p w).1.atm, (run e c y p w).1.glob, y.reset (run e c y p w).1.sys⟩).2 := by
  induction p with
  | nil => intro w; simp [run, step]
  | cons o os ih => intro w; simp [run, ih]

/-- Number of frames of a program. -/
def frames (prog : List Op) : ℕ := prog.count .frame

/-- **C100 (nothing learnt).** If the program makes no new tomographic reconstructor, its turbulence is that of the atmosphere alone, moved once per frame: calibrations, resets, sensors, mirrors, and noise have no effect on it. -/
theorem C100_turbulence_alone (e : Rng R V) (c : Cfg V) (y : Sys S V N G O) (prog : List Op) (hl : y.learns = false ∨ Op.calibrate true ∉ prog) : ∀ w : Sim R V S G,
    (run e c y prog w).2.map Prod.fst = turb e c (frames prog) w.atm := by
  induction prog with
  | nil => intro w; rfl
  | cons o os ih =>
    have ih := ih (hl.imp id fun h hm => h (by simp [hm]))
    intro w
    cases o with
    | frame => simp [run, step, frames, turb, ih]
    | reset => simp [run, step, frames, ih]
    | calibrate new =>
      cases new
      · simp [run, step, frames, ih]
      · rcases hl with hl | hl
        · simp [run, step, frames, ih, hl]
        · simp at hl

theorem turb_layers (e : Rng R V) (c : Cfg V) (hi : c.infinite = false) (hr : c.randomScrns = false) (n : ℕ) : ∀ a a' : Atm R V, a.layers = a'.layers → turb e c n a = turb e c n a' := by
  induction n with
  | zero => intros; rfl
  | succ n ih =>
    intro a a' h
    simp only [turb, moveScrns, hi, hr, Bool.false_eq_true, if_false, h]
    congr 1
    exact ih _ _ rfl

theorem learnFrames_layers (e : Rng R V) (c : Cfg V) (y : Sys S V N G O) (hy : y.learnRandom = true) (k : ℕ) : ∀ w : Sim R V S G, (learnFrames e c y k w).atm.layers = w.atm.layers := by
  induction k with
  | zero => intro w; rfl
  | succ k ih => intro w; simp only [learnFrames, hy, if_true]; rw [ih]; rfl

/-- **C100 (finite screens, learning on random screens).** Also when tomographic reconstructors are made, with the default `learnAtmos`. -/
theorem C100_finite_learning (e : Rng R V) (c : Cfg V) (hi : c.infinite = false) (hr : c.randomScrns = false) (y : Sys S V N G O) (hy : y.learnRandom = true) (prog : List Op) : ∀ w : Sim R V S G,
    (run e c y prog w).2.map Prod.fst = turb e c (frames prog) w.atm := by
  induction prog with
  | nil => intro w; rfl
  | cons o os ih =>
    intro w
    cases o with
    | frame => simp [run, step, frames, turb, ih]
    | reset => simp [run, step, frames, ih]
    | calibrate new =>
      cases new
      · simp [run, step, frames, ih]
      · simp only [run, step, List.nil_append, ih, frames]
        rw [List.count_cons_of_ne (by simp)]
        apply turb_layers e c hi hr
        split
        · rw [learnFrames_layers e c y hy]
        · rfl

/-- **C100 for two systems**: the same seed gives the same turbulence to any two systems, whatever they are made of, their noise and their programs, as long as these have as many frames and do not learn (or the screens are finite and learning is on random screens). -/
theorem C100_same_seed_same_turbulence {S' N' G' O' : Type} (e e' : Rng R V) (h : SameButEntropy e e') (c : Cfg V) (hs : c.seed.isSome) (y : Sys S V N G O) (y' : Sys S' V N' G' O') (m m' : ℕ) (g : G) (g' : G') (s : S) (s' : S')
    (prog prog' : List Op) (hf : frames prog = frames prog')
    (hl : (y.learns = false ∨ Op.calibrate true ∉ prog) ∨ (c.infinite = false ∧ c.randomScrns = false ∧ y.learnRandom = true))
    (hl' : (y'.learns = false ∨ Op.calibrate true ∉ prog') ∨ (c.infinite = false ∧ c.randomScrns = false ∧ y'.learnRandom = true)) :
    (run e c y prog (start e c m g s)).2.map Prod.fst = (run e' c y' prog' (start e' c m' g' s')).2.map Prod.fst := by
  have e1 : (run e c y prog (start e c m g s)).2.map Prod.fst = turb e c (frames prog) (atmInit e c m) := by
    rcases hl with hl | ⟨h1, h2, h3⟩
    · exact C100_turbulence_alone e c y prog hl _
    · exact C100_finite_learning e c h1 h2 y h3 prog _
  have e2 : (run e' c y' prog' (start e' c m' g' s')).2.map Prod.fst = turb e' c (frames prog') (atmInit e' c m') := by
    rcases hl' with hl | ⟨h1, h2, h3⟩
    · exact C100_turbulence_alone e' c y' prog' hl _
    · exact C100_finite_learning e' c h1 h2 y' h3 prog' _
  have e3 : ∀ (n : ℕ) (a a' : Atm R V), AtmEq a a' → turb e c n a = turb e' c n a' := by
    intro n
    induction n with
    | zero => intros; rfl
    | succ n ih =>
      intro a a' ha
      have hm := moveScrns_eq e e' h c a a' ha
      simp only [turb, hm.2, ih _ _ hm.1]
  rw [e1, e2, hf]
  exact e3 _ _ _ (atmInit_eq e e' h c hs m m')

theorem initLayers_take (e : Rng R V) (c c' : Cfg V) (hi : c.infinite = c'.infinite) (k j : ℕ) : ∀ (i : ℕ) (g : Option R) (m : ℕ), (initLayers e c (k + j) i g m).1.take k = (initLayers e c' k i g m).1 := by
  induction k with
  | zero => intro i g m; simp [initLayers]
  | succ k ih =>
    intro i g m
    rw [show k + 1 + j = k + j + 1 by omega]
    simp only [initLayers, hi]
    split
    · cases g <;> simp [ih]
    · simp [ih]

theorem moveFin_take (c c' : Cfg V) (hs : c.stepFin = c'.stepFin) (ls : List (V × Option R)) : ∀ (k i : ℕ), (moveFin c i ls).1.take k = (moveFin c' i (ls.take k)).1 ∧ (moveFin c i ls).2.take k = (moveFin c' i (ls.take k)).2 := by
  induction ls with
  | nil => intro k i; simp [moveFin]
  | cons l ls ih =>
    intro k i
    cases k with
    | zero => simp [moveFin]
    | succ k => simp [moveFin, hs, ih k (i + 1)]

/-- **C100 (fewer layers).** With finite screens, leaving out the last layers leaves the screens of the others as they were: the first `k` layers of `k + j` are what `k` layers are with the same seed.
(`stepFin` holds the scaling to the strength of the layer, so equal here means equal strengths.) -/
theorem C100_first_layers (e : Rng R V) (c : Cfg V) (hi : c.infinite = false) (hr : c.randomScrns = false) (k j m n : ℕ) :
    (turb e { c with scrnNo := k + j } n (atmInit e { c with scrnNo := k + j } m)).map (List.take k) = turb e { c with scrnNo := k } n (atmInit e { c with scrnNo := k } m) := by
  have main : ∀ (c c' : Cfg V), c.infinite = false → c'.infinite = false → c.randomScrns = false → c'.randomScrns = false → c.stepFin = c'.stepFin → ∀ a a' : Atm R V, a.layers.take k = a'.layers →
      (turb e c n a).map (List.take k) = turb e c' n a' := by
    intro c c' i1 i2 r1 r2 hs
    induction n with
    | zero => intros; rfl
    | succ n ih =>
      intro a a' h
      have hm := moveFin_take (R := R) c c' hs a.layers k 0
      simp only [turb, moveScrns, i1, i2, r1, r2, Bool.false_eq_true, if_false, List.map_cons]
      rw [hm.2, h]
      congr 1
      apply ih
      simp only
      rw [hm.1, h]
  refine main { c with scrnNo := k + j } { c with scrnNo := k } hi hi hr hr rfl _ _ ?_
  exact initLayers_take e { c with scrnNo := k + j } { c with scrnNo := k } rfl k j 0 (c.seed.map e.seeded) m

/-- A moved atmosphere. -/
def movedBy (e : Rng R V) (c : Cfg V) : ℕ → Atm R V → Atm R V
  | 0, a => a
  | n + 1, a => movedBy e c n (moveScrns e c a).1

theorem turb_drop (e : Rng R V) (c : Cfg V) (k n : ℕ) : ∀ a : Atm R V, turb e c n (movedBy e c k a) = (turb e c (k + n) a).drop k := by
  induction k with
  | zero => intro a; simp [movedBy]
  | succ k ih =>
    intro a
    simp only [movedBy, ih]
    rw [show k + 1 + n = (k + n) + 1 by omega]
    simp [turb]

theorem learnFrames_moved (e : Rng R V) (c : Cfg V) (y : Sys S V N G O) (hy : y.learnRandom = false) (k : ℕ) : ∀ w : Sim R V S G, (learnFrames e c y k w).atm = movedBy e c k w.atm := by
  induction k with
  | zero => intro w; rfl
  | succ k ih => intro w; simp only [learnFrames, hy, Bool.false_eq_true, if_false]; rw [ih]; rfl

/-- **What happens otherwise**: with another `learnAtmos` a newly made reconstructor uses up the first `learnIters` frames of the turbulence, so a run that makes it and a run that loads it are `learnIters` frames apart. -/
theorem C100_learning_shifts (e : Rng R V) (c : Cfg V) (y : Sys S V N G O) (hl : y.learns = true) (hy : y.learnRandom = false) (n : ℕ) (w : Sim R V S G) :
    (run e c y (.calibrate true :: List.replicate n .frame) w).2.map Prod.fst = (turb e c (y.learnIters + n) w.atm).drop y.learnIters ∧
    (run e c y (.calibrate false :: List.replicate n .frame) w).2.map Prod.fst = turb e c n w.atm := by
  have hc : Op.calibrate true ∉ List.replicate n Op.frame := by simp [List.mem_replicate]
  have hn : frames (List.replicate n Op.frame) = n := by simp [frames]
  constructor
  · simp only [run, step, List.nil_append]
    rw [C100_turbulence_alone e c y _ (.inr hc), hn]
    simp only [hl, if_true]
    rw [learnFrames_moved e c y hy, turb_drop]
  · rw [C100_turbulence_alone e c y _ (.inr (by simp)), frames, List.count_cons_of_ne (by simp)]
    simp

/-- A generator that counts and an atmosphere of numbers, for examples. -/
def countRng (ent : ℕ) : Rng ℕ ℕ := ⟨fun _ r => (r, r + 1), fun s => s, fun n => 10 * (n + ent)⟩

/-- One layer. -/
def countCfg (infinite : Bool) : Cfg ℕ := ⟨infinite, false, 2, some 7, fun _ v => (v + 1, v), fun _ _ => 1, fun _ _ r => r, fun _ v => v, fun _ v => v⟩

/-- A system that records the noise of its sensor. -/
def countSys (noisy learns random : Bool) : Sys Unit ℕ ℕ ℕ (List ℕ × ℕ) := ⟨noisy, true, learns, random, 3, fun _ g => (g, g + 1), 0, fun _ _ => (), id, fun _ _ _ => (), id, fun _ s n => ((), s, n), id⟩

/-- **C99 is violated with sensor noise**: the seed does not reach numpy's global generator, so the measurements of the same program with the same seed differ. -/
theorem C99_violated : ∃ (e : Rng ℕ ℕ) (c : Cfg ℕ) (y : Sys Unit ℕ ℕ ℕ (List ℕ × ℕ)) (g g' : ℕ), c.seed.isSome ∧
    (run e c y [.calibrate true, .frame] (start e c 0 g ())).2 ≠ (run e c y [.calibrate true, .frame] (start e c 0 g' ())).2 :=
  ⟨countRng 0, countCfg false, countSys true false true, 0, 1, rfl, by decide⟩

/-- **C100 is violated for infinite screens with a learning reconstructor**: with the same seed, a run that makes its reconstructor sees other turbulence than a run that loads it from disk. -/
theorem C100_violated : ∃ (e : Rng ℕ ℕ) (c : Cfg ℕ) (y : Sys Unit ℕ ℕ ℕ (List ℕ × ℕ)), c.seed.isSome ∧ c.infinite ∧ y.learnRandom ∧
    (run e c y [.calibrate true, .frame] (start e c 0 0 ())).2.map Prod.fst ≠ (run e c y [.calibrate false, .frame] (start e c 0 0 ())).2.map Prod.fst :=
  ⟨countRng 0, countCfg true, countSys false true true, rfl, rfl, rfl, by decide⟩

/-- Not vacuous: two processes with other entropy, infinite screens; the runs are equal and show turbulence that changes. -/
example : (run (countRng 5) (countCfg true) (countSys false false true) [.calibrate true, .frame, .reset, .frame] (start (countRng 5) (countCfg true) 0 0 ())).2
      = (run (countRng 8) (countCfg true) (countSys false false true) [.calibrate true, .frame, .reset, .frame] (start (countRng 8) (countCfg true) 3 9 ())).2
    ∧ (run (countRng 5) (countCfg true) (countSys false false true) [.calibrate true, .frame, .reset, .frame] (start (countRng 5) (countCfg true) 0 0 ())).2.map Prod.fst = [[9, 10], [11, 12]] :=
  ⟨C99_same_seed_same_run _ _ ⟨rfl, rfl⟩ _ rfl _ rfl _ _ _ _ _ _, by decide⟩

/-- Without a seed the runs of the two processes differ. -/
example : (run (countRng 5) { countCfg true with seed := none } (countSys false false true) [.frame] (start (countRng 5) { countCfg true with seed := none } 0 0 ())).2
      ≠ (run (countRng 8) { countCfg true with seed := none } (countSys false false true) [.frame] (start (countRng 8) { countCfg true with seed := none } 0 0 ())).2 := by decide

/-- The hypotheses for two systems: one noisy that makes its reconstructor, one that loads it, on finite screens. -/
example : (run (countRng 5) (countCfg false) (countSys true true true) [.calibrate true, .frame, .frame] (start (countRng 5) (countCfg false) 0 0 ())).2.map Prod.fst
      = (run (countRng 8) (countCfg false) (countSys false true true) [.calibrate false, .frame, .reset, .frame] (start (countRng 8) (countCfg false) 3 9 ())).2.map Prod.fst :=
  C100_same_seed_same_turbulence (countRng 5) (countRng 8) ⟨rfl, rfl⟩ (countCfg false) rfl (countSys true true true) (countSys false true true) 0 3 0 9 () ()
    [.calibrate true, .frame, .frame] [.calibrate false, .frame, .reset, .frame] (by decide) (.inr ⟨rfl, rfl, rfl⟩) (.inl (.inr (by decide)))

/-- No seed: two simulations of a process, two layers each, four calls for entropy. -/
example : (atmInit (countRng 0) { countCfg false with seed := none } 1).layers.map Prod.fst = [10, 20] ∧ (atmInit (countRng 0) { countCfg false with seed := none } (atmInit (countRng 0) { countCfg false with seed := none } 1).made).layers.map Prod.fst = [30, 40] := by decide

/-- Three layers of which the last is left out. -/
example : (turb (countRng 0) { countCfg false with scrnNo := 2 + 1 } 2 (atmInit (countRng 0) { countCfg false with scrnNo := 2 + 1 } 0)) = [[7, 8, 9], [8, 9, 10]] ∧
    (turb (countRng 0) { countCfg false with scrnNo := 2 } 2 (atmInit (countRng 0) { countCfg false with scrnNo := 2 } 0)) = [[7, 8], [8, 9]] := by decide

end Soapy.Props
