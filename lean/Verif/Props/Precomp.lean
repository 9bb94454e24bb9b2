/-
Property theorems C152: a precompensated laser goes up through the mirrors as they are.
-/
import Verif.Model.Precomp
import Verif.Props.UpDown

namespace Soapy.Props

open Soapy.Precomp

variable {C : Type}

/-- What the user asks for: outside calibrations the laser of a sensor with uplink goes up through what is removed from its returning light if it is precompensated, and through no mirror otherwise.  In calibrations, and without uplink, there is no
laser going up. -/
def Launched (c : Precomp.Cfg) (op : Op C) (x : Shown C) : Prop :=
  match op with
  | .calibrate _ _ => x.launched = none
  | _ => x.launched = if c.uplink then some (if c.precompensated then x.removed else none) else none

/-- Frames without a correction come only before the first frame with one (`given` says that there was one), counted from the last initialisation. -/
def NoneAfter : Bool → List (Op C) → Prop
  | _, [] => True
  | _, .aoinit _ :: ops => NoneAfter false ops
  | given, .learn :: ops => given = false ∧ NoneAfter given ops
  | given, .calibrate _ vs :: ops => NoneAfter (given || !vs.isEmpty) ops
  | _, .loop _ :: ops => NoneAfter true ops
  | _, .call _ :: ops => NoneAfter true ops
  | given, .reset :: ops => NoneAfter given ops
  | given, .make _ :: ops => NoneAfter given ops
  | given, .change _ _ :: ops => NoneAfter given ops

private theorem frame_given (c : Precomp.Cfg) (he : c.elongated = false) (s t : State C) (r : ℕ) (imat : Bool) (x : Shown C) (h : Precomp.frame c s (some r) imat = .ok (t, x)) :
    t = (if c.precompensated then { s with pre := some r } else s) ∧ (c.precompensated = true → c.uplink = true) ∧ x.removed = some (s.mem r) ∧
      x.launched = if c.uplink && !imat then some (if c.precompensated then some (s.mem r) else s.pre.map s.mem) else none := by
  unfold Precomp.frame at h
  cases hp : c.precompensated <;> cases hu : c.uplink <;> simp [he, hp, hu] at h <;> obtain ⟨rfl, rfl⟩ := h <;> simp

private theorem frame_none (c : Precomp.Cfg) (s t : State C) (imat : Bool) (x : Shown C) (h : Precomp.frame c s none imat = .ok (t, x)) :
    t = s ∧ x.removed = none ∧ x.launched = if c.uplink && !imat then some (s.pre.map s.mem) else none := by
  unfold Precomp.frame at h
  cases he : c.elongated <;> simp [he] at h <;> obtain ⟨rfl, rfl⟩ := h <;> simp

private theorem frame_elongated (c : Precomp.Cfg) (he : c.elongated = true) (s t : State C) (r : Option ℕ) (imat : Bool) (x : Shown C) (h : Precomp.frame c s r imat = .ok (t, x)) :
    t = s ∧ x.removed = r.map s.mem ∧ x.launched = if c.uplink && !imat then some (s.pre.map s.mem) else none := by
  unfold Precomp.frame at h
  simp [he] at h
  obtain ⟨rfl, rfl⟩ := h
  simp

private theorem map_ok {α β : Type} {f : α → β} {e : Except PyErr α} {b : β} (h : e.map f = .ok b) : ∃ a, e = .ok a ∧ f a = b := by
  cases e with
  | error x => cases h
  | ok a => exact ⟨a, rfl, by simpa [Except.map] using h⟩

/-- What pokes do: no laser goes up, and afterwards the laser has the array of the pokes, if there were any, which holds the last one. -/
private theorem pokes_spec (c : Precomp.Cfg) (he : c.elongated = false) (r : ℕ) : ∀ (vs : List C) (s t : State C) (os : List (Shown C)), pokes c r s vs = .ok (t, os) →
    (∀ x ∈ os, x.launched = none) ∧ t.closed = s.closed ∧ t.size = s.size ∧ t.pre = (if c.precompensated && !vs.isEmpty then some r else s.pre) ∧ (∀ v, vs.getLast? = some v → t.mem r = v) ∧ ∀ q, q ≠ r → t.mem q = s.mem q
  | [], s, t, os, h => by
    simp only [pokes, Except.ok.injEq, Prod.mk.injEq] at h
    obtain ⟨rfl, rfl⟩ := h
    simp
  | v :: vs, s, t, os, h => by
    rw [pokes] at h
    cases h1 : Precomp.frame c (write s r v) (some r) true with
    | error e => simp [h1] at h
    | ok p =>
      obtain ⟨s1, x⟩ := p
      simp only [h1] at h
      cases h2 : pokes c r s1 vs with
      | error e => simp [h2] at h
      | ok p2 =>
        obtain ⟨s2, xs⟩ := p2
        simp only [h2, Except.ok.injEq, Prod.mk.injEq] at h
        obtain ⟨rfl, rfl⟩ := h
        obtain ⟨e1, _, _, hl⟩ := frame_given c he _ _ _ _ _ h1
        obtain ⟨i1, i2, i3, i4, i5, i6⟩ := pokes_spec c he r vs s1 s2 xs h2
        have m1 : s1.mem = (write s r v).mem ∧ s1.closed = s.closed ∧ s1.size = s.size ∧ s1.pre = if c.precompensated then some r else s.pre := by
          rw [e1]; cases c.precompensated <;> simp [write]
        refine ⟨?_, by rw [i2, m1.2.1], by rw [i3, m1.2.2.1], ?_, ?_, ?_⟩
        · intro y hy
          rcases List.mem_cons.mp hy with rfl | hy
          · simpa using hl
          · exact i1 y hy
        · rw [i4, m1.2.2.2]
          cases c.precompensated <;> cases vs <;> simp
        · intro w hw
          cases vs with
          | nil =>
            simp only [List.getLast?_singleton, Option.some.injEq] at hw
            simp only [pokes, Except.ok.injEq, Prod.mk.injEq] at h2
            rw [← h2.1, m1.1, ← hw]
            simp [write]
          | cons u us => exact i5 w (by rw [← hw]; simp [List.getLast?_cons])
        · intro q hq
          rw [i6 q hq, m1.1]
          simp [write, hq]

/-- **C152 (exactly when).** Sensor without elongation whose laser is precompensated, any sequence of calibrations, loop frames, resets, initialisations, frames without a correction and frames run by a script with arrays it makes and changes at will:
in all frames the laser goes up through what is removed from the returning light, if and only if no frame without a correction follows one with a correction. -/
theorem C152_exact (c : Precomp.Cfg) (he : c.elongated = false) (hp : c.precompensated = true) (hu : c.uplink = true) : ∀ (ops : List (Op C)) (s t : State C) (os : List (List (Shown C))), run c s ops = .ok (t, os) →
    (List.Forall₂ (fun op o => ∀ x ∈ o, Launched c op x) ops os ↔ NoneAfter s.pre.isSome ops)
  | [], s, t, os, h => by
    simp only [run, Except.ok.injEq, Prod.mk.injEq] at h
    rw [← h.2]
    simp [NoneAfter]
  | op :: ops, s, t, os, h => by
    rw [run] at h
    cases h1 : step c s op with
    | error e => simp [h1] at h
    | ok p =>
      obtain ⟨s1, o⟩ := p
      simp only [h1] at h
      cases h2 : run c s1 ops with
      | error e => simp [h2] at h
      | ok p2 =>
        obtain ⟨s2, os'⟩ := p2
        simp only [h2, Except.ok.injEq, Prod.mk.injEq] at h
        obtain ⟨rfl, rfl⟩ := h
        have ih := C152_exact c he hp hu ops s1 s2 os' h2
        rw [List.forall₂_cons, ih]
        cases op with
        | aoinit z =>
          simp only [step, Except.ok.injEq, Prod.mk.injEq] at h1
          obtain ⟨rfl, rfl⟩ := h1
          simp [NoneAfter, Precomp.aoinit, alloc]
        | calibrate z vs =>
          simp only [step] at h1
          obtain ⟨j1, _, _, j4, _⟩ := pokes_spec c he _ vs _ _ _ h1
          have : s1.pre.isSome = (s.pre.isSome || !vs.isEmpty) := by
            rw [j4, hp]
            cases vs <;> simp [alloc]
          rw [this]
          simp only [NoneAfter, Launched]
          exact ⟨fun h => h.2, fun h => ⟨j1, h⟩⟩
        | learn =>
          obtain ⟨⟨s', x⟩, hf, e⟩ := map_ok h1
          simp only [Prod.mk.injEq] at e
          obtain ⟨rfl, rfl⟩ := e
          obtain ⟨rfl, hr, hl⟩ := frame_none c _ _ _ _ hf
          simp only [NoneAfter, Launched, List.mem_singleton, forall_eq, hl, hr, hu, hp]
          cases s'.pre <;> simp
        | loop v =>
          obtain ⟨⟨s', x⟩, hf, e⟩ := map_ok h1
          simp only [Prod.mk.injEq] at e
          obtain ⟨rfl, rfl⟩ := e
          obtain ⟨e1, _, hr, hl⟩ := frame_given c he _ _ _ _ _ hf
          simp only [NoneAfter, Launched, List.mem_singleton, forall_eq, hl, hr, hu, hp, e1]
          simp
        | reset =>
          simp only [step, Except.ok.injEq, Prod.mk.injEq] at h1
          obtain ⟨rfl, rfl⟩ := h1
          simp [NoneAfter]
        | make v =>
          simp only [step, Except.ok.injEq, Prod.mk.injEq] at h1
          obtain ⟨rfl, rfl⟩ := h1
          simp [NoneAfter, alloc]
        | change r v =>
          simp only [step, Except.ok.injEq, Prod.mk.injEq] at h1
          obtain ⟨rfl, rfl⟩ := h1
          simp [NoneAfter, write]
        | call r =>
          obtain ⟨⟨s', x⟩, hf, e⟩ := map_ok h1
          simp only [Prod.mk.injEq] at e
          obtain ⟨rfl, rfl⟩ := e
          obtain ⟨e1, _, hr, hl⟩ := frame_given c he _ _ _ _ _ hf
          simp only [NoneAfter, Launched, List.mem_singleton, forall_eq, hl, hr, hu, hp, e1]
          simp

/-- **C152 (partial: sensors without elongation, frames with a correction).** In every frame of the loop, whatever was done before (calibrations, learning, resets, other use of the sensor), the laser goes up through the shape that the closed-loop mirrors have in
this frame if it is precompensated, and through no mirror if it is not; and this shape is removed from the returning light.
Missing: frames without a correction (`C152_exact`, `C152_learn`) and elongated beacons (`C152_elongated`). -/
theorem C152_loop_partial (c : Precomp.Cfg) (he : c.elongated = false) : ∀ (ops : List (Op C)) (s t : State C), (c.precompensated = false → s.pre = none) → ∀ os, run c s ops = .ok (t, os) →
    List.Forall₂ (fun op o => ∀ v, op = .loop v → ∃ x, o = [x] ∧ x.removed = some v ∧ x.launched = if c.uplink then some (if c.precompensated then some v else none) else none) ops os
  | [], s, t, _, os, h => by
    simp only [run, Except.ok.injEq, Prod.mk.injEq] at h
    rw [← h.2]
    exact .nil
  | op :: ops, s, t, hs, os, h => by
    rw [run] at h
    cases h1 : step c s op with
    | error e => simp [h1] at h
    | ok p =>
      obtain ⟨s1, o⟩ := p
      simp only [h1] at h
      cases h2 : run c s1 ops with
      | error e => simp [h2] at h
      | ok p2 =>
        obtain ⟨s2, os'⟩ := p2
        simp only [h2, Except.ok.injEq, Prod.mk.injEq] at h
        obtain ⟨rfl, rfl⟩ := h
        have keep : c.precompensated = false → s1.pre = none := by
          intro hp
          cases op with
          | aoinit z =>
            simp only [step, Except.ok.injEq, Prod.mk.injEq] at h1
            rw [← h1.1]; rfl
          | calibrate z vs =>
            simp only [step] at h1
            obtain ⟨_, _, _, j4, _⟩ := pokes_spec c he _ vs _ _ _ h1
            rw [j4, hp]; simpa [alloc] using hs hp
          | learn =>
            obtain ⟨⟨s', x⟩, hf, e⟩ := map_ok h1
            simp only [Prod.mk.injEq] at e
            rw [← e.1, (frame_none c _ _ _ _ hf).1]; exact hs hp
          | loop v =>
            obtain ⟨⟨s', x⟩, hf, e⟩ := map_ok h1
            simp only [Prod.mk.injEq] at e
            rw [← e.1, (frame_given c he _ _ _ _ _ hf).1]; simpa [hp, write] using hs hp
          | reset =>
            simp only [step, Except.ok.injEq, Prod.mk.injEq] at h1
            rw [← h1.1]; exact hs hp
          | make v =>
            simp only [step, Except.ok.injEq, Prod.mk.injEq] at h1
            rw [← h1.1]; exact hs hp
          | change r v =>
            simp only [step, Except.ok.injEq, Prod.mk.injEq] at h1
            rw [← h1.1]; exact hs hp
          | call r =>
            obtain ⟨⟨s', x⟩, hf, e⟩ := map_ok h1
            simp only [Prod.mk.injEq] at e
            rw [← e.1, (frame_given c he _ _ _ _ _ hf).1]; simpa [hp] using hs hp
        refine .cons ?_ (C152_loop_partial c he ops s1 s2 keep os' h2)
        rintro v rfl
        obtain ⟨⟨s', x⟩, hf, e⟩ := map_ok h1
        simp only [Prod.mk.injEq] at e
        obtain ⟨rfl, rfl⟩ := e
        obtain ⟨e1, _, hr, hl⟩ := frame_given c he _ _ _ _ _ hf
        refine ⟨x, rfl, by rw [hr]; simp [write], ?_⟩
        rw [hl]
        cases hp : c.precompensated
        · simp [write, hs hp]
        · simp [write]

/-- A simulation that has just been initialised, with correction 0. -/
def started : State ℕ := Precomp.aoinit ⟨fun _ => 0, 0, 0, none⟩ 0

/-- Calibrated with two pokes, two frames of the loop, a reset and another frame: the laser goes up through the shapes of the loop, never through a poke. -/
example : (run ⟨true, true, false⟩ started [.calibrate 0 [1, 2], .loop 5, .loop 6, .reset, .loop 7]).map (fun x => x.2) =
    .ok [[⟨some 1, none⟩, ⟨some 2, none⟩], [⟨some 5, some (some 5)⟩], [⟨some 6, some (some 6)⟩], [], [⟨some 7, some (some 7)⟩]] := by decide +kernel

/-- Learning before the calibration is among what is allowed. -/
example : NoneAfter started.pre.isSome [.learn, .calibrate 0 [1, 2], .loop 5] := by simp [NoneAfter, started, Precomp.aoinit, alloc]

/-- **C152 is violated by learning after a calibration** (the order of `LearnAndApply`): in every frame of the learning the laser goes up through the last poke, although nothing is removed from the returning light.  All numbers of pokes and learning frames. -/
theorem C152_learn (c : Precomp.Cfg) (he : c.elongated = false) (hp : c.precompensated = true) (s t : State C) (z v : C) (vs : List C) (n : ℕ) (os : List (List (Shown C)))
    (h : run c s (.calibrate z (vs ++ [v]) :: List.replicate n .learn) = .ok (t, os)) : os.tail = List.replicate n [⟨none, some (some v)⟩] := by
  rw [run] at h
  cases h1 : step c s (.calibrate z (vs ++ [v])) with
  | error e => simp [h1] at h
  | ok p =>
    obtain ⟨s1, o⟩ := p
    simp only [h1] at h
    cases h2 : run c s1 (List.replicate n .learn) with
    | error e => simp [h2] at h
    | ok p2 =>
      obtain ⟨s2, os'⟩ := p2
      simp only [h2, Except.ok.injEq, Prod.mk.injEq] at h
      obtain ⟨rfl, rfl⟩ := h
      have hu : c.uplink = true := by
        simp only [step] at h1
        cases vs with
        | nil =>
          simp only [List.nil_append] at h1
          rw [pokes] at h1
          cases h3 : Precomp.frame c (write (alloc s z).1 (alloc s z).2 v) (some (alloc s z).2) true with
          | error e => simp [h3] at h1
          | ok q => exact (frame_given c he _ q.1 _ _ q.2 h3).2.1 hp
        | cons u us =>
          rw [List.cons_append, pokes] at h1
          cases h3 : Precomp.frame c (write (alloc s z).1 (alloc s z).2 u) (some (alloc s z).2) true with
          | error e => simp [h3] at h1
          | ok q => exact (frame_given c he _ q.1 _ _ q.2 h3).2.1 hp
      simp only [step] at h1
      obtain ⟨_, _, _, j4, j5, _⟩ := pokes_spec c he _ _ _ _ _ h1
      have hpre : s1.pre.map s1.mem = some v := by
        rw [j4, hp]
        simpa using j5 v (by simp)
      clear h1 j4 j5
      simp only [List.tail_cons]
      induction n generalizing os' with
      | zero =>
        simp only [List.replicate, run, Except.ok.injEq, Prod.mk.injEq] at h2
        rw [← h2.2]; rfl
      | succ n ih =>
        rw [List.replicate_succ, run] at h2
        cases h3 : step c s1 .learn with
        | error e => simp [h3] at h2
        | ok q =>
          obtain ⟨s3, o3⟩ := q
          obtain ⟨⟨s', x⟩, hf, e⟩ := map_ok h3
          simp only [Prod.mk.injEq] at e
          obtain ⟨rfl, rfl⟩ := e
          obtain ⟨rfl, hr, hl⟩ := frame_none c _ _ _ _ hf
          simp only [h3] at h2
          cases h4 : run c s' (List.replicate n .learn) with
          | error e => simp [h4] at h2
          | ok q4 =>
            obtain ⟨s5, o5⟩ := q4
            simp only [h4, Except.ok.injEq, Prod.mk.injEq] at h2
            obtain ⟨rfl, rfl⟩ := h2
            rw [List.replicate_succ, ih o5 h4]
            congr 1
            obtain ⟨xr, xl⟩ := x
            simp only at hr hl
            subst hr
            rw [hl, hu, hpre]
            rfl

example : (run ⟨true, true, false⟩ started (.calibrate 0 [1, 2] :: List.replicate 3 .learn)).map (fun x => x.2.tail) = .ok (List.replicate 3 [⟨none, some (some 2)⟩]) := by decide +kernel

/-- The two ways in which a precompensated laser is launched through something else than what its sensor corrects. -/
theorem C152_violated :
    (∃ (ops : List (Op ℕ)) (t : State ℕ) (os : List (List (Shown ℕ))), run ⟨true, true, false⟩ started ops = .ok (t, os) ∧ ¬List.Forall₂ (fun op o => ∀ x ∈ o, Launched ⟨true, true, false⟩ op x) ops os) ∧
    (∃ (ops : List (Op ℕ)) (t : State ℕ) (os : List (List (Shown ℕ))), NoneAfter false ops ∧ run ⟨true, true, true⟩ started ops = .ok (t, os) ∧ ¬List.Forall₂ (fun op o => ∀ x ∈ o, Launched ⟨true, true, true⟩ op x) ops os) := by
  constructor
  · refine ⟨[.loop 5, .learn], _, _, rfl, ?_⟩
    rw [C152_exact ⟨true, true, false⟩ rfl rfl rfl _ _ _ _ rfl]
    simp [NoneAfter]
  · refine ⟨[.loop 5], _, _, by simp [NoneAfter], rfl, ?_⟩
    rw [List.forall₂_cons]
    simp [Launched, started, Precomp.aoinit, alloc, write]

private theorem pokes_elongated (c : Precomp.Cfg) (he : c.elongated = true) (r : ℕ) : ∀ (vs : List C) (s t : State C) (os : List (Shown C)), pokes c r s vs = .ok (t, os) → t.pre = s.pre ∧ ∀ x ∈ os, x.launched = none
  | [], s, t, os, h => by
    simp only [pokes, Except.ok.injEq, Prod.mk.injEq] at h
    obtain ⟨rfl, rfl⟩ := h
    simp
  | v :: vs, s, t, os, h => by
    rw [pokes] at h
    cases h1 : Precomp.frame c (write s r v) (some r) true with
    | error e => simp [h1] at h
    | ok p =>
      obtain ⟨s1, x⟩ := p
      simp only [h1] at h
      cases h2 : pokes c r s1 vs with
      | error e => simp [h2] at h
      | ok p2 =>
        obtain ⟨s2, xs⟩ := p2
        simp only [h2, Except.ok.injEq, Prod.mk.injEq] at h
        obtain ⟨rfl, rfl⟩ := h
        obtain ⟨e1, _, hl⟩ := frame_elongated c he _ _ _ _ _ h1
        obtain ⟨i1, i2⟩ := pokes_elongated c he r vs s1 s2 xs h2
        refine ⟨by rw [i1, e1]; rfl, ?_⟩
        intro y hy
        rcases List.mem_cons.mp hy with rfl | hy
        · simpa using hl
        · exact i2 y hy

/-- **C152 (elongated beacons).** The laser of an elongated beacon is never precompensated: it goes up through no mirror in every frame, whatever `precompensated` says and whatever is removed from the returning light. -/
theorem C152_elongated (c : Precomp.Cfg) (he : c.elongated = true) : ∀ (ops : List (Op C)) (s t : State C), s.pre = none → ∀ os, run c s ops = .ok (t, os) → ∀ o ∈ os, ∀ x ∈ o, x.launched = none ∨ x.launched = some none
  | [], s, t, _, os, h => by
    simp only [run, Except.ok.injEq, Prod.mk.injEq] at h
    rw [← h.2]
    simp
  | op :: ops, s, t, hs, os, h => by
    rw [run] at h
    cases h1 : step c s op with
    | error e => simp [h1] at h
    | ok p =>
      obtain ⟨s1, o⟩ := p
      simp only [h1] at h
      cases h2 : run c s1 ops with
      | error e => simp [h2] at h
      | ok p2 =>
        obtain ⟨s2, os'⟩ := p2
        simp only [h2, Except.ok.injEq, Prod.mk.injEq] at h
        obtain ⟨rfl, rfl⟩ := h
        have one : ∀ (u : State C) r, u.pre = none → ∀ x, (Precomp.frame c u r false).map (fun x => (x.1, [x.2])) = .ok x → x.1.pre = none ∧ ∀ y ∈ x.2, y.launched = none ∨ y.launched = some none := by
          intro u r hu x hx
          obtain ⟨⟨s', x'⟩, hf, e⟩ := map_ok hx
          subst e
          obtain ⟨rfl, _, hl⟩ := frame_elongated c he _ _ _ _ _ hf
          refine ⟨hu, ?_⟩
          intro y hy
          rw [List.mem_singleton.mp hy]
          simp only [hl, hu]
          cases c.uplink <;> simp
        have both : s1.pre = none ∧ ∀ x ∈ o, x.launched = none ∨ x.launched = some none := by
          cases op with
          | aoinit z =>
            simp only [step, Except.ok.injEq, Prod.mk.injEq] at h1
            obtain ⟨rfl, rfl⟩ := h1
            exact ⟨rfl, by simp⟩
          | calibrate z vs =>
            simp only [step] at h1
            obtain ⟨j1, j2⟩ := pokes_elongated c he _ _ _ _ _ h1
            exact ⟨by rw [j1]; exact hs, fun x hx => .inl (j2 x hx)⟩
          | learn => exact one s none hs _ h1
          | loop v => exact one (write s s.closed v) _ hs _ h1
          | reset =>
            simp only [step, Except.ok.injEq, Prod.mk.injEq] at h1
            obtain ⟨rfl, rfl⟩ := h1
            exact ⟨hs, by simp⟩
          | make v =>
            simp only [step, Except.ok.injEq, Prod.mk.injEq] at h1
            obtain ⟨rfl, rfl⟩ := h1
            exact ⟨hs, by simp⟩
          | change r v =>
            simp only [step, Except.ok.injEq, Prod.mk.injEq] at h1
            obtain ⟨rfl, rfl⟩ := h1
            exact ⟨hs, by simp⟩
          | call r => exact one s (some r) hs _ h1
        intro o' ho'
        rcases List.mem_cons.mp ho' with rfl | ho'
        · exact both.2
        · exact C152_elongated c he ops s1 s2 both.1 os' h2 o' ho'

example : (run ⟨true, true, true⟩ started [.loop 5, .loop 6]).map (fun x => x.2) = .ok [[⟨some 5, some none⟩], [⟨some 6, some none⟩]] := by decide +kernel

/-- **C152 (without uplink).** `precompensated` without `uplink` makes the first frame with a correction fail, whatever happened before; with uplink no frame fails. -/
theorem C152_uplink (c : Precomp.Cfg) (s : State C) (v : C) :
    (c.precompensated = true → c.uplink = false → c.elongated = false → step c s (.loop v) = .error .attributeError) ∧ (c.uplink = true → ∃ x, step c s (.loop v) = .ok x) := by
  constructor
  · intro hp hu he
    simp [step, Precomp.frame, hp, hu, he, Except.map]
  · intro hu
    cases he : c.elongated <;> cases hp : c.precompensated <;> exact ⟨_, by simp [step, Precomp.frame, he, hp, hu, Except.map]; rfl⟩

private theorem frame_mem (c : Precomp.Cfg) (s t : State C) (corr : Option ℕ) (imat : Bool) (x : Shown C) (h : Precomp.frame c s corr imat = .ok (t, x)) :
    t.mem = s.mem ∧ t.size = s.size ∧ t.closed = s.closed ∧ x.removed = corr.map s.mem := by
  unfold Precomp.frame at h
  cases corr <;> cases he : c.elongated <;> cases hp : c.precompensated <;> cases hu : c.uplink <;> simp [he, hp, hu] at h <;> obtain ⟨rfl, rfl⟩ := h <;> simp

private theorem pokes_mem (c : Precomp.Cfg) (r : ℕ) : ∀ (vs : List C) (s t : State C) (os : List (Shown C)), pokes c r s vs = .ok (t, os) → t.closed = s.closed ∧ t.size = s.size ∧ ∀ q, q ≠ r → t.mem q = s.mem q
  | [], s, t, os, h => by
    simp only [pokes, Except.ok.injEq, Prod.mk.injEq] at h
    obtain ⟨rfl, rfl⟩ := h
    exact ⟨rfl, rfl, fun _ _ => rfl⟩
  | v :: vs, s, t, os, h => by
    rw [pokes] at h
    cases h1 : Precomp.frame c (write s r v) (some r) true with
    | error e => simp [h1] at h
    | ok p =>
      simp only [h1] at h
      cases h2 : pokes c r p.1 vs with
      | error e => simp [h2] at h
      | ok q =>
        simp only [h2, Except.ok.injEq, Prod.mk.injEq] at h
        obtain ⟨a1, a2, a3, _⟩ := frame_mem c _ p.1 (some r) true p.2 h1
        obtain ⟨b1, b2, b3⟩ := pokes_mem c r vs p.1 q.1 q.2 h2
        rw [← h.1]
        refine ⟨b1.trans a3, b2.trans a2, fun q hq => ?_⟩
        rw [b3 q hq, a1]
        exact Function.update_of_ne hq _ _

/-- An array that is not the correction buffer holds what it held unless a script changes it, whatever happens. -/
private theorem run_keeps (c : Precomp.Cfg) (r : ℕ) : ∀ (ops : List (Op C)) (s t : State C) (os : List (List (Shown C))), run c s ops = .ok (t, os) → r < s.size → r ≠ s.closed → (∀ v, Op.change r v ∉ ops) → t.mem r = s.mem r
  | [], s, t, os, h, _, _, _ => by
    simp only [run, Except.ok.injEq, Prod.mk.injEq] at h
    rw [h.1]
  | op :: ops, s, t, os, h, hr, hcl, hch => by
    rw [run] at h
    cases h1 : step c s op with
    | error e => simp [h1] at h
    | ok p =>
      simp only [h1] at h
      cases h2 : run c p.1 ops with
      | error e => simp [h2] at h
      | ok q =>
        simp only [h2, Except.ok.injEq, Prod.mk.injEq] at h
        rw [← h.1]
        have one : p.1.mem r = s.mem r ∧ r < p.1.size ∧ r ≠ p.1.closed := by
          cases op with
          | aoinit z =>
            simp only [step, Except.ok.injEq] at h1
            rw [← h1]
            refine ⟨?_, ?_, ?_⟩ <;> simp only [aoinit, alloc]
            · exact Function.update_of_ne (by omega) _ _
            · omega
            · omega
          | calibrate z vs =>
            simp only [step] at h1
            obtain ⟨b1, b2, b3⟩ := pokes_mem c _ vs _ p.1 p.2 h1
            simp only [alloc] at b1 b2 b3
            refine ⟨(b3 r (by omega)).trans (Function.update_of_ne (by omega) _ _), by omega, by rw [b1]; exact hcl⟩
          | learn =>
            obtain ⟨a, ha, rfl⟩ := map_ok h1
            obtain ⟨a1, a2, a3, _⟩ := frame_mem c _ a.1 _ _ a.2 ha
            dsimp only
            exact ⟨by rw [a1], by omega, by omega⟩
          | loop v =>
            obtain ⟨a, ha, rfl⟩ := map_ok h1
            obtain ⟨a1, a2, a3, _⟩ := frame_mem c _ a.1 _ _ a.2 ha
            dsimp only
            simp only [write] at a1 a2 a3
            exact ⟨by rw [a1]; exact Function.update_of_ne hcl _ _, by omega, by omega⟩
          | reset =>
            simp only [step, Except.ok.injEq] at h1
            rw [← h1]
            exact ⟨rfl, hr, hcl⟩
          | make v =>
            simp only [step, Except.ok.injEq] at h1
            rw [← h1]
            refine ⟨?_, ?_, ?_⟩ <;> simp only [alloc]
            · exact Function.update_of_ne (by omega) _ _
            · omega
            · exact hcl
          | change q v =>
            simp only [step, Except.ok.injEq] at h1
            rw [← h1]
            have : r ≠ q := fun e => hch v (by simp [e])
            exact ⟨Function.update_of_ne this _ _, hr, hcl⟩
          | call q =>
            obtain ⟨a, ha, rfl⟩ := map_ok h1
            obtain ⟨a1, a2, a3, _⟩ := frame_mem c _ a.1 _ _ a.2 ha
            dsimp only
            exact ⟨by rw [a1], by omega, by omega⟩
        rw [run_keeps c r ops p.1 q.1 q.2 h2 one.2.1 one.2.2 fun v hv => hch v (by simp [hv]), one.1]

/-- **C152 (arrays are their own).** A script's array holds what the script put there, through any calibrations, frames of the loop, restarts and other arrays; and the correction buffer of before a restart is not written after it. So a frame of the sensor with this array removes that shape. -/
theorem C152_own (c : Precomp.Cfg) (ops : List (Op C)) (s t : State C) (hcl : s.closed < s.size) (u : State C) (os : List (Shown C)) :
    (∀ v os', run c s (.make v :: ops) = .ok (t, os') → (∀ w, Op.change s.size w ∉ ops) → step c t (.call s.size) = .ok (u, os) → os.map Shown.removed = [some v]) ∧
    (∀ z os', run c s (.aoinit z :: ops) = .ok (t, os') → (∀ w, Op.change s.closed w ∉ ops) → step c t (.call s.closed) = .ok (u, os) → os.map Shown.removed = [some (s.mem s.closed)]) := by
  have last : ∀ r, step c t (.call r) = .ok (u, os) → os.map Shown.removed = [some (t.mem r)] := by
    intro r h
    obtain ⟨a, ha, he⟩ := map_ok h
    obtain ⟨_, _, _, a4⟩ := frame_mem c _ a.1 _ _ a.2 ha
    rw [← (Prod.mk.inj he).2]
    simp [a4]
  constructor
  · intro v os' h hch hu
    rw [last _ hu]
    rw [run] at h
    simp only [step] at h
    cases h2 : run c (alloc s v).1 ops with
    | error e => simp [h2] at h
    | ok q =>
      simp only [h2, Except.ok.injEq, Prod.mk.injEq] at h
      rw [← h.1, run_keeps c s.size ops _ q.1 q.2 h2 (by simp [alloc]) (by simp [alloc]; omega) hch]
      simp [alloc]
  · intro z os' h hch hu
    rw [last _ hu]
    rw [run] at h
    simp only [step] at h
    cases h2 : run c (aoinit s z) ops with
    | error e => simp [h2] at h
    | ok q =>
      simp only [h2, Except.ok.injEq, Prod.mk.injEq] at h
      rw [← h.1, run_keeps c s.closed ops _ q.1 q.2 h2 (by simp [aoinit, alloc]; omega) (by simp [aoinit, alloc]; omega) hch]
      simp only [aoinit, alloc]
      rw [Function.update_of_ne (by omega)]

example : ∃ t u os, run (⟨true, true, false⟩ : Precomp.Cfg) (started : State ℕ) [.make 7, .make 8, .loop 3, .calibrate 0 [1, 2], .aoinit 0, .loop 4] = .ok (t, os) ∧ step ⟨true, true, false⟩ t (.call (started : State ℕ).size) = .ok (u, [⟨some 7, some (some 7)⟩]) :=
  ⟨_, _, _, rfl, rfl⟩

open Soapy.Mirror Soapy.Interp Soapy.Los Soapy.Spot Soapy.Physical Soapy.Lemmas

/-- The light of a laser launched through `up` (`getLgsPsf` with a physical line of sight going up, LGS.py:115-119; C150). -/
noncomputable def laserLight (g : Grid) (c : Los.Cfg) (source : ℚ) (alts : List ℚ) (m : ℕ → ℕ → ℝ) (scrns : List Arr2) (up : Option (List Arr2)) : Except PyErr Out :=
  Physical.frame g { c with up := true } source alts (some m) (some scrns) up

/-- **C152 (what it is for).** In a frame of the loop in which the closed-loop mirror has the shape of the ground layer, a precompensated laser reaches the beacon as if there were no ground layer, whatever was done with the simulation before and whatever lies above. -/
theorem C152_ground (p : Precomp.Cfg) (he : p.elongated = false) (hp : p.precompensated = true) (s t : State (List Arr2)) (ops : List (Op (List Arr2))) (a : Arr2) (os : List (List (Shown (List Arr2))))
    (hrun : run p s (ops ++ [.loop [a]]) = .ok (t, os))
    (g : Grid) (c : Los.Cfg) (hn : g.n = c.nOut) (L : List ℚ × List ℚ) (Ls Ds : List (List ℚ × List ℚ)) (hL : c.layerCoords = L :: Ls) (hD : c.dmCoords = L :: Ds)
    (hl : L.1.length = c.nOut ∧ L.2.length = c.nOut) (source : ℚ) (al : List ℚ) (hlen : Ls.length = al.length) (hasc : Ascending (0 :: al)) (m : ℕ → ℕ → ℝ) (scrns : List Arr2) (up : Option (List Arr2)) (x : Shown (List Arr2))
    (hx : os.getLast? = some [x]) (hup : x.launched = some up) (o o' : Out) (h : laserLight g c source (0 :: al) m (a :: scrns) up = .ok o) (h' : laserLight g c source (0 :: al) m (zero2 c.scrn :: scrns) none = .ok o') :
    ∀ i < c.nOut, ∀ j < c.nOut, o.field i j = o'.field i j := by
  have hf := C152_loop_partial p he (ops ++ [.loop [a]]) s t (by simp [hp]) os hrun
  have hlen' := hf.length_eq
  obtain ⟨os', rfl⟩ : ∃ os', os = os' ++ [[x]] := by
    rw [List.getLast?_eq_some_iff] at hx
    exact hx
  have hll : ops.length = os'.length := by simpa using hlen'
  have hk := (List.forall₂_iff_get.mp hf).2 ops.length (by simp) (by simp [hll]) [a] (by simp)
  obtain ⟨y, hy, _, hyl⟩ := hk
  have : y = x := by
    simp [hll] at hy
    exact hy.symm
  subst this
  rw [hup, hp] at hyl
  have hup' : up = some [a] := by
    cases hu : p.uplink
    · simp [hu] at hyl
    · simpa [hu] using hyl
  subst hup'
  exact C150_ground g c hn true L Ls Ds hL hD hl source al hlen hasc m a scrns o o' h h'

/-- The light exists in both cases, here with one layer. -/
example : (∃ o, laserLight toyPhysGrid toyPhysCfg 0 [0] (fun _ _ => 1) [toyPhysScreen] (some [toyPhysScreen]) = .ok o) := by
  obtain ⟨o', h'⟩ := toy_frame 0 (some [toyPhysScreen]) (Or.inr rfl)
  exact (C150_both toyPhysGrid toyPhysCfg 0 [0] (fun _ _ => 1) none _ _).2 ⟨_, h'⟩

end Soapy.Props
