/-
Model of where random numbers come from: the generator of the atmosphere, fresh entropy, and numpy's global generator.

Parameters: how a generator draws and what seeds it (`numpy.random.default_rng`), what is drawn (`aotools`), and the rest of the system
(sensors, mirrors, reconstructor) as functions of its state, the screens and the noise.
-/
import Mathlib.Data.List.Basic
import Mathlib.Data.Nat.Basic

namespace Soapy.Seed

/-- What is drawn: a large screen of a layer, a random screen of the size of the pupil, the start of an infinite screen, a new row of one. -/
inductive Req (V : Type) where
  | whole (layer : ℕ)
  | random (layer : ℕ)
  | start (layer : ℕ)
  | row (layer : ℕ) (screen : V)

/-- Random number generation. `draw` advances a generator; `seeded` is `default_rng(seed)`, `entropy n` what the `n`-th call of `default_rng(None)` in this process gives. -/
structure Rng (R V : Type) where
  draw : Req V → R → V × R
  seeded : ℕ → R
  entropy : ℕ → R

/-- The parameters of an atmosphere. `infinite`, `randomScrns`, `scrnNo`, `randomSeed` of the configuration; `stepFin i` one step of finite layer `i` (new state and screen handed out);
`rows`, `add` and `show` the number of new rows, appending one, and the interpolated and turned screen of infinite layers; `units i` the scaling of a random screen. -/
structure Cfg (V : Type) where
  infinite : Bool
  randomScrns : Bool
  scrnNo : ℕ
  seed : Option ℕ
  stepFin : ℕ → V → V × V
  rows : ℕ → V → ℕ
  add : ℕ → V → V → V
  view : ℕ → V → V
  units : ℕ → V → V

/-- An atmosphere: `_R`, how many generators have been made from entropy, and the layers; an infinite layer has a generator of its own if there is no `_R`. -/
structure Atm (R V : Type) where
  gen : Option R
  made : ℕ
  layers : List (V × Option R)

variable {R V : Type}

/-- One draw with `seed=self._R`: `default_rng` of a generator is that generator, `default_rng(None)` is new (aotools, used in atmosphere.py:170-184, 393-402). -/
def drawWith (e : Rng R V) (q : Req V) (g : Option R) (made : ℕ) : V × Option R × ℕ :=
  match g with
  | some r => ((e.draw q r).1, some (e.draw q r).2, made)
  | none => ((e.draw q (e.entropy made)).1, none, made + 1)

/-- Layers `i, …, i + k - 1` of a new atmosphere (atmosphere.py:151-161 infinite, 164-186 finite). An infinite screen keeps the generator it was given or made. -/
def initLayers (e : Rng R V) (c : Cfg V) : ℕ → ℕ → Option R → ℕ → List (V × Option R) × Option R × ℕ
  | 0, _, g, made => ([], g, made)
  | k + 1, i, g, made =>
    if c.infinite then
      match g with
      | some r =>
        let v := e.draw (.start i) r
        let rest := initLayers e c k (i + 1) (some v.2) made
        ((v.1, none) :: rest.1, rest.2)
      | none =>
        let v := e.draw (.start i) (e.entropy made)
        let rest := initLayers e c k (i + 1) none (made + 1)
        ((v.1, some v.2) :: rest.1, rest.2)
    else
      let v := drawWith e (.whole i) g made
      let rest := initLayers e c k (i + 1) v.2.1 v.2.2
      ((v.1, none) :: rest.1, rest.2)

/-- `atmos.__init__` (atmosphere.py:104-107, 151-186). -/
def atmInit (e : Rng R V) (c : Cfg V) (made : ℕ) : Atm R V :=
  let r := initLayers e c c.scrnNo 0 (c.seed.map e.seeded) made
  ⟨r.2.1, r.2.2, r.1⟩

/-- `n` new rows of infinite layer `i` (atmosphere.py:512-516) from one generator. -/
def addRows (e : Rng R V) (c : Cfg V) (i : ℕ) : ℕ → V → R → V × R
  | 0, v, r => (v, r)
  | n + 1, v, r => addRows e c i n (c.add i v (e.draw (.row i v) r).1) (e.draw (.row i v) r).2

/-- The layers of `moveScrns` for infinite screens, layer after layer (atmosphere.py:302-304): the generator of the layer if it has one, else `_R`. -/
def moveInf (e : Rng R V) (c : Cfg V) : ℕ → List (V × Option R) → Option R → (List (V × Option R) × List V) × Option R
  | _, [], g => (([], []), g)
  | i, (v, own) :: ls, g =>
    match own, g with
    | some r, _ =>
      let n := addRows e c i (c.rows i v) v r
      let rest := moveInf e c (i + 1) ls g
      (((n.1, some n.2) :: rest.1.1, c.view i n.1 :: rest.1.2), rest.2)
    | none, some r =>
      let n := addRows e c i (c.rows i v) v r
      let rest := moveInf e c (i + 1) ls (some n.2)
      (((n.1, none) :: rest.1.1, c.view i n.1 :: rest.1.2), rest.2)
    | none, none =>
      let rest := moveInf e c (i + 1) ls none
      (((v, none) :: rest.1.1, c.view i v :: rest.1.2), rest.2)

/-- The layers of `moveScrns` for finite screens (atmosphere.py:311-376). -/
def moveFin (c : Cfg V) : ℕ → List (V × Option R) → List (V × Option R) × List V
  | _, [] => ([], [])
  | i, (v, own) :: ls =>
    let rest := moveFin c (i + 1) ls
    (((c.stepFin i v).1, own) :: rest.1, (c.stepFin i v).2 :: rest.2)

/-- `randomScrns` (atmosphere.py:391-407) for layers `i, …`: `seed=self._R` whatever is passed. -/
def randomLayers (e : Rng R V) (c : Cfg V) : ℕ → ℕ → Option R → ℕ → List V × Option R × ℕ
  | 0, _, g, made => ([], g, made)
  | k + 1, i, g, made =>
    let v := drawWith e (.random i) g made
    let rest := randomLayers e c k (i + 1) v.2.1 v.2.2
    (c.units i v.1 :: rest.1, rest.2)

/-- `randomScrns()`. -/
def randomScrns (e : Rng R V) (c : Cfg V) (a : Atm R V) : Atm R V × List V :=
  let r := randomLayers e c c.scrnNo 0 a.gen a.made
  (⟨r.2.1, r.2.2, a.layers⟩, r.1)

/-- `moveScrns()` (atmosphere.py:298-378). -/
def moveScrns (e : Rng R V) (c : Cfg V) (a : Atm R V) : Atm R V × List V :=
  if c.randomScrns then randomScrns e c a
  else if c.infinite then
    let r := moveInf e c 0 a.layers a.gen
    (⟨r.2, a.made, r.1.1⟩, r.1.2)
  else
    let r := moveFin c 0 a.layers
    (⟨a.gen, a.made, r.1⟩, r.2)

/-- The rest of a simulation. `noisy`: some sensor has photon, read-out or angle-equivalent noise, drawn from numpy's global generator (shackhartmann.py:453-478, pyramid.py:411-427, wfs.py:518-534, gradient.py:163-169);
`imatNoise`: it is also on while poking (reconstruction.py:299-312). `learns`: the reconstructor is LearnAndApply (or LTAO), which takes `learnIters` frames (reconstruction.py:563-581) of `randomScrns` if `learnAtmos` is "random"
and of `moveScrns` otherwise (reconstruction.py:87-90). -/
structure Sys (S V N G O : Type) where
  noisy : Bool
  imatNoise : Bool
  learns : Bool
  learnRandom : Bool
  learnIters : ℕ
  noise : S → G → N × G
  quiet : N
  poke : S → N → S
  load : S → S
  learn : S → List V → N → S
  finish : S → S
  frame : S → List V → N → S × O
  reset : S → S

/-- A simulation: its atmosphere, the global generator, and the rest. -/
structure Sim (R V S G : Type) where
  atm : Atm R V
  glob : G
  sys : S

/-- What a program does with a simulation: one frame of the loop, making the matrices (new, or from disk), `reset_loop`. -/
inductive Op where
  | frame
  | calibrate (new : Bool)
  | reset
  deriving DecidableEq

variable {S N G O : Type}

/-- Noise of one read-out of the sensors, if there is any. -/
def noiseOf (y : Sys S V N G O) (on : Bool) (s : S) (g : G) : N × G := if on then y.noise s g else (y.quiet, g)

/-- `learn` (reconstruction.py:563-581). -/
def learnFrames (e : Rng R V) (c : Cfg V) (y : Sys S V N G O) : ℕ → Sim R V S G → Sim R V S G
  | 0, w => w
  | k + 1, w =>
    let m := if y.learnRandom then randomScrns e c w.atm else moveScrns e c w.atm
    let n := noiseOf y y.noisy w.sys w.glob
    learnFrames e c y k ⟨m.1, n.2, y.learn w.sys m.2 n.1⟩

/-- One operation; a frame gives the screens and what is recorded (simulation.py:534-579 `loopFrame`: `moveScrns` first). -/
def step (e : Rng R V) (c : Cfg V) (y : Sys S V N G O) (w : Sim R V S G) : Op → Sim R V S G × List (List V × O)
  | .frame =>
    let m := moveScrns e c w.atm
    let n := noiseOf y y.noisy w.sys w.glob
    let r := y.frame w.sys m.2 n.1
    (⟨m.1, n.2, r.1⟩, [(m.2, r.2)])
  | .calibrate true =>
    let n := noiseOf y (y.noisy && y.imatNoise) w.sys w.glob
    let w' : Sim R V S G := ⟨w.atm, n.2, y.poke w.sys n.1⟩
    let w'' := if y.learns then learnFrames e c y y.learnIters w' else w'
    (⟨w''.atm, w''.glob, y.finish w''.sys⟩, [])
  | .calibrate false => (⟨w.atm, w.glob, y.load w.sys⟩, [])
  | .reset => (⟨w.atm, w.glob, y.reset w.sys⟩, [])

/-- A program. -/
def run (e : Rng R V) (c : Cfg V) (y : Sys S V N G O) : List Op → Sim R V S G → Sim R V S G × List (List V × O)
  | [], w => (w, [])
  | o :: os, w =>
    let r := step e c y w o
    let q := run e c y os r.1
    (q.1, r.2 ++ q.2)

/-- A new simulation (`aoinit`). -/
def start (e : Rng R V) (c : Cfg V) (made : ℕ) (g : G) (s : S) : Sim R V S G := ⟨atmInit e c made, g, s⟩

/-- The screens of `n` frames of an atmosphere alone. -/
def turb (e : Rng R V) (c : Cfg V) : ℕ → Atm R V → List (List V)
  | 0, _ => []
  | n + 1, a => (moveScrns e c a).2 :: turb e c n (moveScrns e c a).1

end Soapy.Seed
