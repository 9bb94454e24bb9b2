/-
Model of the old line of sight, `lineofsight_legacy.LineOfSight`: which part of a screen is read, geometric frames with correction, and the sequence of steps of physical propagation.

Exact numbers instead of floating point; `scipy.interpolate.interp2d` on a regular grid is its linear spline; logging is left out.
-/
import Verif.Model.Los

namespace Soapy.Legacy

open Soapy.Mirror Soapy.Interp Soapy.Los

/-- What a line of sight is made of (lineofsight_legacy.py:59-92, 129-156): direction, the tangent of the field angle (`numpy.tan(ASEC2RAD * position)`), the height of the star (0 is infinity), `telescope_diameter`,
`phase_pixel_scale`, `out_pixel_scale`, `pupil_size`, `sim_size`, `nx_out_pixels`, `scrnHeights`, `phs2Rad` (a rational stands for `2π/λ`), `metaPupilPos`. -/
structure Cfg where
  up : Bool
  slope : ℚ × ℚ
  height : ℚ
  diam : ℚ
  scale : ℚ
  outScale : ℚ
  pupil : ℕ
  sim : ℕ
  nOut : ℕ
  heights : List ℚ
  k : ℚ
  pos : Option (List (ℚ × ℚ))

/-- `calcMetaPupilSize` (lineofsight_legacy.py:192-216): the radius in metres; `H` is its argument `GSHeight`, the first test is on the height of the line of sight. -/
def metaSize (c : Cfg) (h H : ℚ) : ℚ :=
  if c.height = 0 then c.diam / 2 else if H ≤ h then 0 else c.diam / 2 * (1 - h / H)

/-- `self.radii` (lineofsight_legacy.py:83-87) from `findMetaPupilSizes` (lineofsight_legacy.py:172-190): radii in pixels, none for a star at infinity. -/
def radii (c : Cfg) : Option (List ℚ) :=
  if c.height = 0 then none else some (c.heights.map fun h => metaSize c h c.height / c.scale)

/-- `getMetaPupilPos` (lineofsight_legacy.py:220-241): with an `apos` that is not all zero the local `pos` is never assigned; an `apos` of zeros counts as none. -/
def metaPos (c : Cfg) (h : ℚ) (apos : Option (ℚ × ℚ)) : Except PyErr (ℚ × ℚ) :=
  match apos with
  | some (a, b) => if a ≠ 0 ∨ b ≠ 0 then .error .unboundLocalError else .ok (c.slope.1 * h, c.slope.2 * h)
  | none => .ok (c.slope.1 * h, c.slope.2 * h)

/-- The cell of a linear spline on `0 … n-1` that a coordinate is in; coordinates outside are moved to the border. -/
def cell (n : ℕ) (x : ℚ) : ℕ × ℚ :=
  let x' := clip 0 ((n : ℚ) - 1) x
  let i := min ⌊x'⌋.toNat (n - 2)
  (i, x' - i)

/-- `interp2d(arange(n), arange(n), a)(x, y)` (lineofsight_legacy.py:303-305) at one point: the linear spline; `x` runs along the second axis of `a`, `y` along the first. -/
def spline (a : Arr2) (x y : ℚ) : ℚ :=
  let (j, v) := cell a.cols x
  let (i, u) := cell a.rows y
  (a.px i j * (1 - u) + a.px (i + 1) j * u) * (1 - v) + (a.px i (j + 1) * (1 - u) + a.px (i + 1) (j + 1) * u) * v

/-- The coordinates on one axis, `linspace(x1, x2 - 1, nx_out_pixels)` (lineofsight_legacy.py:300-301); `interp2d` sorts them. -/
def axisCoords (c : Cfg) (x1 x2 : ℚ) : List ℚ :=
  if x2 - 1 < x1 then (linspace x1 (x2 - 1) c.nOut).reverse else linspace x1 (x2 - 1) c.nOut

/-- `phaseCoord` (lineofsight_legacy.py:272-275): half the size of the required phase in pixels of the screen, rounded. -/
def phaseCoord (c : Cfg) : ℤ := pyRound (c.outScale * c.nOut / 2 / c.scale)

/-- `getMetaPupilPhase` (lineofsight_legacy.py:243-308).  A screen that is not square is refused by `interp2d`. -/
def metaPhase (c : Cfg) (scrn : Arr2) (h : ℚ) (radius : Option ℚ) (apos pos : Option (ℚ × ℚ)) : Except PyErr Arr2 :=
  if radius = some 0 then .ok (zero2 c.sim)
  else
    let cent : Except PyErr (ℚ × ℚ) := match apos, pos with
      | some a, _ => metaPos c h (some a)
      | none, some p => .ok p
      | none, none => metaPos c h none
    match cent with
    | .error e => .error e
    | .ok g =>
      let P : ℚ := phaseCoord c
      let fact : ℚ := radius.elim 1 fun r => 2 * r / c.pupil
      let x1 := (scrn.rows : ℚ) / 2 + g.1 / c.scale - fact * P
      let x2 := (scrn.rows : ℚ) / 2 + g.1 / c.scale + fact * P
      let y1 := (scrn.cols : ℚ) / 2 + g.2 / c.scale - fact * P
      let y2 := (scrn.cols : ℚ) / 2 + g.2 / c.scale + fact * P
      if x1 < 0 ∨ (scrn.rows : ℚ) < x2 ∨ y1 < 0 ∨ (scrn.cols : ℚ) < y2 then .error .valueError
      else if scrn.rows ≠ scrn.cols then .error .valueError
      else .ok ⟨c.nOut, c.nOut, fun i j => spline scrn ((axisCoords c x1 x2).getD j 0) ((axisCoords c y1 y2).getD i 0)⟩

/-- An array as the operand of an in-place operation on an `n × n` array: numpy broadcasts a single element, other shapes are an error. -/
def operand (n : ℕ) (p : Arr2) : Except PyErr (ℕ → ℕ → ℚ) :=
  if p.rows = n ∧ p.cols = n then .ok p.px
  else if p.rows = 1 ∧ p.cols = 1 then .ok fun _ _ => p.px 0 0
  else .error .valueError

/-- The phase of layer `i` (lineofsight_legacy.py:342-356, 416-430): `radii` is a dictionary, `metaPupilPos` and `scrnHeights` are lists. -/
def layerPhase (c : Cfg) (i : ℕ) (scrn : Arr2) : Except PyErr Arr2 :=
  let radius : Except PyErr (Option ℚ) := match radii c with
    | none => .ok none
    | some l => match l[i]? with
      | none => .error .keyError
      | some r => .ok (some r)
  let pos : Except PyErr (Option (ℚ × ℚ)) := match c.pos with
    | none => .ok none
    | some l => match l[i]? with
      | none => .error .indexError
      | some p => .ok (some p)
  match radius, pos, c.heights[i]? with
  | .error e, _, _ => .error e
  | .ok _, .error e, _ => .error e
  | .ok _, .ok _, none => .error .indexError
  | .ok r, .ok p, some h => metaPhase c scrn h r none p

/-- The arrays of a line of sight; `efield` is the argument of the complex field, whose modulus is one in geometric propagation. -/
structure State where
  phase : ℕ → ℕ → ℚ
  efield : ℕ → ℕ → ℚ
  residual : ℕ → ℕ → ℚ

/-- `zeroData` (lineofsight_legacy.py:311-316). -/
def zeroData (s : State) : State := { s with phase := fun _ _ => 0, efield := fun _ _ => 0 }

/-- The loop of `makePhaseGeometric` (lineofsight_legacy.py:342-358): `self.phase += phase` for every screen. -/
def addLayers (c : Cfg) : ℕ → List Arr2 → (ℕ → ℕ → ℚ) → Except PyErr (ℕ → ℕ → ℚ)
  | _, [], acc => .ok acc
  | i, s :: ss, acc =>
    match layerPhase c i s with
    | .error e => .error e
    | .ok p =>
      match operand c.nOut p with
      | .error e => .error e
      | .ok f => addLayers c (i + 1) ss fun a b => acc a b + f a b

/-- `makePhaseGeometric` (lineofsight_legacy.py:333-369). -/
def geometric (c : Cfg) (scrns : List Arr2) (s : State) : Except PyErr State :=
  match addLayers c 0 scrns s.phase with
  | .error e => .error e
  | .ok p =>
    let q : ℕ → ℕ → ℚ := fun a b => if c.up then p a b * c.k * -1 else p a b * c.k
    .ok { s with phase := q, efield := q }

/-- `performCorrection` (lineofsight_legacy.py:460-491): every correction is an array with or without an altitude. -/
def correct (c : Cfg) : List (Option ℚ × Arr2) → State → Except PyErr State
  | [], s => .ok s
  | (alt, a) :: rest, s =>
    match metaPhase c a (alt.getD 0) (some (metaSize c (alt.getD 0) c.height / c.scale)) none none with
    | .error e => .error e
    | .ok p =>
      match operand c.nOut p with
      | .error e => .error e
      | .ok f =>
        let r : ℕ → ℕ → ℚ := fun i j => s.phase i j / c.k - f i j
        correct c rest ⟨fun i j => r i j * c.k, fun i j => s.efield i j - f i j * c.k, r⟩

/-- `frame` (lineofsight_legacy.py:493-529) with geometric propagation (`makePhase`, lineofsight_legacy.py:318-331); what it returns is `residual`. -/
def frame (c : Cfg) (s : State) (scrns : Option (List Arr2)) (correction : Option (List (Option ℚ × Arr2))) : Except PyErr State :=
  let s := zeroData s
  let made : Except PyErr State := match scrns with
    | none => .ok s
    | some l => geometric c l s
  match made with
  | .error e => .error e
  | .ok s =>
    let s := { s with residual := s.phase }
    match correction with
    | none => .ok s
    | some l => correct c l s

/-! ### Physical propagation -/

/-- The loop of `makePhasePhys` (lineofsight_legacy.py:414-456) over the screens in the order of `scrnRange`: `n` screens, `alts` the altitudes in the order of `scrnAlts`, `z` the distance so far. -/
def physLoop (n : ℕ) (alts : ℕ → ℚ) (ht htFinal : ℚ) : List ℕ → ℚ → List Act
  | [], _ => []
  | i :: is, zt =>
    let z := if i + 1 = n then |htFinal - ht| - zt else |alts (i + 1) - alts i|
    .screen i :: .propagate z :: physLoop n alts ht htFinal is (zt + z)

/-- `makePhasePhys` (lineofsight_legacy.py:371-458): the operations on the field, as many screens as altitudes.  Going up needs a mask (`outMask`) and a `config.height`. -/
def physical (up : Bool) (source : ℚ) (alts : List ℚ) : Except PyErr (List Act) :=
  let n := alts.length
  let a : ℕ → ℚ := fun i => alts.getD i 0
  if n = 0 then .error .indexError
  else if up ∧ source = 0 then .error .valueError
  else
    let ht := if up then 0 else a (n - 1)
    let htFinal := if up then source else 0
    let order := if up then List.range n else (List.range n).reverse
    let scrnAlts : ℕ → ℚ := if up then a else fun i => a (n - 1 - i)
    .ok ((if ht ≠ scrnAlts 0 then [.propagate |scrnAlts 0 - ht|] else []) ++ physLoop n scrnAlts ht htFinal order 0)

/-- The argument a screen gives to the field in physical propagation (lineofsight_legacy.py:432-437, 447): going up it is `self.phase` that changes its sign, not the phase of the screen. -/
def physArg (_up : Bool) (k p : ℚ) : ℚ := p * k

end Soapy.Legacy
