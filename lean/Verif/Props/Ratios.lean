/-
C143: only ratios of lengths and of times matter.
-/
import Verif.Model.Velocity
import Verif.Props.Units
import Verif.Props.Config
import Verif.Props.Exposure
import Verif.Props.AtmosStrength

namespace Soapy.Props

open Soapy.Mirror Soapy.Los Soapy.Vec Soapy.Control Soapy.Loop Soapy.Whole

/-! ### Lines of sight -/

/-- A line of sight with all lengths multiplied by `c`. -/
def longer (c : ℚ) (g : Geom) : Geom := { g with launch := (c * g.launch.1, c * g.launch.2), source := c * g.source, diameter := c * g.diameter, scale := c * g.scale }

/-- **C143 (beams).**  With all lengths multiplied by the same number a beam crosses a layer at the same pixels. -/
theorem C143_sight (c : ℚ) (hc : c ≠ 0) (g : Geom) (h : ℚ) : altitudeCoords (longer c g) (c * h) = altitudeCoords g h ∧ metapupilCoords (longer c g) (c * h) = metapupilCoords g h := by
  have e : ∀ a l : ℚ, edges (longer c g) a (c * l) (c * h) = edges g a l h := by
    intro a l
    obtain ⟨up, ang, la, src, dia, sc, scrn, n⟩ := g
    have d : ∀ x y : ℚ, c * x / (c * y) = x / y := fun x y => mul_div_mul_left x y hc
    have s : (c * src = 0) ↔ src = 0 := by simp [hc]
    simp only [edges, footprint, longer, d, s, ne_eq]
    split_ifs
    · rw [show a * (c * h) + c * l - c * dia / 2 = c * (a * h + l - dia / 2) by ring, show a * (c * h) + c * l + c * dia / 2 = c * (a * h + l + dia / 2) by ring, d, d]
    · rw [show a * (c * h) + c * l * (1 - h / src) - c * dia * (1 - h / src) / 2 = c * (a * h + l * (1 - h / src) - dia * (1 - h / src) / 2) by ring,
        show a * (c * h) + c * l * (1 - h / src) + c * dia * (1 - h / src) / 2 = c * (a * h + l * (1 - h / src) + dia * (1 - h / src) / 2) by ring, d, d]
    · rw [show a * (c * h) - c * dia / 2 = c * (a * h - dia / 2) by ring, show a * (c * h) + c * dia / 2 = c * (a * h + dia / 2) by ring, d, d]
    · rw [show a * (c * h) - c * dia * (1 - h / src) / 2 = c * (a * h - dia * (1 - h / src) / 2) by ring,
        show a * (c * h) + c * dia * (1 - h / src) / 2 = c * (a * h + dia * (1 - h / src) / 2) by ring, d, d]
  have k : altitudeCoords (longer c g) (c * h) = altitudeCoords g h := by
    unfold altitudeCoords
    have e1 := e g.angle.1 g.launch.1
    have e2 := e g.angle.2 g.launch.2
    simp only [longer] at e1 e2 ⊢
    rw [e1, e2]
  refine ⟨k, ?_⟩
  unfold metapupilCoords
  rw [k]
  rfl

/-- A laser launched beside a telescope of four metres, on a layer at five kilometres. -/
example : altitudeCoords (longer 2 ⟨true, (1 / 100, 0), (3, 0), 90000, 4, 1 / 2, 20, 8⟩) (2 * 5000) = altitudeCoords ⟨true, (1 / 100, 0), (3, 0), 90000, 4, 1 / 2, 20, 8⟩ 5000 := (C143_sight 2 (by norm_num) _ _).1

/-! ### Derived parameters -/

/-- A configuration with all lengths multiplied by `c` and all times by `t`. -/
def resized (c t : ℚ) (x : Conf.Config) : Conf.Config :=
  { x with
    loopTime := t * x.loopTime
    telDiam := c * x.telDiam
    heights := x.heights.map (c * ·)
    L0 := x.L0.map (List.map (c * ·))
    wfss := x.wfss.map fun w => { w with height := c * w.height, lgs := w.lgs.map fun l => { l with depth := c * l.depth }, exposure := w.exposure.map (t * ·) }
    dms := x.dms.map (Option.map (c * ·))
    derived := x.derived.map fun d => { d with pxlScale := d.pxlScale / c } }

private theorem maxOf_mul (c : ℚ) (hc : 0 ≤ c) (xs : List ℚ) : Conf.maxOf (xs.map (c * ·)) = c * Conf.maxOf xs := by
  cases xs with
  | nil => simp [Conf.maxOf]
  | cons x xs =>
    simp only [List.map_cons, Conf.maxOf]
    induction xs generalizing x with
    | nil => rfl
    | cons y ys ih =>
      simp only [List.map_cons, List.foldl_cons]
      rw [← mul_max_of_nonneg _ _ hc]
      exact ih _

private theorem gsCoords_longer (c t : ℚ) (hc : c ≠ 0) (tel : ℚ) (w : Conf.Wfs) :
    Conf.gsCoords (c * tel) { w with height := c * w.height, lgs := w.lgs.map fun l => { l with depth := c * l.depth }, exposure := w.exposure.map (t * ·) } = Conf.gsCoords tel w := by
  obtain ⟨pos, H, lgs, ph, ex, nx, fs⟩ := w
  cases lgs with
  | none => rfl
  | some l =>
    obtain ⟨dep, la⟩ := l
    have e1 : c * H + -1 * (c * dep) / 2 = c * (H + -1 * dep / 2) := by ring
    have e2 : c * H + c * dep / 2 = c * (H + dep / 2) := by ring
    have sh : ∀ dh : ℚ, c * dh * (max |la.1| |la.2| * (c * tel) / 2) / (c * H * (c * H + c * dh)) = dh * (max |la.1| |la.2| * tel / 2) / (H * (H + dh)) := by
      intro dh
      rw [show c * dh * (max |la.1| |la.2| * (c * tel) / 2) = c * c * (dh * (max |la.1| |la.2| * tel / 2)) by ring, show c * H * (c * H + c * dh) = c * c * (H * (H + dh)) by ring]
      exact mul_div_mul_left _ _ (mul_ne_zero hc hc)
    have s1 := sh (-1 * dep / 2)
    have s2 := sh (dep / 2)
    rw [show c * (-1 * dep / 2) = -1 * (c * dep) / 2 by ring] at s1
    rw [show c * (dep / 2) = c * dep / 2 by ring] at s2
    simp only [Conf.gsCoords, Option.map_some, Conf.elongShift, s1, s2]
    simp only [e1, e2, mul_eq_zero, hc, false_or]

private theorem wfsCalc_resized (c t : ℚ) (ht : t ≠ 0) (T : ℚ) (w : Conf.Wfs) :
    Conf.wfsCalc (t * T) { w with height := c * w.height, lgs := w.lgs.map fun l => { l with depth := c * l.depth }, exposure := w.exposure.map (t * ·) } =
      { Conf.wfsCalc T w with height := c * w.height, lgs := w.lgs.map fun l => { l with depth := c * l.depth }, exposure := (Conf.wfsCalc T w).exposure.map (t * ·) } := by
  obtain ⟨pos, H, lgs, ph, ex, nx, fs⟩ := w
  cases ex with
  | none => rfl
  | some e =>
    simp only [Conf.wfsCalc, Option.map_some, Option.some.injEq, mul_eq_zero, ht, false_or, reduceCtorEq]
    by_cases h : e = 0 <;> simp [h]

private theorem mapE_map {α β γ : Type} (f : β → Except PyErr γ) (g : α → β) : ∀ xs : List α, Conf.mapE f (xs.map g) = Conf.mapE (fun a => f (g a)) xs
  | [] => rfl
  | x :: xs => by simp only [List.map_cons, Conf.mapE, mapE_map f g xs]

/-- **C143 (derived parameters).**  With all lengths multiplied by `c` and all times by `t` every derived parameter is what it was, except that there are `c` times fewer pixels per metre; what fails still fails in the
same way.  (An outer scale that is left out is ten million kilometres, whatever the unit.) -/
theorem C143_parameters (c t : ℚ) (hc : 0 < c) (ht : t ≠ 0) (x : Conf.Config) (hL : x.L0 ≠ none) :
    Conf.calcParams (resized c t x) = (Conf.calcParams x).map (resized c t) := by
  obtain ⟨pupil, over, nGS, nSci, T, tel, hs, nS, L0, wfss, dms, scis, der⟩ := x
  have hc' := hc.ne'
  obtain ⟨L, rfl⟩ : ∃ L, L0 = some L := by
    cases L0 with
    | none => exact absurd rfl hL
    | some L => exact ⟨L, rfl⟩
  have hpos : ∀ sc, Conf.positions (resized c t ⟨pupil, over, nGS, nSci, T, tel, hs, nS, some L, wfss, dms, scis, der⟩) sc = Conf.positions ⟨pupil, over, nGS, nSci, T, tel, hs, nS, some L, wfss, dms, scis, der⟩ sc := by
    intro sc
    simp only [Conf.positions, resized]
    rw [← List.map_take, mapE_map]
    simp only [gsCoords_longer c t hc']
  unfold Conf.calcParams
  simp only [hpos]
  simp only [resized]
  cases Conf.mapE Conf.sciCalc scis with
  | error e => rfl
  | ok sc =>
    simp only [Except.bind, mul_eq_zero, hc', false_or, List.length_map, List.map_eq_nil_iff]
    split_ifs
    · rfl
    · rfl
    · rfl
    · cases Conf.positions ⟨pupil, over, nGS, nSci, T, tel, hs, nS, some L, wfss, dms, scis, der⟩ sc with
      | error e => rfl
      | ok ps =>
        · simp only [Except.map, resized, Except.ok.injEq, Conf.Config.mk.injEq, true_and, Option.map_some, Option.getD_some, Option.some.injEq, Conf.Derived.mk.injEq, and_true, List.map_map]
          refine ⟨?_, ?_, ?_, ?_⟩
          · refine List.map_congr_left fun w _ => ?_
            simp only [Function.comp]
            rw [wfsCalc_resized c t ht]
            rfl
          · refine List.map_congr_left fun d _ => ?_
            cases d <;> rfl
          · rw [div_mul_eq_div_div_swap]
          · rw [maxOf_mul c hc.le]
            have ph : ((List.take nGS (List.map (fun w : Conf.Wfs => ({ w with height := c * w.height, lgs := w.lgs.map fun l => { l with depth := c * l.depth }, exposure := w.exposure.map (t * ·) } : Conf.Wfs)) wfss)).any fun w => w.physical) = (List.take nGS wfss).any fun w => w.physical := by
              rw [← List.map_take, List.any_map]
              rfl
            rw [ph]
            unfold Conf.scrnSizeOf
            have e : ∀ z : ℚ, 2 * ((pupil : ℚ) / (c * tel)) * (c * Conf.maxOf hs) * z = 2 * ((pupil : ℚ) / tel) * Conf.maxOf hs * z := by
              intro z
              have : (pupil : ℚ) / (c * tel) * c = pupil / tel := by rw [mul_comm c tel, ← div_div, div_mul_cancel₀ _ hc']
              linear_combination 2 * Conf.maxOf hs * z * this
            rw [e]

/-- A telescope of four metres with an elongated laser guide star, and one twice as large that runs three times as slow. -/
example : ((Conf.calcParams (resized 2 3 ⟨64, 1, 1, 0, 1 / 400, 4, [0, 5000], 2, some [20, 20], [⟨(10, 0), 90000, some ⟨1000, (2, 0)⟩, false, none, 8, false⟩], [none], [], none⟩)).toOption.map fun d => (d.loopTime, d.derived, d.wfss.map Conf.Wfs.exposure)) =
    some (3 / 400, some ⟨8, 1, 66, 82⟩, [some (3 / 400)]) := by
  rw [C143_parameters 2 3 (by norm_num) (by norm_num) _ (by simp)]
  decide +kernel

/-! ### Sensors, calibration and loop -/

/-- A sensor with all lengths multiplied by `c`, whose measurements are multiplied by `b`. -/
def longerWfs (c b : ℚ) (w : LinWfs) : LinWfs := { w with geom := longer c w.geom, coef := fun q i j => b * w.coef q i j }

/-- A simulation with all lengths multiplied by `c`, whose measurements are multiplied by `b`. -/
def longerOptics (c b : ℚ) (o : Optics) : Optics := { o with layerAlts := o.layerAlts.map (c * ·), dmAlts := o.dmAlts.map (c * ·), wfss := o.wfss.map (longerWfs c b) }

/-- **C143 (gradient sensor).**  A slope is a difference per length: with all lengths multiplied by `c` the measurements of a gradient sensor are divided by `c`. -/
theorem C143_gradient (c : ℚ) (hc : c ≠ 0) (g : Geom) (k : ℚ) (mask : ℕ → ℕ → ℚ) (subs : List (ℕ × ℕ)) (s : ℕ) (a : ℚ) :
    gradWfs (longer c g) k mask subs s (c * a) = longerWfs c (1 / c) (gradWfs g k mask subs s a) := by
  have e : ∀ m, gradWeight s (c * a) m = 1 / c * gradWeight s a m := by
    intro m
    unfold gradWeight
    simp only
    have e1 : ∀ j : ℕ, -(c * a * j - (∑ i ∈ Finset.range s, c * a * (i : ℚ)) / s) = c * -(a * j - (∑ i ∈ Finset.range s, a * (i : ℚ)) / s) := by
      intro j
      simp only [mul_assoc c a, ← Finset.mul_sum]
      ring
    have e2 : (∑ _i ∈ Finset.range s, ∑ j ∈ Finset.range s, (-(c * a * j - (∑ i ∈ Finset.range s, c * a * (i : ℚ)) / s)) ^ 2) = c ^ 2 * ∑ _i ∈ Finset.range s, ∑ j ∈ Finset.range s, (-(a * j - (∑ i ∈ Finset.range s, a * (i : ℚ)) / s)) ^ 2 := by
      rw [Finset.mul_sum]
      refine Finset.sum_congr rfl fun _ _ => ?_
      rw [Finset.mul_sum]
      refine Finset.sum_congr rfl fun j _ => ?_
      rw [e1, mul_pow]
    rw [e1, e2]
    rw [pow_two, mul_assoc, mul_div_mul_left _ _ hc, one_div, inv_mul_eq_div, div_div, mul_comm c]
  unfold gradWfs longerWfs
  simp only [LinWfs.mk.injEq, true_and]
  funext q i j
  simp only [e]
  split_ifs <;> ring

private theorem frame_longer (c b : ℚ) (hc : c ≠ 0) (w : LinWfs) (la da : List ℚ) (s r : Option (List Arr2)) :
    (longerWfs c b w).frame (la.map (c * ·)) (da.map (c * ·)) s r = (w.frame la da s r).map (List.map (b * ·)) := by
  have e : (longerWfs c b w).cfg (la.map (c * ·)) (da.map (c * ·)) = w.cfg la da := by
    simp only [LinWfs.cfg, longerWfs, List.map_map, Function.comp_def, (C143_sight c hc w.geom _).2]
    rfl
  unfold LinWfs.frame
  rw [e]
  cases Los.frame (w.cfg la da) blank s r with
  | error e => rfl
  | ok t =>
    simp only [longerWfs, longer, Except.map, List.map_map, Except.ok.injEq]
    refine List.map_congr_left fun q _ => ?_
    simp only [Function.comp, Finset.mul_sum, mul_assoc]

/-- **C143 (sensors).**  With all lengths multiplied by the same number all measurements are what they were, in the new unit, whatever turbulence and mirrors show. -/
theorem C143_sensors (c b : ℚ) (hc : c ≠ 0) (la da : List ℚ) (s r : Option (List Arr2)) : ∀ ws : List LinWfs,
    runWfs (la.map (c * ·)) (da.map (c * ·)) s r (ws.map (longerWfs c b)) = (runWfs la da s r ws).map (List.map (b * ·))
  | [] => rfl
  | w :: ws => by
    simp only [List.map_cons, runWfs, frame_longer c b hc, C143_sensors c b hc la da s r ws]
    cases w.frame la da s r with
    | error e => rfl
    | ok a =>
      simp only [Except.map]
      cases runWfs la da s r ws with
      | error e => rfl
      | ok m => simp

private theorem makeDmIMat_sense (nActs nMeas : ℕ) (v : ℚ) (hv : v ≠ 0) (f : List ℚ → Except PyErr Arr2) (sense : Arr2 → List ℚ) :
    makeDmIMat nActs nMeas f (fun a => (sense a).map (v * ·)) = (makeDmIMat nActs nMeas f sense).map fun p => (p.1, p.2.map (List.map (v * ·))) := by
  unfold makeDmIMat
  have e : pokeRow nActs f (fun a => (sense a).map (v * ·)) = fun i => (pokeRow nActs f sense i).map (List.map (v * ·)) := by
    funext i
    unfold pokeRow
    cases f (unit nActs i) with
    | error e => rfl
    | ok a =>
      simp only [Except.map, List.map_map, Except.ok.injEq]
      refine List.map_congr_left fun x _ => ?_
      simp only [Function.comp]
      ring
  rw [e, mapM_map]
  cases (List.range nActs).mapM (pokeRow nActs f sense) with
  | error e => rfl
  | ok m =>
    simp only [Except.map, validFlags_times v hv]
    cases validFlags m with
    | error e => rfl
    | ok fl =>
      simp only
      rw [← compact_map]
      congr 3
      simp [zeros]

private theorem makeIMat_sense (cfg : Persist.Cfg) (v : ℚ) (hv : v ≠ 0) (sense : ℕ → Arr2 → List ℚ) : ∀ (ds : List Persist.Dm) (k : ℕ),
    Persist.makeIMat cfg (fun k a => (sense k a).map (v * ·)) k ds = (Persist.makeIMat cfg sense k ds).map fun p => (p.1, p.2.map (List.map (v * ·)))
  | [], _ => rfl
  | d :: ds, k => by
    simp only [Persist.makeIMat, makeDmIMat_sense _ _ v hv, makeIMat_sense cfg v hv sense ds (k + 1)]
    cases makeDmIMat d.nActs cfg.totalMeas (fun c => dmFrame cfg.scrn d.nElem 0 d.shapes (zero2 cfg.scrn) c) (sense k) with
    | error e => rfl
    | ok p =>
      obtain ⟨fl, rows⟩ := p
      simp only [Except.map]
      cases setValid d.shapes fl with
      | error e => rfl
      | ok q =>
        simp only
        cases Persist.makeIMat cfg sense (k + 1) ds with
        | error e => rfl
        | ok z => simp

/-- **C143 (calibration).**  The same actuators are kept, and the interaction matrix is the same in the new unit. -/
theorem C143_calibration (c b : ℚ) (hc : c ≠ 0) (hb : b ≠ 0) (o : Optics) (n : ℕ) (dms : List Persist.Dm) :
    (longerOptics c b o).calibrate n dms = (o.calibrate n dms).map fun p => (p.1, p.2.map (List.map (b * ·))) := by
  have hp : (longerOptics c b o).poke = fun k a => (o.poke k a).map (b * ·) := by
    funext k a
    unfold Optics.poke
    simp only [longerOptics, List.length_map, C143_sensors c b hc]
    cases runWfs o.layerAlts o.dmAlts none (some (layers o.scrn o.dmAlts.length (slot o.scrn k a).2)) o.wfss <;> rfl
  have ht : (longerOptics c b o).totalMeas = o.totalMeas := by
    simp only [Optics.totalMeas, longerOptics, List.map_map]
    rfl
  unfold Optics.calibrate
  rw [hp, ht, show (longerOptics c b o).scrn = o.scrn from rfl, makeIMat_sense _ b hb]

/-- A frame whose measurements are expressed in another unit. -/
def inUnit {Surf : Type} (b : ℚ) (t : Trace Surf) : Trace Surf := { t with slopes := t.slopes.map (b * ·) }

/-- The state of a loop whose measurements are expressed in another unit. -/
def stateInUnit {σ Surf : Type} (b : ℚ) (s : Loop.State σ Surf) : Loop.State σ Surf := { s with slopes := s.slopes.map (b * ·), allSlopes := s.allSlopes.map (List.map (b * ·)) }

private theorem storeRow_unit (b : ℚ) (save : Bool) (hist : List (List ℚ)) (i : ℕ) (row : List ℚ) :
    storeRow save (hist.map (List.map (b * ·))) i (row.map (b * ·)) = (storeRow save hist i row).map (List.map (List.map (b * ·))) := by
  unfold storeRow
  split_ifs
  · rw [List.getElem?_map]
    cases hist[i]? with
    | none => rfl
    | some old =>
      simp only [Option.map_some, List.length_map]
      split_ifs
      · simp [Except.map, List.map_set]
      · rfl
  · rfl

private theorem unit_frame {σ Surf : Type} [Add Surf] (b : ℚ) (sys sys' : Sys Surf) (pl pl' : Plant σ Surf) (hs : sys' = { sys with product := sys'.product }) (hp : ∀ m, sys'.product (m.map (b * ·)) = sys.product m)
    (hpl : ∀ s i r, pl'.sense s i r = (pl.sense s i r).map fun p => (p.1, p.2.map (b * ·))) (dms : List DmCtl) (s : Loop.State σ Surf) :
    loopFrame sys' pl' dms (stateInUnit b s) = (loopFrame sys pl dms s).map fun p => (stateInUnit b p.1, inUnit b p.2) := by
  have hctl : Loop.control sys' dms s.recon s.dmCommands s.buffer (s.slopes.map (b * ·)) = Loop.control sys dms s.recon s.dmCommands s.buffer s.slopes := by
    unfold Loop.control reconstruct
    rw [hp, show sys'.loopDelay = sys.loopDelay by rw [hs]]
  unfold loopFrame
  simp only [stateInUnit]
  rw [hctl, show sys'.surface = sys.surface by rw [hs], show sys'.nIters = sys.nIters by rw [hs], show sys'.saveSlopes = sys.saveSlopes by rw [hs], show sys'.saveDmCommands = sys.saveDmCommands by rw [hs]]
  cases Loop.control sys dms s.recon s.dmCommands s.buffer s.slopes with
  | error e => rfl
  | ok p =>
    obtain ⟨rc, bu, cm⟩ := p
    simp only
    cases runDM sys.surface true cm 0 dms (firstActs dms 0) s.closedCorr with
    | error e => rfl
    | ok cc =>
      simp only [hpl]
      cases pl.sense s.plant s.iters cc with
      | error e => rfl
      | ok q =>
        obtain ⟨w, m⟩ := q
        simp only [Except.map]
        cases runDM sys.surface false cm 0 dms (firstActs dms 0) s.openCorr with
        | error e => rfl
        | ok oc =>
          simp only
          split_ifs
          · rfl
          · rw [storeRow_unit]
            cases storeRow sys.saveSlopes s.allSlopes (s.iters % sys.nIters) m with
            | error e => rfl
            | ok h1 =>
              simp only [Except.map]
              cases storeRow sys.saveDmCommands s.allDmCommands (s.iters % sys.nIters) cm <;> rfl

private theorem unit_run {σ Surf : Type} [Add Surf] (b : ℚ) (sys sys' : Sys Surf) (pl pl' : Plant σ Surf) (hs : sys' = { sys with product := sys'.product }) (hp : ∀ m, sys'.product (m.map (b * ·)) = sys.product m)
    (hpl : ∀ s i r, pl'.sense s i r = (pl.sense s i r).map fun p => (p.1, p.2.map (b * ·))) : ∀ (frames : List (List DmCtl)) (s : Loop.State σ Surf),
    runLoop sys' pl' (stateInUnit b s) frames = (runLoop sys pl s frames).map fun p => (stateInUnit b p.1, p.2.map (inUnit b))
  | [], _ => rfl
  | dms :: rest, s => by
    simp only [runLoop, unit_frame b sys sys' pl pl' hs hp hpl]
    cases loopFrame sys pl dms s with
    | error e => rfl
    | ok p =>
      simp only [Except.map, unit_run b sys sys' pl pl' hs hp hpl rest]
      cases runLoop sys pl p.1 rest <;> rfl

private theorem tdot_unit (n : ℕ) (b : ℚ) (hb : b ≠ 0) (P : List (List ℚ)) (m : List ℚ) : tdot n (P.map (List.map (b⁻¹ * ·))) (m.map (b * ·)) = tdot n P m := by
  unfold tdot
  have e : List.zipWith (fun (row : List ℚ) (x : ℚ) => row.map (x * ·)) (P.map (List.map (b⁻¹ * ·))) (m.map (b * ·)) = List.zipWith (fun row x => row.map (x * ·)) P m := by
    rw [List.zipWith_map]
    congr 1
    funext row x
    rw [List.map_map]
    refine List.map_congr_left fun y _ => ?_
    simp only [Function.comp]
    field_simp
  rw [e]
  simp

/-- **C143 (loop).**  With all lengths multiplied by `c`, measurements thereby by `b`, and the control matrix made from the calibration of that system (`C124_inversion`: divided by `b`), the loop gives in every frame the same
commands and corrections, and the same measurements in the new unit; it fails if and as the other fails. -/
theorem C143_loop (c b : ℚ) (hc : c ≠ 0) (hb : b ≠ 0) (o : Optics) (dms : List Persist.Dm) (P : List (List ℚ)) (delay : ℤ) (nIters nActs : ℕ) (saveSlopes saveDm : Bool) (turb : ℕ → ℕ → ℕ → ℕ → ℚ) (ctl : List DmCtl) (frames : List (List DmCtl)) :
    runLoop ((longerOptics c b o).sys dms (P.map (List.map (b⁻¹ * ·))) delay nIters saveSlopes saveDm) ((longerOptics c b o).plant turb)
        (initial ((longerOptics c b o).sys dms (P.map (List.map (b⁻¹ * ·))) delay nIters saveSlopes saveDm) ctl (longerOptics c b o).totalMeas nActs ()) frames =
      (runLoop (o.sys dms P delay nIters saveSlopes saveDm) (o.plant turb) (initial (o.sys dms P delay nIters saveSlopes saveDm) ctl o.totalMeas nActs ()) frames).map fun p => (stateInUnit b p.1, p.2.map (inUnit b)) := by
  have ht : (longerOptics c b o).totalMeas = o.totalMeas := by
    simp only [Optics.totalMeas, longerOptics, List.map_map]
    rfl
  have hi : initial ((longerOptics c b o).sys dms (P.map (List.map (b⁻¹ * ·))) delay nIters saveSlopes saveDm) ctl (longerOptics c b o).totalMeas nActs () = stateInUnit b (initial (o.sys dms P delay nIters saveSlopes saveDm) ctl o.totalMeas nActs ()) := by
    rw [ht]
    simp [initial, stateInUnit, zeros, Optics.sys]
  rw [hi]
  refine unit_run b _ _ _ _ rfl (fun m => tdot_unit _ b hb P m) (fun s i r => ?_) frames _
  simp only [Optics.plant, longerOptics, List.length_map, C143_sensors c b hc]
  cases runWfs o.layerAlts o.dmAlts (some (layers o.scrn o.layerAlts.length (turb i - r.sum.1))) (some (layers o.scrn o.dmAlts.length r.sum.2)) o.wfss <;> rfl

/-! ### Turbulence and time -/

open Soapy.Atmos in
/-- **C143 (wind).**  With lengths multiplied by `c`, times by `t` and so speeds by `c / t`, turbulence moves as many pixels per frame as before, on screens of both kinds. -/
theorem C143_wind (c t : ℝ) (hc : c ≠ 0) (ht : t ≠ 0) (speed degrees T pixel : ℝ) :
    windV (c / t * speed) degrees (t * T) (c * pixel) = windV speed degrees T pixel ∧ movePixels (c / t * speed) (t * T) (c * pixel) = movePixels speed T pixel := by
  have e : ∀ k : ℝ, c / t * speed * k * (t * T) / (c * pixel) = speed * k * T / pixel := by
    intro k
    rw [show c / t * speed * k * (t * T) = c * (speed * k * T) * (t / t) by ring, div_self ht, mul_one]
    exact mul_div_mul_left _ _ hc
  refine ⟨by simp only [windV, e], ?_⟩
  have := e 1
  simpa [movePixels] using this

open Soapy.Atmos in
/-- **C143 (strength).**  Fried parameters of the layers and the coherence time scale with lengths and times, and wind speeds adjusted to a coherence time scale as speeds. -/
theorem C143_strength (c t : ℝ) (hc : 0 < c) (ht : 0 < t) (k : ℕ) (r0 : ℝ) (hr : 0 < r0) (want : Option ℝ) (ws s : List ℝ) (hw : ∀ w ∈ ws, 0 ≤ w) (hs : ∀ x ∈ s, 0 ≤ x) :
    layerR0 k (c * r0) s = (layerR0 k r0 s).map (c * ·) ∧
    tau k (c * r0) (ws.map (c / t * ·)) (shares k s) = t * tau k r0 ws (shares k s) ∧
    winds k (c * r0) (want.map (t * ·)) (ws.map (c / t * ·)) s = (winds k r0 want ws s).map (c / t * ·) := by
  have hsh : ∀ n ∈ shares k s, 0 ≤ n := by
    intro n hn
    obtain ⟨x, hx, rfl⟩ := List.mem_map.mp hn
    exact div_nonneg (hs x hx) (List.sum_nonneg fun y hy => hs y (List.mem_of_mem_take hy))
  have hv : 0 < c / t := div_pos hc ht
  have vb : vBar k (ws.map (c / t * ·)) (shares k s) = c / t * vBar k ws (shares k s) := by
    unfold vBar
    have e : List.zipWith (fun w n : ℝ => w ^ (5 / 3 : ℝ) * n) ((ws.map (c / t * ·)).take k) ((shares k s).take k) = (List.zipWith (fun w n : ℝ => w ^ (5 / 3 : ℝ) * n) (ws.take k) ((shares k s).take k)).map ((c / t) ^ (5 / 3 : ℝ) * ·) := by
      apply List.ext_getElem?
      intro i
      simp only [← List.map_take, List.getElem?_zipWith, List.getElem?_map]
      cases h1 : (ws.take k)[i]? with
      | none => rfl
      | some w =>
        have : 0 ≤ w := hw w (List.mem_of_mem_take (List.mem_of_getElem? h1))
        cases (List.take k (shares k s))[i]? with
        | none => rfl
        | some n => simp only [Option.map_some, Real.mul_rpow hv.le this, mul_assoc]
    rw [e, List.sum_map_mul_left, List.map_id']
    have hnn : 0 ≤ (List.zipWith (fun w n : ℝ => w ^ (5 / 3 : ℝ) * n) (ws.take k) ((shares k s).take k)).sum := by
      refine List.sum_nonneg fun y hy => ?_
      obtain ⟨i, hi, rfl⟩ := List.mem_iff_getElem.mp hy
      rw [List.getElem_zipWith]
      exact mul_nonneg (Real.rpow_nonneg (hw _ (List.mem_of_mem_take (List.getElem_mem _))) _) (hsh _ (List.mem_of_mem_take (List.getElem_mem _)))
    rw [Real.mul_rpow (Real.rpow_nonneg hv.le _) hnn, ← Real.rpow_mul hv.le]
    norm_num
  have ta : tau k (c * r0) (ws.map (c / t * ·)) (shares k s) = t * tau k r0 ws (shares k s) := by
    unfold tau
    rw [vb, show (0.314 : ℝ) * (c * r0) = c * (0.314 * r0) by ring, show c / t * vBar k ws (shares k s) = c * (vBar k ws (shares k s) / t) by ring, mul_div_mul_left _ _ hc.ne', div_div_eq_mul_div]
    ring
  refine ⟨?_, ta, ?_⟩
  · unfold layerR0
    rw [List.map_map]
    refine List.map_congr_left fun n hn => ?_
    simp only [Function.comp]
    rw [Real.mul_rpow hc.le hr.le, mul_assoc, Real.mul_rpow (Real.rpow_nonneg hc.le _) (mul_nonneg (Real.rpow_nonneg hr.le _) (hsh n hn)), ← Real.rpow_mul hc.le]
    norm_num
  · cases want with
    | none => rfl
    | some w =>
      simp only [winds, Option.map_some, mul_eq_zero, ht.ne', false_or]
      split_ifs
      · rfl
      · rw [ta, List.map_map, List.map_map]
        refine List.map_congr_left fun x _ => ?_
        simp only [Function.comp]
        rw [show c / t * x * (t * tau k r0 ws (shares k s)) = t * (c / t * (x * tau k r0 ws (shares k s))) by ring, mul_div_mul_left _ _ ht.ne']
        ring

open Soapy.Atmos in
/-- Two layers, one without wind. -/
example : layerR0 2 (2 * 0.1) [3, 1] = (layerR0 2 0.1 [3, 1]).map (2 * ·) :=
  (C143_strength 2 3 (by norm_num) (by norm_num) 2 0.1 (by norm_num) (some 0.005) [10, 0] [3, 1] (by simp) (by simp)).1

/-- A generator of screens that knows no unit of length, and whose screens follow Kolmogorov's law in the Fried parameter. -/
structure UnitFree (gen : ℝ → ℝ → ℝ → ℝ → ℕ → ℕ → ℝ) : Prop where
  scale : ∀ c r p L l i j, 0 < c → 0 < r → 0 < p → gen (c * r) (c * p) (c * L) (c * l) i j = gen r p L l i j
  law : ∀ r s p L l i j, 0 < r → 0 < s → 0 < p → gen (s * r) p L l i j = s ^ (-5 / 6 : ℝ) * gen r p L l i j

open Soapy.Atmos in
/-- **C143 (screens), partial**: with all lengths multiplied by the same number a layer shows the same — if the inner scale is multiplied too, which the code fixes at a millimetre. -/
theorem C143_screens_partial (gen : ℝ → ℝ → ℝ → ℝ → ℕ → ℕ → ℝ) (hg : UnitFree gen) (c : ℝ) (hc : 0 < c) (pixel L0 l0 r : ℝ) (hp : 0 < pixel) (hr : 0 < r) (i j : ℕ) :
    shown gen (c * pixel) (c * L0) (c * l0) (c * r) i j = shown gen pixel L0 l0 r i j := by
  unfold shown
  have h1 : gen 1 (c * pixel) (c * L0) (c * l0) i j = c⁻¹ ^ (-5 / 6 : ℝ) * gen 1 pixel L0 l0 i j := by
    have := hg.law c c⁻¹ (c * pixel) (c * L0) (c * l0) i j hc (inv_pos.mpr hc) (mul_pos hc hp)
    rw [inv_mul_cancel₀ hc.ne'] at this
    rw [this]
    have := hg.scale c 1 pixel L0 l0 i j hc one_pos hp
    rw [mul_one] at this
    rw [this]
  rw [h1, div_one, div_one, Real.mul_rpow hc.le hr.le, Real.inv_rpow hc.le]
  have : c ^ (-5 / 6 : ℝ) ≠ 0 := (Real.rpow_pos_of_pos hc _).ne'
  field_simp

/-- A generator whose screens grow with the size of a pixel in units of the Fried parameter, and with the inner scale in pixels. -/
noncomputable def roughScreen (r p _L l : ℝ) (i j : ℕ) : ℝ := r ^ (-5 / 6 : ℝ) * p ^ (5 / 6 : ℝ) * (i + j + l / p)

theorem roughScreen_unitFree : UnitFree roughScreen := by
  constructor
  · intro c r p L l i j hc hr hp
    unfold roughScreen
    rw [Real.mul_rpow hc.le hr.le, Real.mul_rpow hc.le hp.le, mul_div_mul_left _ _ hc.ne', show (-5 / 6 : ℝ) = -(5 / 6) by norm_num, Real.rpow_neg hc.le]
    have : c ^ (5 / 6 : ℝ) ≠ 0 := (Real.rpow_pos_of_pos hc _).ne'
    field_simp
  · intro r s p L l i j hr hs hp
    unfold roughScreen
    rw [Real.mul_rpow hs.le hr.le]
    ring

open Soapy.Atmos in
/-- **C143 is violated** for screens made by the simulation: their inner scale is a millimetre, whatever the size of the telescope. -/
theorem C143_violated : ∃ gen, UnitFree gen ∧ ∃ pixel L0 r c : ℝ, 0 < pixel ∧ 0 < r ∧ 0 < c ∧ shown gen (c * pixel) (c * L0) 0.001 (c * r) 0 0 ≠ shown gen pixel L0 0.001 r 0 0 := by
  refine ⟨roughScreen, roughScreen_unitFree, 1, 1, 1, 2, by norm_num, by norm_num, by norm_num, ?_⟩
  have h2 : (2 : ℝ) ^ (5 / 6 : ℝ) ≠ 0 := (Real.rpow_pos_of_pos (by norm_num) _).ne'
  have h3 : (2 : ℝ) ^ (-(5 / 6) : ℝ) = ((2 : ℝ) ^ (5 / 6 : ℝ))⁻¹ := Real.rpow_neg (by norm_num) _
  unfold shown roughScreen
  norm_num
  rw [h3, mul_assoc, mul_comm (1 / 2000 : ℝ), ← mul_assoc, mul_inv_cancel₀ h2]
  norm_num

open Soapy.Exposure in
/-- **C143 (read-out).**  With all times multiplied by the same number every sensor is read in the same frames. -/
theorem C143_cadence (t : ℚ) (ht : t ≠ 0) (T E : ℚ) (n : ℕ) : freshRun (decideNoMP (quant (t * T) (t * E))) n = freshRun (decideNoMP (quant T E)) n := by
  have : quant (t * T) (t * E) = quant T E := by
    funext i
    unfold quant
    rw [mul_assoc, mul_div_mul_left _ _ ht]
  rw [this]

end Soapy.Props
