/-
Property theorems C138: larger screens change nothing, and turbulence outside the beams is not seen.
-/
import Verif.Props.RenumberOptics
import Verif.Props.Config

namespace Soapy.Props

open Soapy.Mirror Soapy.Los Soapy.Whole Soapy.Loop Soapy.Control Soapy.Vec

/-! ### What is compared -/

/-- The same sensor in a simulation whose screens have `m` more pixels on each side. -/
def growWfs (m : ℕ) (w : LinWfs) : LinWfs := { w with geom := { w.geom with scrn := w.geom.scrn + 2 * m } }

/-- The same simulation with `m` more pixels on each side of all screens: what another guide star or target further out makes of it (confParse.py:187-203). -/
def grow (m : ℕ) (o : Optics) : Optics := ⟨o.scrn + 2 * m, o.layerAlts, o.dmAlts, o.wfss.map (growWfs m)⟩

/-- Positions in pixels of the screen at which a sensor samples a layer or mirror at altitude `h`, on the two axes (lineofsight.py:174-189, before clipping). -/
def rowsOf (g : Geom) (h : ℚ) : List ℚ := Interp.linspace (altitudeCoords g h).1 ((altitudeCoords g h).2.1 - 1) g.nOut
def colsOf (g : Geom) (h : ℚ) : List ℚ := Interp.linspace (altitudeCoords g h).2.2.1 ((altitudeCoords g h).2.2.2 - 1) g.nOut

/-- The screen is large enough for what the sensor samples at altitude `h`. -/
def BeamInside (g : Geom) (h : ℚ) : Prop := ∀ x, x ∈ rowsOf g h ∨ x ∈ colsOf g h → 0 ≤ x ∧ x ≤ g.scrn - 1 - 1 / 1000000000

/-- The screens are large enough for all sensors, on all layers and mirrors. -/
def AllInside (o : Optics) : Prop := ∀ w ∈ o.wfss, ∀ h, h ∈ o.layerAlts ∨ h ∈ o.dmAlts → BeamInside w.geom h

/-- Pixel `(a, b)` of layer `l` is less than a pixel away from a sample of a sensor. -/
def InBeam (o : Optics) (l a b : ℕ) : Prop := ∃ w ∈ o.wfss, ∃ x ∈ rowsOf w.geom (o.layerAlts.getD l 0), ∃ y ∈ colsOf w.geom (o.layerAlts.getD l 0), |(a : ℚ) - x| < 1 ∧ |(b : ℚ) - y| < 1

/-- Images that agree, the second with `m` more pixels on each side. -/
def Centre (m S : ℕ) (f f' : ℕ → ℕ → ℚ) : Prop := ∀ a b, a < S → b < S → f' (a + m) (b + m) = f a b

/-- Stacks that agree in this sense. -/
def CentreStack (m S : ℕ) (s s' : Stack) : Prop := (∀ l, Centre m S (s.1 l) (s'.1 l)) ∧ ∀ l, Centre m S (s.2 l) (s'.2 l)

/-! ### What a sensor sees -/

private theorem linspace_shift (x1 x2 : ℚ) (n : ℕ) (m : ℚ) : Interp.linspace (x1 + m) (x2 + m) n = (Interp.linspace x1 x2 n).map (· + m) := by
  unfold Interp.linspace
  rw [List.map_map]
  refine List.map_congr_left fun k _ => ?_
  simp only [Function.comp]
  split_ifs
  · rfl
  · ring

private theorem rows_grow (g : Geom) (m : ℕ) (h : ℚ) : rowsOf { g with scrn := g.scrn + 2 * m } h = (rowsOf g h).map (· + (m : ℚ)) := by
  unfold rowsOf
  rw [← linspace_shift]
  congr 1
  · simp only [altitudeCoords, edges, footprint]; push_cast; ring
  · simp only [altitudeCoords, edges, footprint]; push_cast; ring

private theorem cols_grow (g : Geom) (m : ℕ) (h : ℚ) : colsOf { g with scrn := g.scrn + 2 * m } h = (colsOf g h).map (· + (m : ℚ)) := by
  unfold colsOf
  rw [← linspace_shift]
  congr 1
  · simp only [altitudeCoords, edges, footprint]; push_cast; ring
  · simp only [altitudeCoords, edges, footprint]; push_cast; ring

theorem beam_clip (S : ℕ) (l : List ℚ) (h : ∀ x ∈ l, 0 ≤ x ∧ x ≤ S - 1 - 1 / 1000000000) : l.map (Interp.clip 0 ((S : ℚ) - 1000000001 / 1000000000)) = l := by
  conv_rhs => rw [← List.map_id l]
  refine List.map_congr_left fun x hx => ?_
  obtain ⟨h1, h2⟩ := h x hx
  unfold Interp.clip
  rw [max_eq_left h1, min_eq_left (by linarith)]
  rfl

theorem beam_coords (g : Geom) (h : ℚ) (hi : BeamInside g h) : metapupilCoords g h = (rowsOf g h, colsOf g h) := by
  unfold metapupilCoords
  dsimp only
  exact Prod.ext (beam_clip _ _ fun x hx => hi x (.inl hx)) (beam_clip _ _ fun x hx => hi x (.inr hx))

private theorem coords_grow (g : Geom) (m : ℕ) (h : ℚ) (hi : BeamInside g h) : metapupilCoords { g with scrn := g.scrn + 2 * m } h = ((rowsOf g h).map (· + (m : ℚ)), (colsOf g h).map (· + (m : ℚ))) := by
  rw [beam_coords, rows_grow, cols_grow]
  intro x hx
  rw [rows_grow, cols_grow] at hx
  have : ∃ y, (y ∈ rowsOf g h ∨ y ∈ colsOf g h) ∧ y + m = x := by
    rcases hx with hx | hx
    · obtain ⟨y, hy, e⟩ := List.mem_map.mp hx; exact ⟨y, .inl hy, e⟩
    · obtain ⟨y, hy, e⟩ := List.mem_map.mp hx; exact ⟨y, .inr hy, e⟩
  obtain ⟨y, hy, rfl⟩ := this
  obtain ⟨h1, h2⟩ := hi y hy
  have : (0 : ℚ) ≤ m := by positivity
  dsimp only
  push_cast
  constructor <;> linarith

/-- Interpolation on a larger image, at coordinates that many pixels further, if the pixels around agree. -/
private theorem bilin_shift (S m : ℕ) (f f' : ℕ → ℕ → ℚ) (x y : ℚ) (hx : 0 ≤ x ∧ x < S - 1) (hy : 0 ≤ y ∧ y < S - 1) (h : ∀ a b : ℕ, a < S → b < S → |(a : ℚ) - x| < 1 → |(b : ℚ) - y| < 1 → f' (a + m) (b + m) = f a b) :
    Interp.bilinAt ⟨S + 2 * m, S + 2 * m, f'⟩ (x + m) (y + m) = Interp.bilinAt ⟨S, S, f⟩ x y := by
  obtain ⟨i, hi, i1, i2⟩ := Interp.cell_exists S x hx.1 hx.2
  obtain ⟨j, hj, j1, j2⟩ := Interp.cell_exists S y hy.1 hy.2
  rw [Interp.bilinAt_ok ⟨S, S, f⟩ x y i j ⟨i1, i2⟩ ⟨j1, j2⟩ hi hj,
    Interp.bilinAt_ok ⟨S + 2 * m, S + 2 * m, f'⟩ (x + m) (y + m) (i + m) (j + m) ⟨by push_cast; linarith, by push_cast; linarith⟩ ⟨by push_cast; linarith, by push_cast; linarith⟩ (by dsimp only; omega) (by dsimp only; omega)]
  dsimp only
  have ex : x + (m : ℚ) - ((i + m : ℕ) : ℚ) = x - i := by push_cast; ring
  have ey : y + (m : ℚ) - ((j + m : ℕ) : ℚ) = y - j := by push_cast; ring
  rw [ex, ey, show i + m + 1 = i + 1 + m by omega, show j + m + 1 = j + 1 + m by omega]
  have ai : |(i : ℚ) - x| < 1 := by rw [abs_lt]; constructor <;> linarith
  have aj : |(j : ℚ) - y| < 1 := by rw [abs_lt]; constructor <;> linarith
  have ai' : x - i ≠ 0 → |((i + 1 : ℕ) : ℚ) - x| < 1 := by
    intro hne
    have : 0 < x - i := lt_of_le_of_ne (by linarith) (Ne.symm hne)
    rw [abs_lt]; push_cast; constructor <;> linarith
  have aj' : y - j ≠ 0 → |((j + 1 : ℕ) : ℚ) - y| < 1 := by
    intro hne
    have : 0 < y - j := lt_of_le_of_ne (by linarith) (Ne.symm hne)
    rw [abs_lt]; push_cast; constructor <;> linarith
  have t00 : f' (i + m) (j + m) = f i j := h i j (by omega) (by omega) ai aj
  have t10 : (x - i) * (1 - (y - j)) * f' (i + 1 + m) (j + m) = (x - i) * (1 - (y - j)) * f (i + 1) j := by
    by_cases hz : x - i = 0
    · rw [hz]; ring
    · rw [h (i + 1) j hi (by omega) (ai' hz) aj]
  have t01 : (1 - (x - i)) * (y - j) * f' (i + m) (j + 1 + m) = (1 - (x - i)) * (y - j) * f i (j + 1) := by
    by_cases hz : y - j = 0
    · rw [hz]; ring
    · rw [h i (j + 1) (by omega) hj ai (aj' hz)]
  have t11 : (x - i) * (y - j) * f' (i + 1 + m) (j + 1 + m) = (x - i) * (y - j) * f (i + 1) (j + 1) := by
    by_cases hz : x - i = 0
    · rw [hz]; ring
    · by_cases hz' : y - j = 0
      · rw [hz']; ring
      · rw [h (i + 1) (j + 1) hi hj (ai' hz) (aj' hz')]
  rw [t00, t10, t01, t11]

private theorem bil_grow (g : Geom) (m : ℕ) (h : ℚ) (hi : BeamInside g h) (f f' : ℕ → ℕ → ℚ)
    (hf : ∀ a b : ℕ, a < g.scrn → b < g.scrn → (∃ x ∈ rowsOf g h, ∃ y ∈ colsOf g h, |(a : ℚ) - x| < 1 ∧ |(b : ℚ) - y| < 1) → f' (a + m) (b + m) = f a b) (i j : ℕ) :
    bil (g.scrn + 2 * m) (metapupilCoords { g with scrn := g.scrn + 2 * m } h) f' i j = bil g.scrn (metapupilCoords g h) f i j := by
  rw [coords_grow g m h hi, beam_coords g h hi]
  unfold bil layerVal
  rw [List.getElem?_map, List.getElem?_map]
  cases ex : (rowsOf g h)[i]? with
  | none => rfl
  | some x =>
    cases ey : (colsOf g h)[j]? with
    | none => rfl
    | some y =>
      have mx := List.mem_of_getElem? ex
      have my := List.mem_of_getElem? ey
      obtain ⟨x1, x2⟩ := hi x (.inl mx)
      obtain ⟨y1, y2⟩ := hi y (.inr my)
      simp only [Option.map_some, Interp.interpVal, Bool.false_eq_true, if_false]
      rw [bilin_shift g.scrn m f f' x y ⟨x1, by linarith⟩ ⟨y1, by linarith⟩ fun a b ha hb h1 h2 => hf a b ha hb ⟨x, mx, y, my, h1, h2⟩]

theorem grow_sound {o : Optics} (ho : Optics.Sound o) (m : ℕ) : Optics.Sound (grow m o) := by
  refine ⟨by have := ho.1; simp only [grow]; omega, fun w hw => ?_⟩
  obtain ⟨v, hv, rfl⟩ := List.mem_map.mp hw
  obtain ⟨h1, h2⟩ := ho.2 v hv
  exact ⟨by simp [growWfs, grow, h1], h2⟩

private theorem seen_grow {o : Optics} (ho : Optics.Sound o) (hin : AllInside o) (m : ℕ) (w : LinWfs) (hw : w ∈ o.wfss) (v v' : Stack) (h1 : ∀ l, l < o.layerAlts.length → ∀ a b, a < o.scrn → b < o.scrn → InBeam o l a b → v'.1 l (a + m) (b + m) = v.1 l a b)
    (h2 : ∀ l, l < o.dmAlts.length → Centre m o.scrn (v.2 l) (v'.2 l)) (q : ℕ) : seen (grow m o) (growWfs m w) v' q = seen o w v q := by
  obtain ⟨hs, _⟩ := ho.2 w hw
  have alt : ∀ (l : List ℚ) (k : ℕ), k < l.length → l.getD k 0 ∈ l := by
    intro l k hk
    rw [List.getD_eq_getElem?_getD, List.getElem?_eq_getElem hk]
    exact List.getElem_mem hk
  unfold seen
  refine Finset.sum_congr rfl fun i _ => Finset.sum_congr rfl fun j _ => ?_
  change w.coef q i j * _ = _
  congr 1
  unfold view
  change w.k * _ = _
  congr 2
  · refine Finset.sum_congr rfl fun l hl => ?_
    have hl := Finset.mem_range.mp hl
    have := bil_grow w.geom m (o.layerAlts.getD l 0) (hin w hw _ (.inl (alt _ _ hl))) (v.1 l) (v'.1 l) (fun a b ha hb ⟨x, hx, y, hy, h3, h4⟩ => h1 l hl a b (hs ▸ ha) (hs ▸ hb) ⟨w, hw, x, hx, y, hy, h3, h4⟩) i j
    have e : (grow m o).scrn = w.geom.scrn + 2 * m := by rw [hs]; rfl
    rw [e, ← hs]
    exact this
  · refine Finset.sum_congr rfl fun l hl => ?_
    have hl := Finset.mem_range.mp hl
    have := bil_grow w.geom m (o.dmAlts.getD l 0) (hin w hw _ (.inr (alt _ _ hl))) (v.2 l) (v'.2 l) (fun a b ha hb _ => h2 l hl a b (hs ▸ ha) (hs ▸ hb)) i j
    have e : (grow m o).scrn = w.geom.scrn + 2 * m := by rw [hs]; rfl
    rw [e, ← hs]
    exact this

private theorem meas_grow {o : Optics} (ho : Optics.Sound o) (hin : AllInside o) (m : ℕ) (v v' : Stack) (h1 : ∀ l, l < o.layerAlts.length → ∀ a b, a < o.scrn → b < o.scrn → InBeam o l a b → v'.1 l (a + m) (b + m) = v.1 l a b)
    (h2 : ∀ l, l < o.dmAlts.length → Centre m o.scrn (v.2 l) (v'.2 l)) : ∀ ws : List LinWfs, (∀ w ∈ ws, w ∈ o.wfss) → ∀ q, measAt (grow m o) (ws.map (growWfs m)) v' q = measAt o ws v q
  | [], _, _ => rfl
  | w :: ws, h, q => by
    rw [List.map_cons, measAt, measAt, meas_grow ho hin m v v' h1 h2 ws (fun x hx => h x (by simp [hx])), seen_grow ho hin m w (h w (by simp)) v v' h1 h2]
    rfl

private theorem total_grow (o : Optics) (m : ℕ) : (grow m o).totalMeas = o.totalMeas := by
  unfold Optics.totalMeas grow
  rw [List.map_map]
  rfl

/-! ### Mirrors -/

/-- The surface of a mirror whose size has the parity of the screens: its shape without the mean, centred. -/
theorem surface_centred (S n : ℕ) (hp : (S + n) % 2 = 0) (shapes : List Arr2) (c : List ℚ) (s : Arr2) (hs : makeDMFrame n shapes c = .ok s) :
    ∃ a, dmFrame S n 0 shapes (zero2 S) c = .ok a ∧ ∀ i j, i < S → j < S → a.px i j = centred S n (fun i j => s.px i j - s.mean) i j := by
  rcases lt_trichotomy n S with h | h | h
  · obtain ⟨p, hp⟩ : ∃ p : ℕ, S = n + 2 * p := ⟨(S - n) / 2, by omega⟩
    refine ⟨_, (dmFrame_even S n p shapes (zero2 S) c s hs rfl rfl).2.2 (by omega) hp, fun i j hi hj => ?_⟩
    unfold centred
    have hoff : ((S : ℤ) - n) / 2 = p := by omega
    rw [hoff]
    dsimp only
    by_cases hin : p ≤ i ∧ i < p + n ∧ p ≤ j ∧ j < p + n
    · rw [if_pos hin, if_pos (by omega), show ((i : ℤ) - p).toNat = i - p by omega, show ((j : ℤ) - p).toNat = j - p by omega]
    · rw [if_neg hin, if_neg (by omega)]
      rfl
  · refine ⟨_, (dmFrame_even S n 0 shapes (zero2 S) c s hs rfl rfl).1 h, fun i j hi hj => ?_⟩
    unfold centred
    have hoff : ((S : ℤ) - n) / 2 = 0 := by omega
    rw [hoff]
    dsimp only
    rw [if_pos (by omega)]
    simp
  · obtain ⟨p, hp⟩ : ∃ p : ℕ, n = S + 2 * p := ⟨(n - S) / 2, by omega⟩
    refine ⟨_, (dmFrame_even S n p shapes (zero2 S) c s hs rfl rfl).2.1 (by omega) hp, fun i j hi hj => ?_⟩
    unfold centred
    have hoff : ((S : ℤ) - n) / 2 = -(p : ℤ) := by omega
    rw [hoff]
    dsimp only
    rw [if_pos (by omega), show ((i : ℤ) - -(p : ℤ)).toNat = p + i by omega, show ((j : ℤ) - -(p : ℤ)).toNat = p + j by omega]

/-- **C138 (mirrors).**  The surface of a mirror on larger screens is the surface it had, continued on the new pixels; it fails where it failed. -/
theorem C138_surface (S m n : ℕ) (hp : (S + n) % 2 = 0) (shapes : List Arr2) (c : List ℚ) :
    (∃ e, dmFrame S n 0 shapes (zero2 S) c = .error e ∧ dmFrame (S + 2 * m) n 0 shapes (zero2 (S + 2 * m)) c = .error e) ∨
      ∃ a a', dmFrame S n 0 shapes (zero2 S) c = .ok a ∧ dmFrame (S + 2 * m) n 0 shapes (zero2 (S + 2 * m)) c = .ok a' ∧ Centre m S a.px a'.px := by
  cases hs : makeDMFrame n shapes c with
  | error e =>
    left
    refine ⟨e, ?_, ?_⟩ <;> · unfold dmFrame; rw [hs]
  | ok s =>
    right
    obtain ⟨a, e1, e2⟩ := surface_centred S n hp shapes c s hs
    obtain ⟨a', e3, e4⟩ := surface_centred (S + 2 * m) n (by omega) shapes c s hs
    refine ⟨a, a', e1, e3, fun i j hi hj => ?_⟩
    rw [e2 i j hi hj, e4 _ _ (by omega) (by omega)]
    unfold centred
    have hoff : (((S + 2 * m : ℕ) : ℤ) - n) / 2 = ((S : ℤ) - n) / 2 + m := by omega
    rw [hoff]
    dsimp only
    have e1 : (((i + m : ℕ) : ℤ) - (((S : ℤ) - n) / 2 + m)) = i - ((S : ℤ) - n) / 2 := by push_cast; ring
    have e2 : (((j + m : ℕ) : ℤ) - (((S : ℤ) - n) / 2 + m)) = j - ((S : ℤ) - n) / 2 := by push_cast; ring
    rw [e1, e2]

private theorem slot_centre (m S k : ℕ) (a a' : Arr2) (h : Centre m S a.px a'.px) : CentreStack m S (slot S k a) (slot (S + 2 * m) k a') := by
  refine ⟨fun l i j _ _ => rfl, fun l i j hi hj => ?_⟩
  simp only [slot]
  by_cases hl : l = k
  · rw [if_pos ⟨hl, by omega, by omega⟩, if_pos ⟨hl, hi, hj⟩, h i j hi hj]
  · rw [if_neg (by tauto), if_neg (by tauto)]

/-- **C138 (poke).**  Surfaces that agree on the smaller screens are answered by the same measurements. -/
theorem C138_poke {o : Optics} (ho : Optics.Sound o) (hin : AllInside o) (m k : ℕ) (a a' : Arr2) (h : Centre m o.scrn a.px a'.px) : (grow m o).poke k a' = o.poke k a := by
  have e : ∀ (o : Optics), Optics.Sound o → ∀ a, o.poke k a = (List.range o.totalMeas).map (measAt o o.wfss (0, -(slot o.scrn k a).2)) := by
    intro o ho a
    unfold Optics.poke
    rw [runWfs_none o ho _ _ fun _ h => h, runWfs_eq o ho _ _ _ fun _ h => h]
    rfl
  rw [e o ho, e (grow m o) (grow_sound ho m), total_grow]
  refine List.map_congr_left fun q _ => ?_
  refine meas_grow ho hin m _ _ (fun _ _ _ _ _ _ _ => rfl) (fun l _ i j hi hj => ?_) o.wfss (fun _ h => h) q
  simp only [Pi.neg_apply, neg_inj]
  exact (slot_centre m o.scrn k a a' h).2 l i j hi hj

/-- **C138 (calibration).**  On larger screens the same interaction matrix is measured, and the same actuators are kept (or the same exception is raised). -/
theorem C138_calibrate {o : Optics} (ho : Optics.Sound o) (hin : AllInside o) (m totalActs : ℕ) (dms : List Persist.Dm) (hd : ∀ d ∈ dms, (o.scrn + d.nElem) % 2 = 0) : (grow m o).calibrate totalActs dms = o.calibrate totalActs dms := by
  unfold Optics.calibrate
  have key : ∀ (ds : List Persist.Dm), (∀ d ∈ ds, (o.scrn + d.nElem) % 2 = 0) → ∀ k, Persist.makeIMat ⟨totalActs, (grow m o).totalMeas, (grow m o).scrn⟩ (grow m o).poke k ds = Persist.makeIMat ⟨totalActs, o.totalMeas, o.scrn⟩ o.poke k ds := by
    intro ds
    induction ds with
    | nil => intro _ k; rfl
    | cons d ds ih =>
      intro hd k
      rw [Persist.makeIMat, Persist.makeIMat, ih (fun x hx => hd x (by simp [hx])) (k + 1)]
      have hrow : ∀ i, pokeRow d.nActs (fun c => dmFrame (grow m o).scrn d.nElem 0 d.shapes (zero2 (grow m o).scrn) c) ((grow m o).poke k) i = pokeRow d.nActs (fun c => dmFrame o.scrn d.nElem 0 d.shapes (zero2 o.scrn) c) (o.poke k) i := by
        intro i
        unfold pokeRow
        rcases C138_surface o.scrn m d.nElem (hd d (by simp)) d.shapes (unit d.nActs i) with ⟨e, e1, e2⟩ | ⟨a, a', e1, e2, e3⟩
        · simp only [grow]; rw [e1, e2]
        · simp only
          rw [e1, show (grow m o).scrn = o.scrn + 2 * m from rfl, e2]
          simp only
          rw [C138_poke ho hin m k a a' e3]
      have : makeDmIMat d.nActs (grow m o).totalMeas (fun c => dmFrame (grow m o).scrn d.nElem 0 d.shapes (zero2 (grow m o).scrn) c) ((grow m o).poke k) = makeDmIMat d.nActs o.totalMeas (fun c => dmFrame o.scrn d.nElem 0 d.shapes (zero2 o.scrn) c) (o.poke k) := by
        unfold makeDmIMat
        rw [funext hrow, total_grow]
      simp only
      rw [this]
  exact key dms hd 0

/-! ### The loop -/

theorem renV_self {α : Type} {ns : List ℕ} {x x' : List α} (h : RenV id ns ns x x') : x' = x := by
  apply List.ext_getElem?
  intro p
  by_cases hp : p < ns.sum
  · have : ∀ (ns : List ℕ) (p : ℕ), p < ns.sum → ∃ k n j, ns[k]? = some n ∧ j < n ∧ p = before ns k + j := by
      intro ns
      induction ns with
      | nil => intro p hp; simp at hp
      | cons a ns ih =>
        intro p hp
        by_cases hpa : p < a
        · exact ⟨0, a, p, rfl, hpa, by simp [before]⟩
        · obtain ⟨k, n, j, h1, h2, h3⟩ := ih (p - a) (by simp at hp; omega)
          refine ⟨k + 1, n, j, by simpa using h1, h2, ?_⟩
          simp only [before, List.take_succ_cons, List.sum_cons] at h3 ⊢
          omega
    obtain ⟨k, n, j, h1, h2, rfl⟩ := this ns p hp
    exact h.get k n h1 j h2
  · rw [List.getElem?_eq_none (by rw [h.len']; omega), List.getElem?_eq_none (by rw [h.len]; omega)]

theorem renV_refl {α : Type} {ns : List ℕ} {x : List α} (h : x.length = ns.sum) : RenV id ns ns x x := ⟨h, h, fun _ _ _ _ _ => rfl⟩

theorem ren_refl {α : Type} (l : List α) : Ren id l l := ⟨rfl, fun _ _ _ _ h => h, fun _ h => ⟨h, rfl⟩⟩

private theorem centre_add {m S : ℕ} {a b a' b' : Stack} (x : CentreStack m S a a') (y : CentreStack m S b b') : CentreStack m S (a + b) (a' + b') := by
  refine ⟨fun l i j hi hj => ?_, fun l i j hi hj => ?_⟩
  · simp only [Prod.fst_add, Pi.add_apply]
    rw [x.1 l i j hi hj, y.1 l i j hi hj]
  · simp only [Prod.snd_add, Pi.add_apply]
    rw [x.2 l i j hi hj, y.2 l i j hi hj]

private theorem centre_sum {m S n : ℕ} {c c' : List Stack} (h : RenS id n (fun _ => CentreStack m S) c c') : CentreStack m S c.sum c'.sum := by
  have : List.Forall₂ (CentreStack m S) c c' := by
    rw [List.forall₂_iff_get]
    refine ⟨by rw [h.len, h.len'], fun i h1 h2 => ?_⟩
    obtain ⟨s, s', e1, e2, e3⟩ := h.get i (by rw [← h.len]; exact h1)
    rw [id, List.getElem?_eq_getElem h1, Option.some.injEq] at e1
    rw [List.getElem?_eq_getElem h2, Option.some.injEq] at e2
    rw [List.get_eq_getElem, List.get_eq_getElem, e1, e2]
    exact e3
  clear h
  induction this with
  | nil => exact ⟨fun _ _ _ _ _ => rfl, fun _ _ _ _ _ => rfl⟩
  | cons h _ ih =>
    rw [List.sum_cons, List.sum_cons]
    exact centre_add h ih

/-- Turbulence that is the same in the beams of the sensors. -/
def SameInBeams (o : Optics) (m : ℕ) (turb turb' : ℕ → ℕ → ℕ → ℕ → ℚ) : Prop := ∀ i l, l < o.layerAlts.length → ∀ a b, a < o.scrn → b < o.scrn → InBeam o l a b → turb' i l (a + m) (b + m) = turb i l a b

/-- **C138 (sensors).**  With screens larger by `m` pixels on each side, the same turbulence in the beams and corrections that agree on the smaller screens, the sensors measure the same.  Nothing is assumed of the turbulence elsewhere. -/
theorem C138_sense {o : Optics} (ho : Optics.Sound o) (hin : AllInside o) (m : ℕ) (turb turb' : ℕ → ℕ → ℕ → ℕ → ℚ) (ht : SameInBeams o m turb turb') (i : ℕ) (c c' : List Stack) (hc : CentreStack m o.scrn c.sum c'.sum) :
    ((grow m o).plant turb').sense () i c' = (o.plant turb).sense () i c := by
  rw [sense_eq o ho, sense_eq (grow m o) (grow_sound ho m), total_grow]
  congr 2
  refine List.map_congr_left fun q _ => ?_
  rw [senses_apply, senses_apply]
  refine meas_grow ho hin m _ _ (fun l hl a b ha hb hab => ?_) (fun l _ a b ha hb => ?_) o.wfss (fun _ h => h) q
  · simp only [Prod.fst_sub, Pi.sub_apply]
    rw [ht i l hl a b ha hb hab, hc.1 l a b ha hb]
  · simp only [Prod.snd_sub, Pi.sub_apply, Pi.zero_apply]
    rw [hc.2 l a b ha hb]

/-- **C138 (loop).**  A run of the loop on larger screens: the same commands and measurements in every frame, corrections that agree on the smaller screens, whatever the turbulence outside the beams. -/
theorem C138_loop {o : Optics} (ho : Optics.Sound o) (hin : AllInside o) (m : ℕ) {D : List Persist.Dm} (hd : ∀ d ∈ D, (o.scrn + d.nElem) % 2 = 0) (P : List (List ℚ)) (hP : ∀ r ∈ P, r.length = (actuators D).sum) (delay : ℤ) (nIters nActs : ℕ) (saveSlopes saveDm : Bool)
    (turb turb' : ℕ → ℕ → ℕ → ℕ → ℚ) (ht : SameInBeams o m turb turb') {ctl : List DmCtl} (hctl : ctl.map DmCtl.nValid = actuators D) {frames : List (List DmCtl)} (hf : ∀ f ∈ frames, f.map DmCtl.nValid = actuators D)
    {s : Loop.State Unit Stack} {t : List (Trace Stack)} (hrun : runLoop (o.sys D P delay nIters saveSlopes saveDm) (o.plant turb) (initial (o.sys D P delay nIters saveSlopes saveDm) ctl o.totalMeas nActs ()) frames = .ok (s, t)) :
    ∃ s' t', runLoop ((grow m o).sys D P delay nIters saveSlopes saveDm) ((grow m o).plant turb') (initial ((grow m o).sys D P delay nIters saveSlopes saveDm) ctl (grow m o).totalMeas nActs ()) frames = .ok (s', t') ∧
      t'.map Trace.cmds = t.map Trace.cmds ∧ t'.map Trace.slopes = t.map Trace.slopes ∧ s'.allSlopes = s.allSlopes ∧
      List.Forall₂ (fun x x' => CentreStack m o.scrn x.seenByWfs.sum x'.seenByWfs.sum ∧ CentreStack m o.scrn x.seenBySci.sum x'.seenBySci.sum) t t' := by
  have hsys : RenSys id (actuators D) (actuators D) Eq (fun _ => CentreStack m o.scrn) (o.sys D P delay nIters saveSlopes saveDm) ((grow m o).sys D P delay nIters saveSlopes saveDm) := by
    refine ⟨fun k hk c s h1 => ?_, fun a a' u hq h1 => ?_, rfl, rfl, rfl, rfl⟩
    · simp only [Optics.sys, id] at h1 ⊢
      have hk : k < D.length := by simpa [actuators] using hk
      rw [List.getElem?_eq_getElem hk] at h1 ⊢
      simp only at h1 ⊢
      rcases C138_surface o.scrn m D[k].nElem (hd _ (List.getElem_mem hk)) D[k].shapes c with ⟨e, e1, e2⟩ | ⟨a, a', e1, e2, e3⟩
      · rw [e1] at h1; simp at h1
      · rw [e1] at h1
        simp only [Except.ok.injEq] at h1
        subst h1
        rw [show (grow m o).scrn = o.scrn + 2 * m from rfl, e2]
        exact ⟨_, rfl, slot_centre m o.scrn k a a' e3⟩
    · subst hq
      refine ⟨u, h1, renV_refl ?_⟩
      simp only [Optics.sys] at h1
      by_cases hl : P.length = a.length
      · obtain ⟨c, c1, c2, _⟩ := tdot_get (actuators D).sum P a hl hP
        rw [show (D.map fun d : Persist.Dm => d.shapes.length) = actuators D from rfl, c1, Except.ok.injEq] at h1
        rw [← h1, c2]
      · unfold Control.tdot at h1
        rw [if_neg hl] at h1
        cases h1
  have hpl : RenPlant id (actuators D).length Eq (fun _ => CentreStack m o.scrn) (fun _ _ => True) (o.plant turb) ((grow m o).plant turb') := by
    refine ⟨fun s s' i c c' t a _ hc h1 => ?_⟩
    refine ⟨t, a, ?_, trivial, rfl⟩
    rw [← h1]
    exact C138_sense ho hin m turb turb' ht i c c' (centre_sum hc)
  have hz : CentreStack m o.scrn (0 : Stack) 0 := ⟨fun _ _ _ _ _ => rfl, fun _ _ _ _ _ => rfl⟩
  have hff : List.Forall₂ (RenDms id (actuators D) (actuators D)) frames frames := by
    rw [List.forall₂_same]
    exact fun f hf' => ⟨ren_refl f, hf f hf', hf f hf'⟩
  obtain ⟨s', t', r1, r2, r3⟩ := C128_loop (fun _ _ _ _ _ x y => centre_add x y) (fun a b h => by rw [h]) hsys hpl hff
    (C128_initial hsys ⟨ren_refl ctl, hctl, hctl⟩ o.totalMeas (grow m o).totalMeas nActs () () trivial (by rw [total_grow]) fun _ => hz) hrun
  refine ⟨s', t', r1, ?_, ?_, ?_, ?_⟩
  · have : ∀ {t t' : List (Trace Stack)}, List.Forall₂ (RenTrace id (actuators D) (actuators D) Eq fun _ => CentreStack m o.scrn) t t' → t'.map Trace.cmds = t.map Trace.cmds := by
      intro t t' h
      induction h with
      | nil => rfl
      | cons h _ ih => rw [List.map_cons, List.map_cons, ih, renV_self h.cmds]
    exact this r3
  · have : ∀ {t t' : List (Trace Stack)}, List.Forall₂ (RenTrace id (actuators D) (actuators D) Eq fun _ => CentreStack m o.scrn) t t' → t'.map Trace.slopes = t.map Trace.slopes := by
      intro t t' h
      induction h with
      | nil => rfl
      | cons h _ ih => rw [List.map_cons, List.map_cons, ih, h.slopes]
    exact this r3
  · exact (List.forall₂_eq_eq_eq ▸ r2.allSlopes : s.allSlopes = s'.allSlopes).symm
  · exact r3.imp fun _ _ h => ⟨centre_sum h.seenByWfs, centre_sum h.seenBySci⟩

/-- **C138 (outside the beams).**  Turbulence that differs only outside the beams of the sensors makes no difference to the loop. -/
theorem C138_outside {o : Optics} (ho : Optics.Sound o) (hin : AllInside o) {D : List Persist.Dm} (hd : ∀ d ∈ D, (o.scrn + d.nElem) % 2 = 0) (P : List (List ℚ)) (hP : ∀ r ∈ P, r.length = (actuators D).sum) (delay : ℤ) (nIters nActs : ℕ) (saveSlopes saveDm : Bool)
    (turb turb' : ℕ → ℕ → ℕ → ℕ → ℚ) (ht : SameInBeams o 0 turb turb') {ctl : List DmCtl} (hctl : ctl.map DmCtl.nValid = actuators D) {frames : List (List DmCtl)} (hf : ∀ f ∈ frames, f.map DmCtl.nValid = actuators D)
    {s : Loop.State Unit Stack} {t : List (Trace Stack)} (hrun : runLoop (o.sys D P delay nIters saveSlopes saveDm) (o.plant turb) (initial (o.sys D P delay nIters saveSlopes saveDm) ctl o.totalMeas nActs ()) frames = .ok (s, t)) :
    ∃ s' t', runLoop (o.sys D P delay nIters saveSlopes saveDm) (o.plant turb') (initial (o.sys D P delay nIters saveSlopes saveDm) ctl o.totalMeas nActs ()) frames = .ok (s', t') ∧
      t'.map Trace.cmds = t.map Trace.cmds ∧ t'.map Trace.slopes = t.map Trace.slopes := by
  have e : grow 0 o = o := by
    have : growWfs 0 = id := rfl
    unfold grow
    rw [this, List.map_id]
    rfl
  obtain ⟨s', t', h1, h2, h3, _⟩ := C138_loop ho hin 0 hd P hP delay nIters nActs saveSlopes saveDm turb turb' ht hctl hf hrun
  rw [e] at h1
  exact ⟨s', t', h1, h2, h3⟩

/-! ### What makes screens larger -/

open Soapy.Conf in
/-- The size of the screens for targets further out: larger by an even number of pixels. -/
private theorem scrnSize_further (s hM a b : ℚ) (n : ℕ) (phys : Bool) (hs : 0 ≤ s) (hh : 0 ≤ hM) (hab : |a| ≤ |b|) : ∃ m, scrnSizeOf s hM b n phys = scrnSizeOf s hM a n phys + 2 * m := by
  have h1 : 2 * s * hM * |a| * asec2rad ≤ 2 * s * hM * |b| * asec2rad := by
    have := asec2rad_pos
    gcongr
  have h2 := Int.ceil_le_ceil h1
  have h0 : 0 ≤ ⌈2 * s * hM * |a| * asec2rad⌉ := Int.ceil_nonneg (by have := asec2rad_pos; positivity)
  unfold scrnSizeOf
  simp only
  generalize ⌈2 * s * hM * |a| * asec2rad⌉ = u at *
  generalize ⌈2 * s * hM * |b| * asec2rad⌉ = v at *
  have h3 : (u + (n : ℤ)).toNat ≤ (v + (n : ℤ)).toNat := by omega
  generalize (u + (n : ℤ)).toNat = p at *
  generalize (v + (n : ℤ)).toNat = q at *
  cases phys
  · simp only [Bool.false_eq_true, if_false]
    refine ⟨((if q % 2 ≠ 0 then q + 1 else q) - if p % 2 ≠ 0 then p + 1 else p) / 2, ?_⟩
    split_ifs <;> omega
  · simp only [if_true]
    refine ⟨(if q % 2 ≠ 0 then q + 1 else q) - if p % 2 ≠ 0 then p + 1 else p, ?_⟩
    split_ifs <;> omega

private theorem foldl_max_append (l k : List ℚ) (a : ℚ) : l.foldl max a ≤ (l ++ k).foldl max a := by
  rw [List.foldl_append]
  exact (foldl_max_ge k _).1

open Soapy.Conf in
/-- **C138 (one more target).**  A science target added to a configuration with a guide star changes, of the derived parameters, only the size of the screens, which grows by as many pixels on one side as on the other. -/
theorem C138_target (c d d' : Config) (x : Sci) (hc : calcParams c = .ok d) (hc' : calcParams { c with scis := c.scis ++ [x], nSci := c.nSci + 1 } = .ok d') (hn : c.nSci = c.scis.length) (ht : 0 < c.telDiam) (hh : ∀ h ∈ c.heights, 0 ≤ h) (hg : c.nGS ≠ 0) :
    ∃ D m, d.derived = some D ∧ d'.derived = some { D with scrnSize := D.scrnSize + 2 * m } ∧ d'.wfss = d.wfss ∧ d'.dms = d.dms := by
  obtain ⟨scis, ps, a1, a2, a3, a4, a5, a6⟩ := calcParams_ok c d hc
  obtain ⟨scis', ps', b1, b2, b3, b4, b5, b6⟩ := calcParams_ok _ d' hc'
  have hsc : ∃ y, scis' = scis ++ [y] := by
    have split : ∀ (l : List Sci) (r : List Sci), mapE sciCalc (l ++ [x]) = .ok r → ∃ u y, mapE sciCalc l = .ok u ∧ r = u ++ [y] := by
      intro l
      induction l with
      | nil =>
        intro r h
        have := mapE_ok _ _ _ h
        cases this with
        | cons e1 e2 => cases e2; exact ⟨[], _, rfl, rfl⟩
      | cons a l ih =>
        intro r h
        have := mapE_ok _ _ _ h
        cases this with
        | cons e1 e2 =>
          obtain ⟨u, y, h1, rfl⟩ := ih _ (mapE_of_forall _ _ _ e2)
          refine ⟨_ :: u, y, mapE_of_forall _ _ _ (.cons e1 (mapE_ok _ _ _ h1)), rfl⟩
    obtain ⟨u, y, h1, h2⟩ := split _ _ b1
    rw [a1, Except.ok.injEq] at h1
    exact ⟨y, by rw [h1]; exact h2⟩
  obtain ⟨y, rfl⟩ := hsc
  have hlen : scis.length = c.nSci := by rw [hn, (mapE_ok _ _ _ a1).length_eq]
  have hps : ∃ z, ps' = ps ++ z := by
    unfold positions at a4 b4
    simp only at a4 b4
    cases hm : mapE (gsCoords c.telDiam) (c.wfss.take c.nGS) with
    | error e => rw [hm] at a4; cases a4
    | ok gs =>
      rw [hm] at a4 b4
      simp only [Except.bind, Except.ok.injEq] at a4 b4
      refine ⟨[y.pos.1, y.pos.2], ?_⟩
      rw [← a4, ← b4, List.take_of_length_le (le_of_eq hlen), List.take_of_length_le (by rw [List.length_append, hlen]; rfl)]
      simp
  obtain ⟨z, rfl⟩ := hps
  have hmax : |maxOf ps| ≤ |maxOf (ps ++ z)| := by
    have hpos : 0 ≤ maxOf ps ∧ ps ≠ [] := by
      unfold positions at a4
      cases hm : mapE (gsCoords c.telDiam) (c.wfss.take c.nGS) with
      | error e => rw [hm] at a4; cases a4
      | ok gs =>
        rw [hm] at a4
        simp only [Except.bind, Except.ok.injEq] at a4
        have hall := mapE_ok _ _ _ hm
        have hw : c.wfss ≠ [] := by
          intro h
          apply a3
          left
          rw [h]
          simpa using Nat.pos_of_ne_zero hg
        obtain ⟨w, ws, hw⟩ := List.exists_cons_of_ne_nil hw
        obtain ⟨k, hk⟩ := Nat.exists_eq_succ_of_ne_zero hg
        rw [hw, hk, Nat.succ_eq_add_one, List.take_succ_cons] at hall
        cases hall with
        | cons e1 _ =>
        rename_i g gs' _
        have : ∃ r : ℚ, r ∈ g ∧ 0 ≤ r := by
          unfold gsCoords at e1
          split at e1
          · cases e1; exact ⟨_, List.mem_cons_self, abs_nonneg _⟩
          · split_ifs at e1
            · cases e1; exact ⟨_, List.mem_cons_self, abs_nonneg _⟩
            · cases e1; exact ⟨_, List.mem_cons_self, abs_nonneg _⟩
        obtain ⟨r, hr, h0⟩ := this
        have hmem : r ∈ ps := by rw [← a4]; simp [hr]
        exact ⟨le_trans h0 (maxOf_ge _ _ hmem), List.ne_nil_of_mem hmem⟩
    have hle : maxOf ps ≤ maxOf (ps ++ z) := by
      obtain ⟨p, ps, rfl⟩ := List.exists_cons_of_ne_nil hpos.2
      exact foldl_max_append ps z p
    rw [abs_of_nonneg hpos.1, abs_of_nonneg (le_trans hpos.1 hle)]
    exact hle
  have hM : 0 ≤ maxOf c.heights := by
    obtain ⟨h, hs, e⟩ := List.exists_cons_of_ne_nil a5
    have : h ∈ c.heights := by rw [e]; exact List.mem_cons_self
    exact le_trans (hh h this) (maxOf_ge _ _ this)
  obtain ⟨m, hm⟩ := scrnSize_further (c.pupil / c.telDiam) (maxOf c.heights) (maxOf ps) (maxOf (ps ++ z)) (c.pupil + 2 * simPadOf c.pupil c.oversize) ((c.wfss.take c.nGS).any fun w => w.physical) (by positivity) hM hmax
  refine ⟨_, m, by rw [a6], ?_, by rw [a6, b6], by rw [a6, b6]⟩
  rw [b6]
  simp only
  rw [hm]

/-! ### An example: two layers, two mirrors, two sensors; ten more pixels on each side -/

private theorem whole_inside : AllInside wholeOptics := by
  intro w hw h hh x hx
  simp only [wholeOptics, List.mem_cons, List.not_mem_nil, or_false, or_self] at hw hh
  have : x = 2 ∨ x = 3 ∨ x = 4 := by
    rcases hw with rfl | rfl <;> rcases hh with rfl | rfl <;>
      · simp [rowsOf, colsOf, altitudeCoords, edges, footprint, wholeWfs, Interp.linspace, List.range_succ] at hx
        norm_num at hx
        tauto
  rcases hw with rfl | rfl <;> rcases this with rfl | rfl | rfl <;> norm_num [wholeWfs]

example (turb : ℕ → ℕ → ℕ → ℕ → ℚ) (noise : ℕ → ℕ → ℕ → ℕ → ℚ) : ∃ D s t s' t', (grow 10 wholeOptics).calibrate 4 wholeDms = .ok (D, wholeImat) ∧
    runLoop (wholeOptics.sys D wholeCmat 1 100 true false) (wholeOptics.plant turb) (initial (wholeOptics.sys D wholeCmat 1 100 true false) (controls D [1 / 2, 1 / 4]) 4 4 ()) (List.replicate 100 (controls D [1 / 2, 1 / 4])) = .ok (s, t) ∧
    runLoop ((grow 10 wholeOptics).sys D wholeCmat 1 100 true false) ((grow 10 wholeOptics).plant fun i l a b => if 10 ≤ a ∧ a < 16 ∧ 10 ≤ b ∧ b < 16 then turb i l (a - 10) (b - 10) else noise i l a b)
      (initial ((grow 10 wholeOptics).sys D wholeCmat 1 100 true false) (controls D [1 / 2, 1 / 4]) 4 4 ()) (List.replicate 100 (controls D [1 / 2, 1 / 4])) = .ok (s', t') ∧
    t.length = 100 ∧ t'.map Trace.cmds = t.map Trace.cmds := by
  obtain ⟨D, h1, h2⟩ := whole_ok
  have hpar : ∀ d ∈ wholeDms, (wholeOptics.scrn + d.nElem) % 2 = 0 := by
    intro d hd
    simp only [wholeDms, List.mem_cons, List.not_mem_nil, or_false] at hd
    rcases hd with rfl | rfl <;> rfl
  obtain ⟨s, t, r1, r2, _⟩ := C111_whole wholeOptics whole_sound 4 wholeDms D wholeImat h1 (by simp [wholeDms])
    (by intro d hd; simp only [wholeDms, List.mem_cons, List.not_mem_nil, or_false] at hd; rcases hd with rfl | rfl <;> exact ⟨rfl, rfl⟩) h2 wholeCmat rfl (by decide) whole_undoes
    [1 / 2, 1 / 4] rfl 1 100 4 100 (by norm_num) true false (fun h => nomatch h) turb
  have h3 : (wholeOptics.calibrate 4 wholeDms).map (fun p => p.1.map fun d => (d.shapes.length, d.nElem)) = .ok [(2, 2), (1, 6)] := by decide +kernel
  rw [h1] at h3
  simp only [Except.map, Except.ok.injEq] at h3
  have hDl : D.length = 2 := by simpa using congrArg List.length h3
  obtain ⟨a, b, rfl⟩ := List.length_eq_two.mp hDl
  · simp only [List.map_cons, List.map_nil, List.cons.injEq, Prod.mk.injEq, and_true] at h3
    obtain ⟨⟨p1, p2⟩, p3, p4⟩ := h3
    have hctl : (controls [a, b] [1 / 2, 1 / 4]).map DmCtl.nValid = actuators [a, b] := rfl
    obtain ⟨s', t', q1, q2, _⟩ := C138_loop whole_sound whole_inside 10 (D := [a, b]) (by
        intro d hd
        simp only [List.mem_cons, List.not_mem_nil, or_false] at hd
        rcases hd with rfl | rfl
        · rw [p2]; rfl
        · rw [p4]; rfl) wholeCmat (by
        have : (actuators [a, b]).sum = 3 := by simp [actuators, p1, p3]
        rw [this]
        decide) 1 100 4 true false turb (fun i l a b => if 10 ≤ a ∧ a < 16 ∧ 10 ≤ b ∧ b < 16 then turb i l (a - 10) (b - 10) else noise i l a b) (by
        intro i l _ a b ha hb _
        have ha : a < 6 := ha
        have hb : b < 6 := hb
        simp only
        rw [if_pos (by omega), Nat.add_sub_cancel, Nat.add_sub_cancel]) hctl (by
        intro f hf
        rw [List.eq_of_mem_replicate hf]
        exact hctl) r1
    exact ⟨[a, b], s, t, s', t', (C138_calibrate whole_sound whole_inside 10 4 wholeDms hpar).trans h1, r1, q1, r2, q2⟩

open Soapy.Conf in
/-- A target at ten arc seconds added to a simulation with one guide star on axis and a layer at 10 km: 36 pixels become 68. -/
example : ∃ d d', calcParams ⟨32, 9 / 8, 1, 0, 1, 1, [10000], 1, none, [⟨(0, 0), 0, none, false, none, 2, false⟩], [], [], none⟩ = .ok d ∧
    calcParams ⟨32, 9 / 8, 1, 1, 1, 1, [10000], 1, none, [⟨(0, 0), 0, none, false, none, 2, false⟩], [], [⟨(10, 0), some 1, none, 8⟩], none⟩ = .ok d' ∧ d.derived = some ⟨32, 2, 36, 36⟩ ∧ d'.derived = some ⟨32, 2, 36, 36 + 2 * 16⟩ := by
  refine ⟨_, _, rfl, rfl, ?_, ?_⟩ <;> decide +kernel

/-! ### No margin at all -/

/-- A sensor of 2 × 2 pixels that reports the last of them, on screens of 2 × 2 pixels (as when all sensors and targets are on axis). -/
def tightOptics : Optics := ⟨2, [0], [], [⟨⟨false, (0, 0), (0, 0), 0, 2, 1, 2, 2⟩, 1, 1, fun _ i j => if i = 1 ∧ j = 1 then 1 else 0⟩]⟩

/-- **C138 (no margin).**  If the beam fills the screen, the last sample is moved by a thousand-millionth of a pixel (lineofsight.py:181), and the measurement is not quite the one on larger screens. -/
theorem C138_no_margin : Optics.Sound tightOptics ∧ ∃ turb turb' : ℕ → ℕ → ℕ → ℕ → ℚ, SameInBeams tightOptics 1 turb turb' ∧
    (tightOptics.plant turb).sense () 0 [] = .ok ((), [1 - 1 / 1000000000]) ∧ ((grow 1 tightOptics).plant turb').sense () 0 [] = .ok ((), [1]) := by
  refine ⟨⟨by decide, fun w hw => ?_⟩, fun _ _ a _ => a, fun _ _ a _ => (a : ℚ) - 1, fun i l _ a b _ _ _ => by push_cast; ring, by decide +kernel, by decide +kernel⟩
  simp only [tightOptics, List.mem_cons, List.not_mem_nil, or_false] at hw
  subst hw
  exact ⟨rfl, by norm_num⟩

end Soapy.Props
