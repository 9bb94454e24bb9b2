/-
Property theorems C30–C33: lines of sight.
-/
import Verif.Lemmas.Los
import Verif.Props.Interp
import Mathlib.Tactic.LinearCombination

namespace Soapy.Props

open Soapy.Mirror Soapy.Interp Soapy.Los

/-- **C30.** Whatever the direction, launch position, source height, scale and altitude, all sample coordinates on an `S × S` screen, `S ≥ 2`, lie in `[0, S-1)`, so that
interpolating the screen without bounds checks only reads samples that exist. -/
theorem C30_in_bounds (g : Geom) (h : ℚ) (a : Arr2) (hS : 2 ≤ g.scrn) (hr : a.rows = g.scrn) (hc : a.cols = g.scrn) :
    (metapupilCoords g h).1.length = g.nOut ∧ (metapupilCoords g h).2.length = g.nOut ∧
    (∀ x ∈ (metapupilCoords g h).1 ++ (metapupilCoords g h).2, 0 ≤ x ∧ x < g.scrn - 1) ∧
    ∃ s, sampled a (metapupilCoords g h) = .ok s := by
  have hx : ∀ x ∈ (metapupilCoords g h).1, 0 ≤ x ∧ x < g.scrn - 1 := by
    intro x hx
    obtain ⟨y, _, rfl⟩ := List.mem_map.mp hx
    exact clip_range g.scrn hS y
  have hy : ∀ x ∈ (metapupilCoords g h).2, 0 ≤ x ∧ x < g.scrn - 1 := by
    intro x hx
    obtain ⟨y, _, rfl⟩ := List.mem_map.mp hx
    exact clip_range g.scrn hS y
  refine ⟨by simp [metapupilCoords, linspace], by simp [metapupilCoords, linspace], ?_, ?_⟩
  · intro x h
    rcases List.mem_append.mp h with h | h
    · exact hx x h
    · exact hy x h
  · exact sampled_ok a _ (by rw [hr]; exact hx) (by rw [hc]; exact hy)

/-- **C30 (unchanged inside).** Clipping leaves coordinates that are inside (up to the last `10⁻⁹` pixel) as they are. -/
theorem C30_identity_inside (g : Geom) (h : ℚ)
    (hx : ∀ x ∈ linspace (altitudeCoords g h).1 ((altitudeCoords g h).2.1 - 1) g.nOut,
      0 ≤ x ∧ x ≤ g.scrn - 1 - 1 / 1000000000) :
    (metapupilCoords g h).1 = linspace (altitudeCoords g h).1 ((altitudeCoords g h).2.1 - 1) g.nOut := by
  unfold metapupilCoords
  dsimp only
  conv_rhs => rw [← List.map_id (linspace _ _ _)]
  apply List.map_congr_left
  intro x hm
  obtain ⟨h1, h2⟩ := hx x hm
  unfold clip
  rw [max_eq_left h1, min_eq_left (by linarith)]
  rfl

/-- A 4 m pupil, 0.5 m pixels on a screen of 12 pixels, star at angle 10⁻⁴, layer at 10 km. -/
def toyGeom : Geom := ⟨false, (1 / 10000, 0), (0, 0), 0, 4, 1 / 2, 12, 8⟩

example : (metapupilCoords toyGeom 10000).1 = [4, 5, 6, 7, 8, 9, 10, 10999999999 / 1000000000] ∧
    (metapupilCoords toyGeom 10000).2 = [2, 3, 4, 5, 6, 7, 8, 9] ∧
    (metapupilCoords toyGeom 0).1 = [2, 3, 4, 5, 6, 7, 8, 9] := by decide +kernel

/-- What an outside observer can see after a frame. -/
def losObs (s : State) : Arr2 × Arr2 × Arr2 := (s.phase, s.residual, s.efield)

/-- **C31 (memoryless).** The outcome of a frame (phase, residual, field, or error) does not depend on what the line of sight did before. -/
theorem C31_memoryless (c : Cfg) (s s' : State) (scrns corr : Option (List Arr2)) :
    (frame c s scrns corr).map losObs = (frame c s' scrns corr).map losObs := by
  unfold frame performCorrection makePhase zeroData
  cases hu : c.up with
  | true =>
    cases corr with
    | none =>
      dsimp only
      cases fill c.layerCoords (c.layerCoords.map fun _ => zero2 c.nOut)
        (scrns.getD (c.layerCoords.map fun _ => zero2 c.scrn)) with
      | error e => rfl
      | ok b => rfl
    | some corr => rfl
  | false =>
    cases corr with
    | none =>
      dsimp only
      cases fill c.layerCoords (c.layerCoords.map fun _ => zero2 c.nOut)
        (scrns.getD (c.layerCoords.map fun _ => zero2 c.scrn)) with
      | error e => rfl
      | ok b => rfl
    | some corr =>
      dsimp only
      cases fill c.layerCoords (c.layerCoords.map fun _ => zero2 c.nOut)
        (scrns.getD (c.layerCoords.map fun _ => zero2 c.scrn)) with
      | error e => rfl
      | ok b => rfl

/-- `v` is the sum over all layers of the interpolated screens at pixel `(i, j)`. -/
def SumOfLayers (coords : List (List ℚ × List ℚ)) (data : List Arr2) (i j : ℕ) (v : ℚ) : Prop :=
  ∃ vs : List ℚ, vs.length = data.length ∧ v = vs.sum ∧
    ∀ (l : ℕ) (d : Arr2), data[l]? = some d → ∃ (c : List ℚ × List ℚ) (x y w : ℚ), coords[l]? = some c ∧ c.1[i]? = some x ∧ c.2[j]? = some y ∧
      vs[l]? = some w ∧ interpVal false d x y = .ok w

theorem fill_sumOfLayers (cs : List (List ℚ × List ℚ)) (n : ℕ) (hn : ∀ c ∈ cs, c.1.length = n ∧ c.2.length = n)
    (bufs data r : List Arr2) (hz : ∀ b ∈ bufs, ∀ i j, b.px i j = 0) (h : fill cs bufs data = .ok r) (i j : ℕ) (hi : i < n) (hj : j < n) :
    SumOfLayers cs data i j (r.map fun b => b.px i j).sum := by
  obtain ⟨h1, h2, h3, h4, _⟩ := fill_spec cs bufs data r h
  refine ⟨List.zipWith (fun c d => layerVal c d i j) cs data, by simp; omega,
    fill_sum cs n hn bufs data r hz h i j hi hj, ?_⟩
  intro l d hd
  have hl : l < data.length := by
    rw [List.getElem?_eq_some_iff] at hd; exact hd.1
  have hcl : l < cs.length := by omega
  have hc : cs[l]? = some cs[l] := List.getElem?_eq_getElem hcl
  have hr : r[l]? = some (r[l]'(by omega)) := List.getElem?_eq_getElem (by omega)
  have hs := h4 l _ d _ hc hd hr
  obtain ⟨_, _, hp⟩ := sampled_px _ _ _ hs
  have hln := hn cs[l] (List.getElem_mem hcl)
  have e1 : cs[l].1[i]? = some (cs[l].1[i]'(by omega)) := List.getElem?_eq_getElem (by omega)
  have e2 : cs[l].2[j]? = some (cs[l].2[j]'(by omega)) := List.getElem?_eq_getElem (by omega)
  have hv := hp i j _ _ e1 e2
  refine ⟨_, _, _, layerVal cs[l] d i j, hc, e1, e2, ?_, ?_⟩
  · rw [List.getElem?_zipWith, hc, hd]
  · unfold layerVal
    rw [e1, e2]
    dsimp only
    rw [hv]

/-- **C31 (additive).** If a frame completes, the phase in every pixel is the factor `2π/λ` times (sum of interpolated screens minus sum of interpolated
corrections), for both directions of propagation, and the field has exactly this phase. -/
theorem C31_additive (c : Cfg) (s t : State) (scrns : List Arr2) (corr : Option (List Arr2)) (hk : c.k ≠ 0)
    (hl : ∀ x ∈ c.layerCoords, x.1.length = c.nOut ∧ x.2.length = c.nOut)
    (hd : ∀ x ∈ c.dmCoords, x.1.length = c.nOut ∧ x.2.length = c.nOut)
    (h : frame c s (some scrns) corr = .ok t) (i j : ℕ) (hi : i < c.nOut) (hj : j < c.nOut) :
    ∃ v w, SumOfLayers c.layerCoords scrns i j v ∧ SumOfLayers c.dmCoords (corr.getD []) i j w ∧
      t.phase.px i j = c.k * (v - w) ∧ t.efield.px i j = c.k * (v - w) := by
  have hzl : ∀ b ∈ (c.layerCoords.map fun _ => zero2 c.nOut), ∀ i j, b.px i j = 0 := by
    intro b hb i j; obtain ⟨_, _, rfl⟩ := List.mem_map.mp hb; rfl
  have hzd : ∀ b ∈ (c.dmCoords.map fun _ => zero2 c.nOut), ∀ i j, b.px i j = 0 := by
    intro b hb i j; obtain ⟨_, _, rfl⟩ := List.mem_map.mp hb; rfl
  have h0 : SumOfLayers c.dmCoords [] i j 0 := ⟨[], rfl, rfl, by simp⟩
  unfold frame performCorrection makePhase zeroData at h
  cases hf : fill c.layerCoords (c.layerCoords.map fun _ => zero2 c.nOut) scrns with
  | error e =>
    exfalso
    cases hu : c.up <;> cases hc : corr <;> simp only [hu, hc, Option.getD_some] at h
    · rw [hf] at h; cases h
    · rw [hf] at h; cases h
    · rw [hf] at h; cases h
    · rename_i co
      cases hg : fill c.dmCoords (c.dmCoords.map fun _ => zero2 c.nOut) co with
      | error e => rw [hg] at h; cases h
      | ok b => rw [hg] at h; dsimp only at h; rw [hf] at h; cases h
  | ok b =>
    have hv := fill_sumOfLayers _ _ hl _ _ _ hzl hf i j hi hj
    cases corr with
    | none =>
      refine ⟨_, 0, hv, h0, ?_⟩
      cases hu : c.up <;> simp only [hu, Option.getD_some] at h <;> rw [hf] at h <;> cases h <;>
        simp [sumImg, zero2, mul_comm]
    | some co =>
      cases hg : fill c.dmCoords (c.dmCoords.map fun _ => zero2 c.nOut) co with
      | error e =>
        exfalso
        cases hu : c.up <;> simp only [hu, Option.getD_some] at h
        · rw [hf] at h; dsimp only at h; rw [hg] at h; cases h
        · rw [hg] at h; cases h
      | ok b0 =>
        have hw := fill_sumOfLayers _ _ hd _ _ _ hzd hg i j hi hj
        refine ⟨_, _, hv, hw, ?_⟩
        cases hu : c.up <;> simp only [hu, Option.getD_some] at h
        · rw [hf] at h; dsimp only at h; rw [hg] at h; cases h
          simp only [sumImg, zero2]
          constructor
          · field_simp; ring
          · ring
        · rw [hg] at h; dsimp only at h; rw [hf] at h; cases h
          simp only [sumImg, zero2]
          constructor
          · field_simp; ring
          · ring

/-- Two layers and one mirror seen by the line of sight above. -/
def toyLos : Cfg := ⟨false, 8, [metapupilCoords toyGeom 0, metapupilCoords toyGeom 10000], [metapupilCoords toyGeom 0], 2, 12⟩
def toyLosState : State := ⟨[], [], zero2 0, zero2 0, zero2 0, zero2 0⟩
def ramp : Arr2 := ⟨12, 12, fun i _ => i⟩

example : (frame toyLos toyLosState (some [ramp, ramp]) (some [ramp])).map (fun t => (t.phase.px 0 0, t.phase.px 3 5, t.residual.px 3 5)) =
    .ok (8, 14, 7) := by decide +kernel

/-- **C31 (order of layers).** Renumbering the layers (screens together with their altitudes) changes nothing. -/
theorem C31_layer_order (c c' : Cfg) (s s' t t' : State) (scrns scrns' : List Arr2) (corr : Option (List Arr2)) (hk : c.k ≠ 0)
    (hl : ∀ x ∈ c.layerCoords, x.1.length = c.nOut ∧ x.2.length = c.nOut)
    (hd : ∀ x ∈ c.dmCoords, x.1.length = c.nOut ∧ x.2.length = c.nOut)
    (hc : c' = { c with layerCoords := c'.layerCoords })
    (hp : (List.zip c.layerCoords scrns).Perm (List.zip c'.layerCoords scrns')) (hpc : c.layerCoords.Perm c'.layerCoords)
    (h : frame c s (some scrns) corr = .ok t) (h' : frame c' s' (some scrns') corr = .ok t')
    (i j : ℕ) (hi : i < c.nOut) (hj : j < c.nOut) :
    t.phase.px i j = t'.phase.px i j ∧ t.efield.px i j = t'.efield.px i j := by
  have uniq : ∀ (cs : List (List ℚ × List ℚ)) (ds : List Arr2) (v : ℚ), SumOfLayers cs ds i j v →
      v = ((List.zip cs ds).map fun p => layerVal p.1 p.2 i j).sum := by
    intro cs ds v ⟨vs, h1, h2, h3⟩
    rw [h2]
    congr 1
    have hlen : ds.length ≤ cs.length := by
      by_contra hlt
      push Not at hlt
      obtain ⟨c0, _, _, _, hc0, _⟩ := h3 cs.length ds[cs.length] (List.getElem?_eq_getElem hlt)
      simp at hc0
    apply List.ext_getElem?
    intro l
    by_cases hl : l < ds.length
    · obtain ⟨c0, x, y, w, e1, e2, e3, e4, e5⟩ := h3 l ds[l] (List.getElem?_eq_getElem hl)
      rw [e4]
      have : (List.zip cs ds)[l]? = some (c0, ds[l]) := by
        rw [List.getElem?_zip_eq_some]; exact ⟨e1, List.getElem?_eq_getElem hl⟩
      rw [List.getElem?_map, this]
      simp [layerVal, e2, e3, e5]
    · rw [List.getElem?_eq_none (by omega), List.getElem?_eq_none (by simp; omega)]
  have hk' : c'.k ≠ 0 := by rw [hc]; exact hk
  have hn : c'.nOut = c.nOut := by rw [hc]
  have hdm : c'.dmCoords = c.dmCoords := by rw [hc]
  have hkk : c'.k = c.k := by rw [hc]
  obtain ⟨v, w, a1, a2, a3, a4⟩ := C31_additive c s t scrns corr hk hl hd h i j hi hj
  obtain ⟨v', w', b1, b2, b3, b4⟩ := C31_additive c' s' t' scrns' corr hk'
    (by intro x hx; rw [hn]; exact hl x (hpc.mem_iff.mpr hx)) (by rw [hn, hdm]; exact hd) h' i j (by omega) (by omega)
  have e1 : v = v' := by
    rw [uniq _ _ _ a1, uniq _ _ _ b1]
    exact (hp.map _).sum_eq
  have e2 : w = w' := by
    rw [uniq _ _ _ a2, uniq _ _ _ b2, hdm]
  rw [a3, a4, b3, b4, e1, e2, hkk]
  exact ⟨rfl, rfl⟩

example : (frame { toyLos with layerCoords := [metapupilCoords toyGeom 10000, metapupilCoords toyGeom 0] } toyLosState
    (some [zero2 12, ramp]) (some [ramp])).map (fun t => (t.phase.px 3 5)) =
    (frame toyLos toyLosState (some [ramp, zero2 12]) (some [ramp])).map (fun t => (t.phase.px 3 5)) := by decide +kernel

/-- **C31 (residual).** The returned residual is the phase in nanometres if a correction was applied on the way down, but the phase in radians if not. -/
theorem C31_residual_units (c : Cfg) (s t : State) (scrns corr : Option (List Arr2)) (h : frame c s scrns corr = .ok t) (i j : ℕ) :
    (c.up = false → corr ≠ none → t.phase.px i j = c.k * t.residual.px i j) ∧
    (c.up = true ∨ corr = none → t.residual.px i j = t.phase.px i j) := by
  unfold frame performCorrection makePhase zeroData at h
  generalize hq : (scrns.getD (c.layerCoords.map fun _ => zero2 c.scrn)) = q at h
  cases hu : c.up with
  | true =>
    refine ⟨by simp, fun _ => ?_⟩
    cases corr with
    | none =>
      simp only [hu] at h
      cases hf : fill c.layerCoords (c.layerCoords.map fun _ => zero2 c.nOut) q with
      | error e => rw [hf] at h; cases h
      | ok b => rw [hf] at h; cases h; rfl
    | some co =>
      simp only [hu] at h
      cases hg : fill c.dmCoords (c.dmCoords.map fun _ => zero2 c.nOut) co with
      | error e => rw [hg] at h; cases h
      | ok b0 =>
        rw [hg] at h; dsimp only at h
        cases hf : fill c.layerCoords (c.layerCoords.map fun _ => zero2 c.nOut) q with
        | error e => rw [hf] at h; cases h
        | ok b => rw [hf] at h; cases h; rfl
  | false =>
    cases corr with
    | none =>
      refine ⟨by simp, fun _ => ?_⟩
      simp only [hu] at h
      cases hf : fill c.layerCoords (c.layerCoords.map fun _ => zero2 c.nOut) q with
      | error e => rw [hf] at h; cases h
      | ok b => rw [hf] at h; cases h; rfl
    | some co =>
      refine ⟨fun _ _ => ?_, by simp⟩
      simp only [hu] at h
      cases hf : fill c.layerCoords (c.layerCoords.map fun _ => zero2 c.nOut) q with
      | error e => rw [hf] at h; cases h
      | ok b =>
        rw [hf] at h; dsimp only at h
        cases hg : fill c.dmCoords (c.dmCoords.map fun _ => zero2 c.nOut) co with
        | error e => rw [hg] at h; cases h
        | ok b0 => rw [hg] at h; cases h; exact mul_comm _ _

example : (frame toyLos toyLosState (some [ramp, ramp]) none).map (fun t => (t.phase.px 3 5, t.residual.px 3 5)) = .ok (24, 24) := by
  decide +kernel

/-- **C30/C31 (no failure).** With screens and corrections of the configured size and not more of them than layers and mirrors, every frame completes:
no read outside any screen, whatever the geometry. -/
theorem C30_frames_complete (c : Cfg) (g : Geom) (layerAlts dmAlts : List ℚ) (hS : 2 ≤ g.scrn) (hs : c.scrn = g.scrn)
    (hl : c.layerCoords = layerAlts.map (metapupilCoords g)) (hd : c.dmCoords = dmAlts.map (metapupilCoords g))
    (s : State) (scrns corr : Option (List Arr2))
    (h1 : ∀ x, scrns = some x → x.length ≤ layerAlts.length ∧ ∀ a ∈ x, a.rows = g.scrn ∧ a.cols = g.scrn)
    (h2 : ∀ x, corr = some x → x.length ≤ dmAlts.length ∧ ∀ a ∈ x, a.rows = g.scrn ∧ a.cols = g.scrn) :
    ∃ t, frame c s scrns corr = .ok t := by
  have fillOk : ∀ (alts : List ℚ) (x : List Arr2), x.length ≤ alts.length → (∀ a ∈ x, a.rows = g.scrn ∧ a.cols = g.scrn) →
      ∃ r, fill (alts.map (metapupilCoords g)) ((alts.map (metapupilCoords g)).map fun _ => zero2 c.nOut) x = .ok r := by
    intro alts x hx ha
    apply fill_ok
    · simp
    · simpa using hx
    · intro i co d hco hd
      rw [List.getElem?_map] at hco
      cases hal : alts[i]? with
      | none => rw [hal] at hco; simp at hco
      | some h =>
        rw [hal] at hco
        simp at hco
        subst hco
        have hm := List.mem_of_getElem? hd
        exact (C30_in_bounds g h d hS (ha d hm).1 (ha d hm).2).2.2.2
  have hq : ∃ q, (scrns.getD (c.layerCoords.map fun _ => zero2 c.scrn)) = q ∧
      q.length ≤ layerAlts.length ∧ ∀ a ∈ q, a.rows = g.scrn ∧ a.cols = g.scrn := by
    cases scrns with
    | some x => exact ⟨x, rfl, h1 x rfl⟩
    | none =>
      refine ⟨_, rfl, by simp [hl], ?_⟩
      intro a ha
      obtain ⟨_, _, rfl⟩ := List.mem_map.mp ha
      simp [zero2, hs]
  obtain ⟨q, hqe, hq1, hq2⟩ := hq
  obtain ⟨b, hb⟩ := fillOk layerAlts q hq1 hq2
  rw [← hl] at hb
  unfold frame performCorrection makePhase zeroData
  cases corr with
  | none =>
    cases hu : c.up <;> simp only [] <;> rw [hqe, hb] <;> exact ⟨_, rfl⟩
  | some co =>
    obtain ⟨b0, hb0⟩ := fillOk dmAlts co (h2 co rfl).1 (h2 co rfl).2
    rw [← hd] at hb0
    cases hu : c.up
    · simp only []; rw [hqe, hb]; dsimp only; rw [hb0]; exact ⟨_, rfl⟩
    · simp only []; rw [hb0]; dsimp only; rw [hqe, hb]; exact ⟨_, rfl⟩

/-! ### C32 -/

/-- **C32 (size and centre).** Looking down, the footprint at altitude `h` has, in pixels of the screen, the width of the pupil times `1 - h/H` for a source at height `H`, the full
width for a source at infinity, and is centred at `h` times the field angle from the centre of the screen; both axes. -/
theorem C32_footprint (g : Geom) (h : ℚ) (hd : g.up = false) (hs : g.scale ≠ 0) :
    let (x1, x2, y1, y2) := altitudeCoords g h
    let shrink : ℚ := if g.source = 0 then 1 else 1 - h / g.source
    x2 - x1 = g.diameter / g.scale * shrink ∧ y2 - y1 = g.diameter / g.scale * shrink ∧
    (x1 + x2) / 2 = g.scrn / 2 + g.angle.1 * h / g.scale ∧ (y1 + y2) / 2 = g.scrn / 2 + g.angle.2 * h / g.scale := by
  simp only [altitudeCoords, edges, footprint, hd]
  by_cases h0 : g.source = 0
  · simp [h0]
    refine ⟨?_, ?_, ?_, ?_⟩ <;> field_simp <;> ring
  · simp [h0]
    refine ⟨?_, ?_, ?_, ?_⟩ <;> field_simp <;> ring

/-- **C32 (special altitudes).** At the ground the footprint is the pupil in the middle of the screen; at the height of the source it is a point; above a mirrored pupil. -/
theorem C32_special (g : Geom) (hd : g.up = false) (hs : 0 < g.scale) (hD : 0 < g.diameter) :
    (altitudeCoords g 0 = (g.scrn / 2 - g.diameter / g.scale / 2, g.scrn / 2 + g.diameter / g.scale / 2,
      g.scrn / 2 - g.diameter / g.scale / 2, g.scrn / 2 + g.diameter / g.scale / 2)) ∧
    (g.source ≠ 0 → (altitudeCoords g g.source).1 = (altitudeCoords g g.source).2.1 ∧
      (altitudeCoords g g.source).2.2.1 = (altitudeCoords g g.source).2.2.2) ∧
    (0 < g.source → ∀ h, g.source < h → (altitudeCoords g h).2.1 < (altitudeCoords g h).1) := by
  have hs' := hs.ne'
  refine ⟨?_, ?_, ?_⟩
  · simp only [altitudeCoords, edges, footprint, hd, Prod.mk.injEq]
    by_cases h0 : g.source = 0
    · simp only [h0]
      refine ⟨?_, ?_, ?_, ?_⟩ <;> simp <;> field_simp <;> ring
    · simp only [h0]
      refine ⟨?_, ?_, ?_, ?_⟩ <;> simp <;> field_simp <;> ring
  · intro h0
    simp [altitudeCoords, edges, footprint, hd, h0]
  · intro h0 h hh
    have hw := C32_footprint g h hd hs'
    simp only [h0.ne', if_false] at hw
    have h1 : 1 < h / g.source := by rwa [one_lt_div h0]
    have h2 : 0 < g.diameter / g.scale := div_pos hD hs
    have h3 : g.diameter / g.scale * (1 - h / g.source) < 0 := mul_neg_of_pos_of_neg h2 (by linarith)
    have := hw.1
    linarith

/-- **C32 (upwards).** For a laser sent up from a launch position the beam is centred at the launch position at the ground and at the target position at beacon height, linear in
between. -/
theorem C32_uplink (g : Geom) (h : ℚ) (hu : g.up = true) (hs : g.scale ≠ 0) (hH : g.source ≠ 0) :
    ((altitudeCoords g h).1 + (altitudeCoords g h).2.1) / 2 =
      g.scrn / 2 + ((1 - h / g.source) * g.launch.1 + (h / g.source) * (g.angle.1 * g.source)) / g.scale ∧
    ((altitudeCoords g h).2.2.1 + (altitudeCoords g h).2.2.2) / 2 =
      g.scrn / 2 + ((1 - h / g.source) * g.launch.2 + (h / g.source) * (g.angle.2 * g.source)) / g.scale := by
  simp only [altitudeCoords, edges, footprint, hu, if_true, ne_eq, not_false_eq_true, hH, if_false]
  constructor <;> field_simp <;> ring

/-- **C32 (sampling).** The samples are equally spaced, symmetric about the centre of the footprint (shifted by half a pixel, since pixel `k` spans `[k, k+1]`), and span one pixel less than its width. -/
theorem C32_samples (x1 x2 : ℚ) (n k : ℕ) (hn : 2 ≤ n) (hk : k < n) :
    (linspace x1 (x2 - 1) n)[k]? = some (x1 + k * ((x2 - x1 - 1) / (n - 1))) ∧
    (linspace x1 (x2 - 1) n)[n - 1 - k]? = some (x1 + x2 - 1 - (x1 + k * ((x2 - x1 - 1) / (n - 1)))) := by
  have h2 : (2 : ℚ) ≤ n := by exact_mod_cast hn
  have h1 : (n : ℚ) - 1 ≠ 0 := by linarith
  have hc : ((n - 1 - k : ℕ) : ℚ) = n - 1 - k := by
    rw [Nat.sub_sub, Nat.cast_sub (by omega)]; push_cast; ring
  constructor
  · simp only [linspace, List.getElem?_map, List.getElem?_range hk, Option.map_some, if_neg (show n ≠ 1 by omega)]
    congr 1; ring
  · simp only [linspace, List.getElem?_map, List.getElem?_range (show n - 1 - k < n by omega), Option.map_some,
      if_neg (show n ≠ 1 by omega)]
    rw [hc]
    congr 1; field_simp; ring

/-- **C32 (unit sampling).** A source at infinity, output pixels as large as screen pixels: on every layer neighbouring samples are exactly one screen pixel apart. -/
theorem C32_unit_sampling (g : Geom) (h : ℚ) (k : ℕ) (hd : g.up = false) (hs : g.scale ≠ 0) (h0 : g.source = 0) (hn : 2 ≤ g.nOut) (hk : k < g.nOut)
    (hD : g.diameter = g.nOut * g.scale) :
    (linspace (altitudeCoords g h).1 ((altitudeCoords g h).2.1 - 1) g.nOut)[k]? =
      some (((g.scrn : ℚ) - g.nOut) / 2 + g.angle.1 * h / g.scale + k) := by
  rw [(C32_samples _ _ _ _ hn hk).1]
  obtain ⟨e1, _, e2, _⟩ := C32_footprint g h hd hs
  simp only [h0, if_true, mul_one] at e1
  rw [hD, mul_div_assoc, div_self hs, mul_one] at e1
  have h2 : (2 : ℚ) ≤ g.nOut := by exact_mod_cast hn
  have h1 : (g.nOut : ℚ) - 1 ≠ 0 := by linarith
  have e1' : (altitudeCoords g h).2.1 - (altitudeCoords g h).1 = g.nOut := e1
  have e2' : ((altitudeCoords g h).1 + (altitudeCoords g h).2.1) / 2 = g.scrn / 2 + g.angle.1 * h / g.scale := e2
  rw [e1', div_self h1]
  congr 1
  linarith

example : altitudeCoords { toyGeom with source := 20000 } 10000 = (6, 10, 4, 8) := by decide +kernel

/-- With a source at finite height the samples do not shrink to a point at the source: they run backwards over one pixel, because the width is
reduced by a whole pixel at every altitude. -/
theorem C32_backwards_at_source :
    linspace (altitudeCoords { toyGeom with source := 20000, angle := (0, 0) } 20000).1
      ((altitudeCoords { toyGeom with source := 20000, angle := (0, 0) } 20000).2.1 - 1) 3 = [6, 11 / 2, 5] := by decide +kernel

/-! ### C33 -/

/-- Follow the light: `dir = 1` upwards, `dir = -1` downwards, starting at altitude `h`.  Returns which screen is met at which altitude, and the final altitude. -/
def trace (dir : ℚ) : ℚ → List Act → List (ℕ × ℚ) × ℚ
  | h, [] => ([], h)
  | h, .propagate z :: r => trace dir (h + dir * z) r
  | h, .screen i :: r => ((i, h) :: (trace dir h r).1, (trace dir h r).2)

/-- No propagation backwards. -/
def Forward (acts : List Act) : Prop := ∀ z, Act.propagate z ∈ acts → 0 ≤ z

theorem physLoop_trace (n : ℕ) (inf : Bool) (alts : ℕ → ℚ) (ids : ℕ → ℕ) (ht hf dir : ℚ) (hdir : dir * dir = 1)
    (hm : ∀ i, i + 1 < n → |alts (i + 1) - alts i| = dir * (alts (i + 1) - alts i))
    (hend : inf = false → dir * (alts (n - 1) - ht) ≤ |hf - ht|) :
    ∀ (fuel i : ℕ) (z : ℚ), i + fuel = n → i < n → z = dir * (alts i - ht) →
      trace dir (alts i) (physLoop n inf alts ids ht hf fuel i z) =
        ((List.range' i fuel).map fun k => (ids k, alts k), if inf then alts (n - 1) else ht + dir * |hf - ht|) ∧
      Forward (physLoop n inf alts ids ht hf fuel i z) := by
  intro fuel
  induction fuel with
  | zero => intro i z h1 h2; omega
  | succ fuel ih =>
    intro i z h1 h2 hz
    rw [physLoop]
    by_cases hl : i + 1 = n
    · rw [if_pos hl]
      have hf0 : fuel = 0 := by omega
      have hin : n - 1 = i := by omega
      subst hf0
      cases inf with
      | true =>
        simp [trace, hin, Forward]
      | false =>
        have hend := hend rfl
        rw [hin] at hend
        constructor
        · simp only [trace, List.range', List.map, Bool.false_eq_true, if_false]
          congr 1
          rw [hz]
          linear_combination (ht - alts i) * hdir
        · intro w hw
          simp at hw
          rw [hw, hz]
          linarith
    · rw [if_neg hl]
      have hmi := hm i (by omega)
      have hnext : alts i + dir * |alts (i + 1) - alts i| = alts (i + 1) := by
        rw [hmi]; linear_combination (alts (i + 1) - alts i) * hdir
      obtain ⟨a1, a2⟩ := ih (i + 1) (z + |alts (i + 1) - alts i|) (by omega) (by omega) (by rw [hz, hmi]; ring)
      constructor
      · simp only [trace, hnext]
        rw [a1, List.range'_succ]
        simp
      · intro w hw
        simp only [List.mem_cons, reduceCtorEq, false_or] at hw
        rcases hw with hw | hw
        · cases hw; exact abs_nonneg _
        · exact a2 w hw

/-- Layer `i` of an ascending list of altitudes. -/
def Ascending (alts : List ℚ) : Prop := ∀ i, i + 1 < alts.length → alts.getD i 0 ≤ alts.getD (i + 1) 0

/-- **C33 (down).** With ascending altitudes, light coming down starts at the highest layer, meets every layer exactly once, from the highest to the lowest, each at its own altitude, never goes
backwards, and ends at the ground. -/
theorem C33_down (source : ℚ) (alts : List ℚ) (hne : alts ≠ []) (hasc : Ascending alts) (h0 : 0 ≤ alts.getD 0 0) :
    ∃ acts, physical false source alts alts.length = .ok acts ∧ Forward acts ∧
      trace (-1) (alts.getD (alts.length - 1) 0) acts =
        ((List.range alts.length).map fun k => (alts.length - 1 - k, alts.getD (alts.length - 1 - k) 0), 0) := by
  have hlen : 0 < alts.length := List.length_pos_of_ne_nil hne
  have mono : ∀ i j, i ≤ j → j < alts.length → alts.getD i 0 ≤ alts.getD j 0 := by
    intro i j hij
    induction j, hij using Nat.le_induction with
    | base => intro _; exact le_refl _
    | succ j hj ih => intro hl; exact (ih (by omega)).trans (hasc j hl)
  unfold physical
  rw [if_neg (by omega)]
  dsimp only
  have hP := physLoop_trace alts.length false (fun i => alts.getD (alts.length - 1 - i) 0) (fun i => alts.length - 1 - i)
    (alts.getD (alts.length - 1) 0) 0 (-1) (by norm_num)
    (by
      intro i hi
      have := mono (alts.length - 1 - (i + 1)) (alts.length - 1 - i) (by omega) (by omega)
      rw [abs_of_nonpos (by linarith)]; ring)
    (by
      intro _
      have e : alts.length - 1 - (alts.length - 1) = 0 := by omega
      simp only [e]
      have hm := mono 0 (alts.length - 1) (by omega) (by omega)
      have := neg_abs_le (0 - alts.getD (alts.length - 1) 0)
      have := le_abs_self (-(0 - alts.getD (alts.length - 1) 0))
      rw [abs_neg] at this
      linarith)
    alts.length 0 0 (by omega) hlen (by simp)
  refine ⟨_, rfl, ?_, ?_⟩
  · simp only [Bool.false_eq_true, if_false, Nat.sub_zero, ne_eq, not_true_eq_false, List.nil_append, Bool.false_and]
    exact hP.2
  · simp only [Bool.false_eq_true, if_false, Nat.sub_zero, ne_eq, not_true_eq_false, List.nil_append, Bool.false_and]
    have h1 := hP.1
    simp only [Nat.sub_zero] at h1
    rw [h1, ← List.range_eq_range']
    congr 1
    have hm := mono 0 (alts.length - 1) (by omega) (by omega)
    simp only [Bool.false_eq_true, if_false, zero_sub, abs_neg]
    rw [abs_of_nonneg (by linarith)]
    ring

/-- **C33 (up).** Light going up from the ground meets every layer exactly once, from the lowest to the highest, each at its own altitude, never goes backwards, and ends at the source altitude
(not below the highest layer), or at the highest layer for a target at infinity. -/
theorem C33_up (source : ℚ) (alts : List ℚ) (hne : alts ≠ []) (hasc : Ascending alts) (h0 : 0 ≤ alts.getD 0 0)
    (hsrc : source = 0 ∨ alts.getD (alts.length - 1) 0 ≤ source) :
    ∃ acts, physical true source alts alts.length = .ok acts ∧ Forward acts ∧
      trace 1 0 acts =
        ((List.range alts.length).map fun k => (k, alts.getD k 0), if source = 0 then alts.getD (alts.length - 1) 0 else source) := by
  have hlen : 0 < alts.length := List.length_pos_of_ne_nil hne
  have mono : ∀ i j, i ≤ j → j < alts.length → alts.getD i 0 ≤ alts.getD j 0 := by
    intro i j hij
    induction j, hij using Nat.le_induction with
    | base => intro _; exact le_refl _
    | succ j hj ih => intro hl; exact (ih (by omega)).trans (hasc j hl)
  unfold physical
  rw [if_neg (by omega)]
  dsimp only
  have hlast := mono 0 (alts.length - 1) (by omega) (by omega)
  have hP := physLoop_trace alts.length (decide (source = 0)) (fun i => alts.getD i 0) (fun i => i) 0 source 1 (by norm_num)
    (by
      intro i hi
      have := hasc i hi
      rw [abs_of_nonneg (by linarith)]; ring)
    (by
      intro hs
      have hs : source ≠ 0 := by simpa using hs
      rcases hsrc with h | h
      · exact absurd h hs
      · have := le_abs_self (source - 0)
        linarith)
    alts.length 0 (alts.getD 0 0) (by omega) hlen (by ring)
  have hz : (if (0 : ℚ) ≠ alts.getD 0 0 then |alts.getD 0 0 - 0| else 0) = alts.getD 0 0 := by
    split_ifs with h
    · rw [sub_zero, abs_of_nonneg h0]
    · push Not at h; exact h
  have hfin : (if decide (source = 0) = true then alts.getD (alts.length - 1) 0 else 0 + 1 * |source - 0|) =
      if source = 0 then alts.getD (alts.length - 1) 0 else source := by
    by_cases hs : source = 0
    · simp [hs]
    · simp only [hs, decide_false, Bool.false_eq_true, if_false]
      rcases hsrc with h | h
      · exact absurd h hs
      · rw [sub_zero, abs_of_nonneg (by linarith)]; ring
  rw [hfin] at hP
  refine ⟨_, rfl, ?_, ?_⟩
  · intro w hw
    simp only [if_true, Bool.true_and] at hw
    rw [hz] at hw
    rcases List.mem_append.mp hw with h | h
    · split_ifs at h with hc
      · simp at h; rw [h]; exact abs_nonneg _
      · simp at h
    · exact hP.2 w h
  · simp only [if_true, Bool.true_and]
    rw [hz]
    by_cases hc : (0 : ℚ) ≠ alts.getD 0 0
    · rw [if_pos hc]
      simp only [List.singleton_append, trace]
      rw [sub_zero, abs_of_nonneg h0, zero_add, one_mul, hP.1, ← List.range_eq_range']
    · rw [if_neg hc]
      push Not at hc
      simp only [List.nil_append]
      have h1 := hP.1
      rw [← hc] at h1
      rw [← hc, h1, ← List.range_eq_range']

example : physical false 0 [0, 1000, 5000] 3 =
    .ok [.screen 2, .propagate 4000, .screen 1, .propagate 1000, .screen 0, .propagate 0] ∧
  physical true 90000 [0, 1000, 5000] 3 =
    .ok [.screen 0, .propagate 1000, .screen 1, .propagate 4000, .screen 2, .propagate 85000] := by decide +kernel

/-- Ascending order is needed: with layers listed out of order the light ends below the ground or a layer is met at a wrong altitude, without any error. -/
theorem C33_unsorted : ∃ acts, physical false 0 [0, 5000, 1000] 3 = .ok acts ∧ ¬ Forward acts ∧
    trace (-1) 1000 acts = ([(2, 1000), (1, -3000), (0, -8000)], 0) := by
  refine ⟨_, rfl, ?_, by decide +kernel⟩
  intro h
  have := h (-8000) (by decide +kernel)
  norm_num at this

/-- And going up to a source below the highest layer propagates backwards in the last step. -/
theorem C33_source_below_layer : physical true 2000 [0, 5000] 2 =
    .ok [.screen 0, .propagate 5000, .screen 1, .propagate (-3000)] := by decide +kernel

end Soapy.Props
