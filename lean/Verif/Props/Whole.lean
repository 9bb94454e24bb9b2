/-
Property theorems C111: a simulation that calibrates itself closes its loop on what its mirrors can make.
-/
import Verif.Model.Whole
import Verif.Props.Follow
import Verif.Props.Los
import Verif.Props.Mirror
import Verif.Props.Persist
import Verif.Props.Separate
import Verif.Props.Sensors
import Mathlib.Data.Rat.BigOperators
import Mathlib.Algebra.Module.Prod
import Mathlib.Algebra.Module.Pi

namespace Soapy.Props

open Soapy.Mirror Soapy.Los Soapy.Whole Soapy.Loop Soapy.Control Soapy.Vec

/-! ### What a sensor sees -/

private theorem bilinAt_lin (S : ℕ) (r : ℚ) (f g : ℕ → ℕ → ℚ) (x y : ℚ) :
    (match Interp.bilinAt ⟨S, S, fun i j => r * f i j + g i j⟩ x y with | .ok v => v | .error _ => 0) =
      r * (match Interp.bilinAt ⟨S, S, f⟩ x y with | .ok v => v | .error _ => 0) + (match Interp.bilinAt ⟨S, S, g⟩ x y with | .ok v => v | .error _ => 0) := by
  unfold Interp.bilinAt Interp.readPx
  dsimp only
  cases Interp.axisIdx S (pyInt x + 1) <;> cases Interp.axisIdx S (pyInt y) <;> cases Interp.axisIdx S (pyInt x) <;> cases Interp.axisIdx S (pyInt y + 1) <;> simp
  ring

/-- Interpolated value of a screen of `S × S` pixels. -/
def bil (S : ℕ) (c : List ℚ × List ℚ) (f : ℕ → ℕ → ℚ) (i j : ℕ) : ℚ := layerVal c ⟨S, S, f⟩ i j

theorem bil_lin (S : ℕ) (c : List ℚ × List ℚ) (r : ℚ) (f g : ℕ → ℕ → ℚ) (i j : ℕ) : bil S c (fun i j => r * f i j + g i j) i j = r * bil S c f i j + bil S c g i j := by
  unfold bil layerVal
  cases c.1[i]? <;> cases c.2[j]? <;> simp
  simp only [Interp.interpVal, Bool.false_eq_true, if_false]
  exact bilinAt_lin S r f g _ _

/-- Phase in a pixel of a sensor. -/
def view (o : Optics) (w : LinWfs) (v : Stack) (i j : ℕ) : ℚ :=
  w.k * (∑ l ∈ Finset.range o.layerAlts.length, bil o.scrn (metapupilCoords w.geom (o.layerAlts.getD l 0)) (v.1 l) i j +
    ∑ l ∈ Finset.range o.dmAlts.length, bil o.scrn (metapupilCoords w.geom (o.dmAlts.getD l 0)) (v.2 l) i j)

theorem view_lin (o : Optics) (w : LinWfs) (r : ℚ) (u v : Stack) (i j : ℕ) : view o w (r • u + v) i j = r * view o w u i j + view o w v i j := by
  unfold view
  have h1 : ∀ (l : ℕ) (alts : ℕ → ℚ), bil o.scrn (metapupilCoords w.geom (alts l)) ((r • u + v).1 l) i j = r * bil o.scrn (metapupilCoords w.geom (alts l)) (u.1 l) i j + bil o.scrn (metapupilCoords w.geom (alts l)) (v.1 l) i j :=
    fun l alts => bil_lin o.scrn _ r (u.1 l) (v.1 l) i j
  have h2 : ∀ (l : ℕ) (alts : ℕ → ℚ), bil o.scrn (metapupilCoords w.geom (alts l)) ((r • u + v).2 l) i j = r * bil o.scrn (metapupilCoords w.geom (alts l)) (u.2 l) i j + bil o.scrn (metapupilCoords w.geom (alts l)) (v.2 l) i j :=
    fun l alts => bil_lin o.scrn _ r (u.2 l) (v.2 l) i j
  rw [Finset.sum_congr rfl fun l _ => h1 l (fun l => o.layerAlts.getD l 0), Finset.sum_congr rfl fun l _ => h2 l (fun l => o.dmAlts.getD l 0)]
  simp only [Finset.sum_add_distrib, ← Finset.mul_sum]
  ring

def seen (o : Optics) (w : LinWfs) (v : Stack) (q : ℕ) : ℚ := ∑ i ∈ Finset.range w.geom.nOut, ∑ j ∈ Finset.range w.geom.nOut, w.coef q i j * view o w v i j

private theorem seen_lin (o : Optics) (w : LinWfs) (r : ℚ) (u v : Stack) (q : ℕ) : seen o w (r • u + v) q = r * seen o w u q + seen o w v q := by
  unfold seen
  simp only [view_lin, mul_add, Finset.sum_add_distrib, Finset.mul_sum]
  congr 1
  exact Finset.sum_congr rfl fun i _ => Finset.sum_congr rfl fun j _ => by ring

def measAt (o : Optics) : List LinWfs → Stack → ℕ → ℚ
  | [], _, _ => 0
  | w :: ws, v, m => if m < w.nMeas then seen o w v m else measAt o ws v (m - w.nMeas)

private theorem measAt_lin (o : Optics) (ws : List LinWfs) (r : ℚ) (u v : Stack) (m : ℕ) : measAt o ws (r • u + v) m = r * measAt o ws u m + measAt o ws v m := by
  induction ws generalizing m with
  | nil => simp [measAt]
  | cons w ws ih =>
    simp only [measAt]
    split_ifs
    · exact seen_lin o w r u v m
    · exact ih _

def senses (o : Optics) : Stack →ₗ[ℚ] (ℕ → ℚ) where
  toFun := fun v m => measAt o o.wfss v m
  map_add' := fun u v => by
    funext m
    have := measAt_lin o o.wfss 1 u v m
    simpa using this
  map_smul' := fun r u => by
    funext m
    have h0 : measAt o o.wfss 0 m = 0 := by
      have := measAt_lin o o.wfss 1 0 0 m
      simp at this
      exact this
    have := measAt_lin o o.wfss r u 0 m
    simpa [h0] using this

/-- All sensors look at screens of the size of the simulation, and have a wavelength. -/
def Optics.Sound (o : Optics) : Prop := 2 ≤ o.scrn ∧ ∀ w ∈ o.wfss, w.geom.scrn = o.scrn ∧ w.k ≠ 0

theorem sumOfLayers_eq (S n : ℕ) (g : Geom) (alts : List ℚ) (f : ℕ → ℕ → ℕ → ℚ) (hn : n = alts.length) (i j : ℕ) (v : ℚ) (h : SumOfLayers (alts.map (metapupilCoords g)) (layers S n f) i j v) :
    v = ∑ l ∈ Finset.range n, bil S (metapupilCoords g (alts.getD l 0)) (f l) i j := by
  obtain ⟨vs, h1, h2, h3⟩ := h
  have hl : vs.length = n := by simpa [layers] using h1
  have : vs = (List.range n).map fun l => bil S (metapupilCoords g (alts.getD l 0)) (f l) i j := by
    apply List.ext_getElem (by simpa using hl)
    intro l hl1 hl2
    have hln : l < n := by omega
    obtain ⟨c, x, y, w, c1, c2, c3, c4, c5⟩ := h3 l ⟨S, S, f l⟩ (by simp [layers, hln])
    rw [List.getElem?_eq_getElem hl1, Option.some.injEq] at c4
    rw [c4]
    simp only [List.getElem_map, List.getElem_range]
    have hla : l < alts.length := by omega
    rw [List.getElem?_map, List.getElem?_eq_getElem hla, Option.map_some, Option.some.injEq] at c1
    unfold bil layerVal
    rw [show alts.getD l 0 = alts[l] by simp [List.getD_eq_getElem?_getD, List.getElem?_eq_getElem hla], c1, c2, c3]
    dsimp only
    rw [c5]
  rw [h2, this]
  rfl

theorem layers_size (S n : ℕ) (f : ℕ → ℕ → ℕ → ℚ) : ∀ a ∈ layers S n f, a.rows = S ∧ a.cols = S := by
  intro a ha
  obtain ⟨_, _, rfl⟩ := List.mem_map.mp ha
  exact ⟨rfl, rfl⟩

/-- A frame of a sensor: screens `t`, corrections `m`. -/
private theorem frame_eq (o : Optics) (w : LinWfs) (hS : 2 ≤ o.scrn) (hw : w.geom.scrn = o.scrn) (hk : w.k ≠ 0) (t m : ℕ → ℕ → ℕ → ℚ) :
    w.frame o.layerAlts o.dmAlts (some (layers o.scrn o.layerAlts.length t)) (some (layers o.scrn o.dmAlts.length m)) = .ok ((List.range w.nMeas).map (seen o w (t, -m))) := by
  obtain ⟨s, hs⟩ := C30_frames_complete (w.cfg o.layerAlts o.dmAlts) w.geom o.layerAlts o.dmAlts (by omega) rfl rfl rfl blank (some (layers o.scrn o.layerAlts.length t)) (some (layers o.scrn o.dmAlts.length m))
    (by intro x hx; cases hx; exact ⟨by simp [layers], by rw [hw]; exact layers_size _ _ _⟩) (by intro x hx; cases hx; exact ⟨by simp [layers], by rw [hw]; exact layers_size _ _ _⟩)
  have hlen : ∀ alts : List ℚ, ∀ x ∈ alts.map (metapupilCoords w.geom), x.1.length = w.geom.nOut ∧ x.2.length = w.geom.nOut := by
    intro alts x hx
    obtain ⟨h, _, rfl⟩ := List.mem_map.mp hx
    simp [metapupilCoords, Interp.linspace]
  unfold LinWfs.frame
  rw [hs]
  dsimp only
  congr 1
  refine List.map_congr_left fun q _ => ?_
  unfold seen
  refine Finset.sum_congr rfl fun i hi => Finset.sum_congr rfl fun j hj => ?_
  obtain ⟨v, u, h1, h2, h3, _⟩ := C31_additive (w.cfg o.layerAlts o.dmAlts) blank s (layers o.scrn o.layerAlts.length t) (some (layers o.scrn o.dmAlts.length m)) hk (hlen o.layerAlts) (hlen o.dmAlts) hs i j
    (Finset.mem_range.mp hi) (Finset.mem_range.mp hj)
  rw [h3]
  have e1 := sumOfLayers_eq o.scrn _ w.geom o.layerAlts t rfl i j v h1
  have e2 := sumOfLayers_eq o.scrn _ w.geom o.dmAlts m rfl i j u h2
  congr 1
  unfold view
  change w.k * (v - u) = _
  rw [e1, e2, sub_eq_add_neg, ← Finset.sum_neg_distrib]
  congr 2
  refine Finset.sum_congr rfl fun l _ => ?_
  have := bil_lin o.scrn (metapupilCoords w.geom (o.dmAlts.getD l 0)) (-1) (m l) (fun _ _ => 0) i j
  have z := bil_lin o.scrn (metapupilCoords w.geom (o.dmAlts.getD l 0)) 1 (fun _ _ => 0) (fun _ _ => 0) i j
  simp only [one_mul, add_zero, neg_mul] at this z
  have z' : bil o.scrn (metapupilCoords w.geom (o.dmAlts.getD l 0)) (fun _ _ => 0) i j = 0 := by linarith
  rw [z', add_zero] at this
  exact this.symm

theorem runWfs_eq (o : Optics) (ho : Optics.Sound o) (t m : ℕ → ℕ → ℕ → ℚ) : ∀ ws : List LinWfs, (∀ w ∈ ws, w ∈ o.wfss) →
    runWfs o.layerAlts o.dmAlts (some (layers o.scrn o.layerAlts.length t)) (some (layers o.scrn o.dmAlts.length m)) ws = .ok ((List.range (ws.map LinWfs.nMeas).sum).map (measAt o ws (t, -m)))
  | [], _ => rfl
  | w :: ws, h => by
    have hw := ho.2 w (h w (by simp))
    rw [runWfs, frame_eq o w ho.1 hw.1 hw.2 t m]
    dsimp only
    rw [runWfs_eq o ho t m ws fun x hx => h x (by simp [hx])]
    dsimp only
    rw [List.map_cons, List.sum_cons, List.range_add, List.map_append, List.map_map]
    congr 2
    · refine List.map_congr_left fun q hq => ?_
      rw [measAt, if_pos (List.mem_range.mp hq)]
    · refine List.map_congr_left fun q _ => ?_
      simp only [Function.comp, measAt]
      rw [if_neg (by omega), Nat.add_sub_cancel_left]

theorem senses_apply (o : Optics) (v : Stack) (m : ℕ) : senses o v m = measAt o o.wfss v m := rfl

/-- A frame without screens is a frame of screens of zeros. -/
private theorem frame_none (o : Optics) (w : LinWfs) (hw : w.geom.scrn = o.scrn) (corr : Option (List Arr2)) :
    w.frame o.layerAlts o.dmAlts none corr = w.frame o.layerAlts o.dmAlts (some (layers o.scrn o.layerAlts.length 0)) corr := by
  unfold LinWfs.frame
  have : Los.frame (w.cfg o.layerAlts o.dmAlts) blank none corr = Los.frame (w.cfg o.layerAlts o.dmAlts) blank (some ((w.cfg o.layerAlts o.dmAlts).layerCoords.map fun _ => zero2 w.geom.scrn)) corr := rfl
  rw [this]
  have e : ((w.cfg o.layerAlts o.dmAlts).layerCoords.map fun _ => zero2 w.geom.scrn) = layers o.scrn o.layerAlts.length 0 := by
    apply List.ext_getElem (by simp [layers, LinWfs.cfg])
    intro k h1 h2
    simp [layers, LinWfs.cfg, zero2, hw]
    rfl
  rw [e]

/-- A frame without corrections is a frame of corrections of zeros. -/
private theorem frame_open (o : Optics) (w : LinWfs) (hS : 2 ≤ o.scrn) (hw : w.geom.scrn = o.scrn) (hk : w.k ≠ 0) (t : ℕ → ℕ → ℕ → ℚ) :
    w.frame o.layerAlts o.dmAlts (some (layers o.scrn o.layerAlts.length t)) none = .ok ((List.range w.nMeas).map (seen o w (t, 0))) := by
  obtain ⟨s, hs⟩ := C30_frames_complete (w.cfg o.layerAlts o.dmAlts) w.geom o.layerAlts o.dmAlts (by omega) rfl rfl rfl blank (some (layers o.scrn o.layerAlts.length t)) none
    (by intro x hx; cases hx; exact ⟨by simp [layers], by rw [hw]; exact layers_size _ _ _⟩) (by intro x hx; cases hx)
  have hlen : ∀ alts : List ℚ, ∀ x ∈ alts.map (metapupilCoords w.geom), x.1.length = w.geom.nOut ∧ x.2.length = w.geom.nOut := by
    intro alts x hx
    obtain ⟨h, _, rfl⟩ := List.mem_map.mp hx
    simp [metapupilCoords, Interp.linspace]
  unfold LinWfs.frame
  rw [hs]
  dsimp only
  congr 1
  refine List.map_congr_left fun q _ => ?_
  unfold seen
  refine Finset.sum_congr rfl fun i hi => Finset.sum_congr rfl fun j hj => ?_
  obtain ⟨v, u, h1, h2, h3, _⟩ := C31_additive (w.cfg o.layerAlts o.dmAlts) blank s (layers o.scrn o.layerAlts.length t) none hk (hlen o.layerAlts) (hlen o.dmAlts) hs i j
    (Finset.mem_range.mp hi) (Finset.mem_range.mp hj)
  rw [h3]
  have e1 := sumOfLayers_eq o.scrn _ w.geom o.layerAlts t rfl i j v h1
  have e2 : u = 0 := by
    obtain ⟨vs, g1, g2, _⟩ := h2
    have : vs = [] := List.length_eq_zero_iff.mp (by simpa using g1)
    rw [g2, this]; rfl
  congr 1
  unfold view
  change w.k * (v - u) = _
  rw [e1, e2, sub_zero]
  congr 1
  rw [left_eq_add]
  refine Finset.sum_eq_zero fun l _ => ?_
  have z := bil_lin o.scrn (metapupilCoords w.geom (o.dmAlts.getD l 0)) 1 (fun _ _ => 0) (fun _ _ => 0) i j
  simp only [one_mul, add_zero] at z
  change bil o.scrn _ (fun _ _ => 0) i j = 0
  linarith

theorem runWfs_none (o : Optics) (ho : Optics.Sound o) (corr : Option (List Arr2)) : ∀ ws : List LinWfs, (∀ w ∈ ws, w ∈ o.wfss) →
    runWfs o.layerAlts o.dmAlts none corr ws = runWfs o.layerAlts o.dmAlts (some (layers o.scrn o.layerAlts.length 0)) corr ws
  | [], _ => rfl
  | w :: ws, h => by
    rw [runWfs, runWfs, frame_none o w (ho.2 w (h w (by simp))).1 corr, runWfs_none o ho corr ws fun x hx => h x (by simp [hx])]

private theorem runWfs_open (o : Optics) (ho : Optics.Sound o) (t : ℕ → ℕ → ℕ → ℚ) : ∀ ws : List LinWfs, (∀ w ∈ ws, w ∈ o.wfss) →
    runWfs o.layerAlts o.dmAlts (some (layers o.scrn o.layerAlts.length t)) none ws = .ok ((List.range (ws.map LinWfs.nMeas).sum).map (measAt o ws (t, 0)))
  | [], _ => rfl
  | w :: ws, h => by
    have hw := ho.2 w (h w (by simp))
    rw [runWfs, frame_open o w ho.1 hw.1 hw.2 t]
    dsimp only
    rw [runWfs_open o ho t ws fun x hx => h x (by simp [hx])]
    dsimp only
    rw [List.map_cons, List.sum_cons, List.range_add, List.map_append, List.map_map]
    congr 2
    · refine List.map_congr_left fun q hq => ?_
      rw [measAt, if_pos (List.mem_range.mp hq)]
    · refine List.map_congr_left fun q _ => ?_
      simp only [Function.comp, measAt]
      rw [if_neg (by omega), Nat.add_sub_cancel_left]

/-- **C111 (poke).** Poking a mirror raises no exception: every sensor answers, with its number of measurements. -/
theorem C111_poke (o : Optics) (ho : Optics.Sound o) (k : ℕ) (a : Arr2) :
    runWfs o.layerAlts o.dmAlts none (some (layers o.scrn o.dmAlts.length (slot o.scrn k a).2)) o.wfss = .ok (o.poke k a) ∧ (o.poke k a).length = o.totalMeas := by
  unfold Optics.poke
  rw [runWfs_none o ho _ _ fun _ h => h, runWfs_eq o ho _ _ _ fun _ h => h]
  exact ⟨rfl, by simp [Optics.totalMeas]⟩

theorem poke_get (o : Optics) (ho : Optics.Sound o) (k : ℕ) (a : Arr2) (m : ℕ) (hm : m < o.totalMeas) : (o.poke k a)[m]? = some (-(senses o (slot o.scrn k a) m)) := by
  unfold Optics.poke
  rw [runWfs_none o ho _ _ fun _ h => h, runWfs_eq o ho _ _ _ fun _ h => h]
  dsimp only
  rw [List.getElem?_map, List.getElem?_range (show m < (o.wfss.map LinWfs.nMeas).sum from hm), Option.map_some, ← senses_apply]
  congr 1
  have e : ((0 : ℕ → ℕ → ℕ → ℚ), -(slot o.scrn k a).2) = -slot o.scrn k a := Prod.ext (by simp [slot]) rfl
  rw [e, map_neg]
  rfl

theorem uncorrected_get (o : Optics) (ho : Optics.Sound o) (t : ℕ → ℕ → ℕ → ℚ) : o.uncorrected t = (List.range o.totalMeas).map (senses o (t, 0)) := by
  unfold Optics.uncorrected
  rw [runWfs_open o ho _ _ fun _ h => h]
  rfl

theorem sense_eq (o : Optics) (ho : Optics.Sound o) (turb : ℕ → ℕ → ℕ → ℕ → ℚ) (i : ℕ) (corr : List Stack) :
    (o.plant turb).sense () i corr = .ok ((), (List.range o.totalMeas).map fun m => senses o ((turb i, 0) - corr.sum) m) := by
  unfold Optics.plant
  dsimp only
  rw [runWfs_eq o ho _ _ _ fun _ h => h]
  dsimp only
  congr 2
  refine List.map_congr_left fun m _ => ?_
  rw [senses_apply]
  congr 1
  exact Prod.ext rfl (by simp)

/-- A surface several times as high is answered by measurements several times as large. -/
theorem C111_poke_scaled (o : Optics) (ho : Optics.Sound o) (k : ℕ) (v : ℚ) (a b : Arr2) (h : ∀ i j, i < o.scrn → j < o.scrn → b.px i j = v * a.px i j) : o.poke k b = (o.poke k a).map (v * ·) := by
  have e : slot o.scrn k b = v • slot o.scrn k a := by
    refine Prod.ext (by simp [slot]) ?_
    funext m i j
    simp only [slot, Prod.smul_mk, Pi.smul_apply, smul_eq_mul]
    split_ifs with hc
    · exact h i j hc.2.1 hc.2.2
    · simp
  apply List.ext_getElem?
  intro m
  rw [List.getElem?_map]
  by_cases hm : m < o.totalMeas
  · rw [poke_get o ho k b m hm, poke_get o ho k a m hm, e, map_smul]
    simp
  · rw [List.getElem?_eq_none (by rw [(C111_poke o ho k b).2]; omega), List.getElem?_eq_none (by rw [(C111_poke o ho k a).2]; omega)]
    rfl

/-- The measurements of a frame are a linear function of what the layers show minus the corrections. -/
theorem C111_sense_linear (o : Optics) (ho : Optics.Sound o) : ∃ L : Stack →ₗ[ℚ] (ℕ → ℚ), ∀ turb i corr,
    (o.plant turb).sense () i corr = .ok ((), (List.range o.totalMeas).map fun m => L ((turb i, 0) - corr.sum) m) :=
  ⟨senses o, sense_eq o ho⟩

/-! ### Mirrors -/

def slotF (scrn k : ℕ) (f : ℕ → ℕ → ℚ) : Stack := (0, fun m i j => if m = k ∧ i < scrn ∧ j < scrn then f i j else 0)

theorem slot_eq (scrn k : ℕ) (a : Arr2) (f : ℕ → ℕ → ℚ) (h : ∀ i j, i < scrn → j < scrn → a.px i j = f i j) : slot scrn k a = slotF scrn k f := by
  refine Prod.ext rfl ?_
  funext m i j
  simp only [slot, slotF]
  split_ifs with hc
  · exact h i j hc.2.1 hc.2.2
  · rfl

private theorem superpose_unit (n : ℕ) (shapes : List Arr2) (j : ℕ) (hj : j < shapes.length) : superpose n shapes (unit shapes.length j) = (shapes.getD j (zero2 n)).px := by
  funext x y
  unfold superpose
  rw [Finset.sum_eq_single j]
  · simp [unit, zeros, hj]
  · intro b hb hne
    rw [Finset.mem_range] at hb
    simp [unit, zeros, hne.symm, hb]
  · simp [hj]

private theorem surface_sum (n : ℕ) (shapes : List Arr2) (c : List ℚ) (x y : ℕ) :
    surface n shapes c x y = ∑ j ∈ Finset.range shapes.length, c.getD j 0 * surface n shapes (unit shapes.length j) x y := by
  unfold surface
  have h : ∀ j ∈ Finset.range shapes.length, c.getD j 0 * (superpose n shapes (unit shapes.length j) x y - mean2 n (superpose n shapes (unit shapes.length j))) =
      c.getD j 0 * (shapes.getD j (zero2 n)).px x y - c.getD j 0 * mean2 n (shapes.getD j (zero2 n)).px := by
    intro j hj
    rw [superpose_unit n shapes j (Finset.mem_range.mp hj), mul_sub]
  rw [Finset.sum_congr rfl h, Finset.sum_sub_distrib]
  congr 1
  unfold mean2 superpose
  simp only [div_eq_mul_inv, ← mul_assoc, ← Finset.sum_mul, Finset.mul_sum]
  congr 1
  rw [Finset.sum_comm (s := Finset.range shapes.length)]
  exact Finset.sum_congr rfl fun i _ => Finset.sum_comm

private theorem centred_sum (scrn n : ℕ) (N : ℕ) (c : ℕ → ℚ) (f : ℕ → ℕ → ℕ → ℚ) (x y : ℕ) :
    centred scrn n (fun i j => ∑ k ∈ Finset.range N, c k * f k i j) x y = ∑ k ∈ Finset.range N, c k * centred scrn n (f k) x y := by
  unfold centred
  dsimp only
  split_ifs
  · rfl
  · simp

private theorem zero2_inv (scrn n : ℕ) : ScreenInv scrn n (zero2 scrn) := ⟨rfl, rfl, fun _ _ _ _ _ _ => rfl⟩

/-- What one actuator of a mirror makes. -/
def bump (o : Optics) (k : ℕ) (d : Persist.Dm) (j : ℕ) : Stack := slotF o.scrn k (centred o.scrn d.nElem (surface d.nElem d.shapes (unit d.shapes.length j)))

theorem surface_ok (o : Optics) (k : ℕ) (d : Persist.Dm) (heven : (o.scrn + d.nElem) % 2 = 0) (hne : d.shapes ≠ []) (c : List ℚ) (hc : c.length = d.shapes.length) :
    ∃ a, dmFrame o.scrn d.nElem 0 d.shapes (zero2 o.scrn) c = .ok a ∧ slot o.scrn k a = ∑ j ∈ Finset.range d.shapes.length, c.getD j 0 • bump o k d j := by
  obtain ⟨a, h1, _, h3⟩ := dmFrame_placed o.scrn d.nElem heven d.shapes hne (zero2 o.scrn) (zero2_inv _ _) c hc
  refine ⟨a, h1, ?_⟩
  rw [slot_eq o.scrn k a _ h3]
  refine Prod.ext ?_ ?_
  · simp [slotF, bump, Prod.fst_sum]
  · funext m x y
    rw [Prod.snd_sum, Finset.sum_apply, Finset.sum_apply, Finset.sum_apply]
    simp only [slotF, bump, Prod.smul_snd, Pi.smul_apply, smul_eq_mul]
    split_ifs with h
    · rw [show surface d.nElem d.shapes c = fun i j => ∑ k ∈ Finset.range d.shapes.length, c.getD k 0 * surface d.nElem d.shapes (unit d.shapes.length k) i j from
        funext fun i => funext fun j => surface_sum _ _ _ _ _]
      exact centred_sum o.scrn d.nElem d.shapes.length (fun k => c.getD k 0) _ x y
    · simp

/-- What `makeIMat` does to the mirrors. -/
private theorem calibrate_mirror (cfg : Persist.Cfg) (sense : ℕ → Arr2 → List ℚ) : ∀ (dms dms' : List Persist.Dm) (i : ℕ) (m : List (List ℚ)), Persist.makeIMat cfg sense i dms = .ok (dms', m) →
    ∀ (k : ℕ) (d d' : Persist.Dm), dms[k]? = some d → dms'[k]? = some d' → d'.nElem = d.nElem ∧ ∃ n, setValid d.shapes d'.valid = .ok (n, d'.shapes) := by
  intro dms
  induction dms with
  | nil => intro dms' i m _ k d d' h; simp at h
  | cons d ds ih =>
    intro dms' i m h k x x' hx hx'
    rw [Persist.makeIMat] at h
    cases h1 : makeDmIMat d.nActs cfg.totalMeas (fun c => dmFrame cfg.scrn d.nElem 0 d.shapes (zero2 cfg.scrn) c) (sense i) with
    | error e => rw [h1] at h; cases h
    | ok p =>
      obtain ⟨flags, rows⟩ := p
      rw [h1] at h
      dsimp only at h
      cases h2 : setValid d.shapes flags with
      | error e => rw [h2] at h; cases h
      | ok q =>
        obtain ⟨n, kept⟩ := q
        rw [h2] at h
        dsimp only at h
        cases h3 : Persist.makeIMat cfg sense (i + 1) ds with
        | error e => rw [h3] at h; cases h
        | ok q =>
          obtain ⟨ds', rows'⟩ := q
          rw [h3] at h
          simp only [Except.ok.injEq, Prod.mk.injEq] at h
          obtain ⟨rfl, rfl⟩ := h
          cases k with
          | zero =>
            simp at hx hx'
            subst hx; subst hx'
            exact ⟨rfl, n, h2⟩
          | succ k => exact ih ds' (i + 1) rows' h3 k x x' (by simpa using hx) (by simpa using hx')

/-- Row `j` of mirror `k` in the interaction matrix is what the sensors answer to actuator `j` of the mirror as it is after calibration. -/
theorem calibrate_rows (o : Optics) (ho : Optics.Sound o) (totalActs : ℕ) (dms dms' : List Persist.Dm) (M : List (List ℚ)) (hcal : o.calibrate totalActs dms = .ok (dms', M))
    (hdms : ∀ d ∈ dms, d.shapes.length = d.nActs ∧ (o.scrn + d.nElem) % 2 = 0) :
    dms'.length = dms.length ∧ M.length = (dms'.map fun d => d.shapes.length).sum ∧
    ∀ (k : ℕ) (d' : Persist.Dm), dms'[k]? = some d' → (o.scrn + d'.nElem) % 2 = 0 ∧
      ∀ j, j < d'.shapes.length → ∀ m, m < o.totalMeas → (M.getD (((dms'.take k).map fun d => d.shapes.length).sum + j) []).getD m 0 = senses o (bump o k d' j) m := by
  obtain ⟨blocks, hM, hbl, hdl, hblk⟩ := C14_stacked _ _ _ _ _ hcal
  have hfield := calibrate_mirror _ _ dms dms' 0 M hcal
  -- each block
  have key : ∀ (k : ℕ) (d' : Persist.Dm) (b : List (List ℚ)), dms'[k]? = some d' → blocks[k]? = some b → b.length = d'.shapes.length ∧ (o.scrn + d'.nElem) % 2 = 0 ∧
      ∀ j, j < d'.shapes.length → ∀ m, m < o.totalMeas → (b.getD j []).getD m 0 = senses o (bump o k d' j) m := by
    intro k d' b hd' hb
    have hk : k < dms.length := by
      have := (List.getElem?_eq_some_iff.mp hd').1
      omega
    have hd : dms[k]? = some dms[k] := List.getElem?_eq_getElem hk
    obtain ⟨hn, he⟩ := hdms _ (List.getElem_mem hk)
    obtain ⟨hel, nv, hset⟩ := hfield k _ d' hd hd'
    have hmk := hblk k _ d' b hd hd' hb
    rw [← hn] at hmk
    obtain ⟨idx, kept, resp, mx, r1, _, _, _, r5, r6, r7, r8, r9⟩ := C14_alignment _ _ _ _ _ _ hmk
    have hkept : kept = d'.shapes := by
      rw [hset] at r6
      simp only [Except.ok.injEq, Prod.mk.injEq] at r6
      exact r6.2.symm
    subst hkept
    refine ⟨by omega, by rw [hel]; exact he, ?_⟩
    intro j hj m hm
    have hji : j < idx.length := by omega
    have hij : idx[j]? = some idx[j] := List.getElem?_eq_getElem hji
    obtain ⟨k1, k2⟩ := r9 j _ hij
    have ha := (r5 idx[j]).mp (List.getElem_mem hji)
    obtain ⟨s, s1, s2⟩ := r1 _ ha.1
    rw [show b.getD j [] = resp idx[j] by rw [List.getD_eq_getElem?_getD, k2]; rfl, s2, List.getD_eq_getElem?_getD, List.getElem?_map, poke_get o ho k s m hm]
    simp only [Option.map_some, Option.getD_some, neg_neg]
    have hfne : dms[k].shapes ≠ [] := by
      intro hcon
      have := ha.1
      rw [hcon] at this
      simp at this
    have hun : ((List.range dms[k].shapes.length).map fun q => if q = idx[j] then (1 : ℚ) else 0) = unit dms[k].shapes.length idx[j] := by
      apply List.ext_getElem (by simp [unit, zeros])
      intro q h1 h2
      simp [unit, zeros, List.getElem_set, eq_comm]
    rw [hun] at s1
    obtain ⟨s', t1, _, t3⟩ := dmFrame_placed o.scrn dms[k].nElem he dms[k].shapes hfne (zero2 o.scrn) (zero2_inv _ _) (unit dms[k].shapes.length idx[j]) (by simp [unit, zeros])
    rw [s1] at t1
    simp only [Except.ok.injEq] at t1
    subst t1
    rw [slot_eq o.scrn k s _ t3]
    unfold bump
    rw [hel]
    congr 2
    unfold surface
    rw [superpose_unit _ _ _ ha.1, superpose_unit _ _ _ hj, List.getD_eq_getElem?_getD, List.getD_eq_getElem?_getD, k1]
  have hlens : blocks.map List.length = dms'.map fun d => d.shapes.length := by
    apply List.ext_getElem (by simp; omega)
    intro k h1 h2
    simp only [List.length_map] at h1 h2
    simp only [List.getElem_map]
    exact (key k _ _ (List.getElem?_eq_getElem h2) (List.getElem?_eq_getElem h1)).1
  refine ⟨hdl, by rw [hM, List.length_flatten, hlens], ?_⟩
  intro k d' hd'
  have hk : k < blocks.length := by
    have := (List.getElem?_eq_some_iff.mp hd').1
    omega
  obtain ⟨k1, k2, k3⟩ := key k d' _ hd' (List.getElem?_eq_getElem hk)
  refine ⟨k2, ?_⟩
  intro j hj m hm
  have hrb : rowsBefore blocks k = ((dms'.take k).map fun d => d.shapes.length).sum := by
    unfold rowsBefore
    rw [List.map_take, List.map_take, hlens]
  rw [← hrb, hM, flatten_getD blocks k j _ (List.getElem?_eq_getElem hk) (by omega), k3 j hj m hm]

def shapeAt (o : Optics) : ℕ → List Persist.Dm → ℕ → Stack
  | _, [], _ => 0
  | k, d :: ds, p => if p < d.shapes.length then bump o k d p else shapeAt o (k + 1) ds (p - d.shapes.length)

theorem shapeAt_get (o : Optics) : ∀ (ds : List Persist.Dm) (i k : ℕ) (d : Persist.Dm) (j : ℕ), ds[k]? = some d → j < d.shapes.length →
    shapeAt o i ds (((ds.take k).map fun d => d.shapes.length).sum + j) = bump o (i + k) d j
  | [], _, _, _, _, h, _ => by simp at h
  | x :: ds, i, 0, d, j, h, hj => by
    simp at h; subst h
    simp [shapeAt, hj]
  | x :: ds, i, k + 1, d, j, h, hj => by
    rw [List.take_succ_cons, List.map_cons, List.sum_cons, shapeAt, if_neg (by omega), show x.shapes.length + ((ds.take k).map fun d => d.shapes.length).sum + j - x.shapes.length = ((ds.take k).map fun d => d.shapes.length).sum + j by omega,
      shapeAt_get o ds (i + 1) k d j (by simpa using h) hj]
    congr 1
    omega

/-- Gain of every command. -/
def gainOf : List DmCtl → ℕ → ℚ
  | [], _ => 0
  | m :: ms, p => if p < m.nValid then m.gain else gainOf ms (p - m.nValid)

theorem gainOf_get : ∀ (ms : List DmCtl) (k : ℕ) (m : DmCtl), ms[k]? = some m → ∀ j, j < m.nValid → gainOf ms (firstCommand ms k + j) = m.gain
  | [], _, _, h, _, _ => by simp at h
  | x :: ms, 0, m, h, j, hj => by
    simp at h; subst h
    simp [firstCommand, gainOf, hj]
  | x :: ms, k + 1, m, h, j, hj => by
    have := gainOf_get ms k m (by simpa using h) j hj
    simp only [firstCommand] at this ⊢
    rw [List.take_succ_cons, List.map_cons, List.sum_cons, gainOf, if_neg (by omega), ← this]
    congr 1
    omega

theorem controls_get (dms : List Persist.Dm) (gains : List ℚ) (hg : gains.length = dms.length) (k : ℕ) (m : DmCtl) (h : (controls dms gains)[k]? = some m) :
    ∃ d, dms[k]? = some d ∧ m.nValid = d.shapes.length ∧ m.closed = true ∧ gains[k]? = some m.gain := by
  unfold controls at h
  rw [List.getElem?_zipWith] at h
  cases h1 : dms[k]? with
  | none => simp [h1] at h
  | some d =>
    cases h2 : gains[k]? with
    | none => simp [h1, h2] at h
    | some g =>
      simp [h1, h2] at h
      subst h
      exact ⟨d, rfl, rfl, rfl, rfl⟩

theorem controls_valid (dms : List Persist.Dm) (gains : List ℚ) (hg : gains.length = dms.length) : (controls dms gains).map DmCtl.nValid = dms.map fun d => d.shapes.length := by
  induction dms generalizing gains with
  | nil => simp [controls]
  | cons d ds ih =>
    cases gains with
    | nil => simp at hg
    | cons g gs =>
      have := ih gs (by simpa using hg)
      simpa [controls] using this

/-- The commands that the control matrix reconstructs from measurements. -/
def reconstructed (cmat : List (List ℚ)) (meas : List ℚ) (p : ℕ) : ℚ := ∑ m ∈ Finset.range cmat.length, (cmat.getD m []).getD p 0 * meas.getD m 0

/-- The control matrix undoes the interaction matrix: poking actuator `p` is reconstructed as command 1 for `p` and 0 for all others. -/
def Undoes (cmat imat : List (List ℚ)) : Prop :=
  ∀ p q, p < imat.length → q < imat.length → ∑ m ∈ Finset.range cmat.length, (imat.getD p []).getD m 0 * (cmat.getD m []).getD q 0 = if p = q then 1 else 0

/-- The general form of C111 and C154: the sensors measure what is left of the atmosphere with the errors `err`. -/
theorem whole_any (o : Optics) (ho : Optics.Sound o) (totalActs : ℕ) (dms dms' : List Persist.Dm) (M : List (List ℚ)) (hcal : o.calibrate totalActs dms = .ok (dms', M))
    (hne : dms ≠ []) (hdms : ∀ d ∈ dms, d.shapes.length = d.nActs ∧ (o.scrn + d.nElem) % 2 = 0) (hkept : ∀ d ∈ dms', d.shapes ≠ [])
    (P : List (List ℚ)) (hrows : P.length = o.totalMeas) (hcols : ∀ r ∈ P, r.length = M.length) (hinv : Undoes P M)
    (gains : List ℚ) (hg : gains.length = dms.length) (d nIters nActs n : ℕ) (hN : 1 ≤ nIters) (saveSlopes saveDm : Bool) (hstore : saveDm = true → nActs = M.length) (turb : ℕ → ℕ → ℕ → ℕ → ℚ) (pl : Plant Unit Stack) (err : ℕ → ℕ → ℚ)
    (hpl : ∀ i corr, pl.sense () i corr = .ok ((), (List.range o.totalMeas).map fun m => senses o ((turb i, 0) - corr.sum) m + err i m)) :
    ∃ s' ts, runLoop (o.sys dms' P d nIters saveSlopes saveDm) pl (initial (o.sys dms' P d nIters saveSlopes saveDm) (controls dms' gains) o.totalMeas nActs ()) (List.replicate n (controls dms' gains)) = .ok (s', ts) ∧
      ts.length = n ∧ ∀ (i : ℕ) (t : Trace Stack), ts[i]? = some t →
        (∀ p, p < M.length → t.cmds[p]? =
          some (reconstructed P (o.uncorrected (turb i)) p - lag d (gainOf (controls dms' gains) p) (fun k => reconstructed P (o.uncorrected (turb k)) p) (fun k => ∑ m ∈ Finset.range o.totalMeas, (P.getD m []).getD p 0 * err k m) i)) ∧
        (t.slopes = (List.range o.totalMeas).map fun m => (o.uncorrected (turb i)).getD m 0 - (∑ p ∈ Finset.range M.length, t.cmds.getD p 0 * (M.getD p []).getD m 0) + err i m) ∧
        t.seenByWfs.sum = ∑ p ∈ Finset.range M.length, t.cmds.getD p 0 • shapeAt o 0 dms' p ∧ t.seenBySci = t.seenByWfs := by
  obtain ⟨hl, hML, hrow⟩ := calibrate_rows o ho totalActs dms dms' M hcal hdms
  have hg' : gains.length = dms'.length := by omega
  have hval := controls_valid dms' gains hg'
  have hnC : nCommands (controls dms' gains) = M.length := by rw [nCommands, hval, hML]
  have hfirst : ∀ k, firstCommand (controls dms' gains) k = ((dms'.take k).map fun d => d.shapes.length).sum := by
    intro k
    rw [firstCommand, List.map_take, List.map_take, hval]
  have hsh : ∀ p, p < M.length → ∀ m, m < o.totalMeas → senses o (shapeAt o 0 dms' p) m = (M.getD p []).getD m 0 := by
    intro p hp m hm
    obtain ⟨⟨k, j⟩, ⟨c, hk, hj, hpe⟩, _⟩ := C11_blocks_partition (controls dms' gains) p (by omega)
    dsimp only at hk hj hpe
    obtain ⟨d', hd', hv, _, _⟩ := controls_get dms' gains hg' k c hk
    rw [hpe, hfirst, shapeAt_get o dms' 0 k d' j hd' (by omega), (hrow k d' hd').2 j (by omega) m hm, Nat.zero_add]
  have hunc : ∀ i m, m < o.totalMeas → (o.uncorrected (turb i)).getD m 0 = senses o (turb i, 0) m := by
    intro i m hm
    rw [uncorrected_get o ho, List.getD_eq_getElem?_getD, List.getElem?_map, List.getElem?_range hm]
    rfl
  set a : ℕ → ℕ → ℚ := fun i p => reconstructed P (o.uncorrected (turb i)) p with ha
  set ψ : ℕ → Stack := fun i => (turb i, 0) - ∑ p ∈ Finset.range M.length, a i p • shapeAt o 0 dms' p with hψ
  -- what the mirrors cannot make is not reconstructed
  have hSψ : ∀ i m, m < o.totalMeas → senses o (ψ i) m = (o.uncorrected (turb i)).getD m 0 - ∑ p ∈ Finset.range M.length, a i p * (M.getD p []).getD m 0 := by
    intro i m hm
    rw [hψ]
    dsimp only
    rw [map_sub, Pi.sub_apply, map_sum, Finset.sum_apply, hunc i m hm]
    congr 1
    refine Finset.sum_congr rfl fun p hp => ?_
    rw [map_smul, Pi.smul_apply, smul_eq_mul, hsh p (Finset.mem_range.mp hp) m hm]
  have hb : ∀ i p, p < M.length → ∑ m ∈ Finset.range o.totalMeas, (P.getD m []).getD p 0 * senses o (ψ i) m = 0 := by
    intro i p hp
    rw [Finset.sum_congr rfl fun m hm => by rw [hSψ i m (Finset.mem_range.mp hm), mul_sub, Finset.mul_sum], Finset.sum_sub_distrib, Finset.sum_comm]
    have : ∀ q ∈ Finset.range M.length, ∑ m ∈ Finset.range o.totalMeas, (P.getD m []).getD p 0 * (a i q * (M.getD q []).getD m 0) = if q = p then a i p else 0 := by
      intro q hq
      have := hinv q p (Finset.mem_range.mp hq) hp
      rw [hrows] at this
      rw [Finset.sum_congr rfl fun m _ => show (P.getD m []).getD p 0 * (a i q * (M.getD q []).getD m 0) = a i q * ((M.getD q []).getD m 0 * (P.getD m []).getD p 0) by ring, ← Finset.mul_sum, this]
      split_ifs with h
      · rw [h, mul_one]
      · rw [mul_zero]
    rw [Finset.sum_congr rfl this, Finset.sum_ite_eq' (Finset.range M.length) p, if_pos (Finset.mem_range.mpr hp), ha]
    dsimp only
    rw [reconstructed, hrows, sub_self]
  obtain ⟨s', ts, hrun, hlen, hts⟩ := C110_loop (o.sys dms' P d nIters saveSlopes saveDm) pl (controls dms' gains)
    (by
      intro hcon
      have h1 : (controls dms' gains).length = 0 := by rw [hcon]; rfl
      have h2 : dms.length ≠ 0 := by simpa using hne
      rw [show (controls dms' gains).length = min dms'.length gains.length by simp [controls]] at h1
      omega)
    (by
      intro c hc
      obtain ⟨k, hk⟩ := List.mem_iff_getElem?.mp hc
      obtain ⟨_, _, _, h, _⟩ := controls_get dms' gains hg' k c hk
      exact h)
    o.totalMeas nActs d n rfl hN (by intro h; rw [hnC]; exact hstore h) (shapeAt o 0 dms') (senses o) (fun i => (turb i, 0)) ψ a err (gainOf (controls dms' gains))
    (by
      intro k c hk cmd hc
      obtain ⟨d', hd', hv, _, _⟩ := controls_get dms' gains hg' k c hk
      obtain ⟨x, x1, x2⟩ := surface_ok o k d' (hrow k d' hd').1 (hkept d' (List.mem_of_getElem? hd')) cmd (by omega)
      simp only [Optics.sys, hd', x1, x2, hv]
      congr 1
      refine Finset.sum_congr rfl fun j hj => ?_
      rw [hfirst, shapeAt_get o dms' 0 k d' j hd' (Finset.mem_range.mp hj), Nat.zero_add])
    (gainOf_get _)
    hpl
    P hrows (by rw [hnC]; exact hcols)
    (by simp only [Optics.sys]; rw [hnC, hML])
    (by
      intro p q hp hq
      rw [hnC] at hp hq
      rw [← hinv p q hp hq, hrows]
      refine Finset.sum_congr rfl fun m hm => ?_
      rw [zero_sub, map_neg, Pi.neg_apply, neg_neg, hsh p hp m (Finset.mem_range.mp hm)])
    (by intro i; rw [hnC, hψ]; simp)
  refine ⟨s', ts, hrun, hlen, ?_⟩
  intro i t ht
  obtain ⟨g1, g2⟩ := hts i t ht
  rw [hnC] at g1 g2
  have hlag : ∀ p, p < M.length → lag d (gainOf (controls dms' gains) p) (fun k => a k p) (fun k => ∑ m ∈ Finset.range o.totalMeas, (P.getD m []).getD p 0 * (senses o (ψ k) m + err k m)) i =
      lag d (gainOf (controls dms' gains) p) (fun k => a k p) (fun k => ∑ m ∈ Finset.range o.totalMeas, (P.getD m []).getD p 0 * err k m) i := by
    intro p hp
    congr 1
    funext k
    simp only [mul_add]
    rw [Finset.sum_add_distrib, hb k p hp, zero_add]
  have hcmds : ∀ p, p < M.length → t.cmds[p]? = some (a i p - lag d (gainOf (controls dms' gains) p) (fun k => a k p) (fun k => ∑ m ∈ Finset.range o.totalMeas, (P.getD m []).getD p 0 * err k m) i) := by
    intro p hp
    rw [g1 p hp, hlag p hp]
  refine ⟨hcmds, ?_, ?_, ?_⟩
  rotate_left
  · have e : t.seenByWfs.sum = (turb i, 0) - ((turb i, 0) - t.seenByWfs.sum) := (sub_sub_cancel _ _).symm
    rw [e, g2, hψ]
    dsimp only
    rw [sub_add, sub_sub_cancel, ← Finset.sum_sub_distrib]
    refine Finset.sum_congr rfl fun p hp => ?_
    rw [Finset.mem_range] at hp
    rw [← sub_smul, hlag p hp, show t.cmds.getD p 0 = _ by rw [List.getD_eq_getElem?_getD, hcmds p hp, Option.getD_some]]
  · obtain ⟨_, hsees⟩ := C16_who_sees_what _ _ _ _ _ _ _ _ _ hrun
    obtain ⟨l1, l2, l3⟩ := hsees i t ht
    refine List.ext_getElem? fun k => ?_
    by_cases hk : k < (controls dms' gains).length
    · obtain ⟨x, _, x2, x3⟩ := l3 k _ (List.getElem?_eq_getElem hk)
      obtain ⟨_, _, _, hcl, _⟩ := controls_get dms' gains hg' k _ (List.getElem?_eq_getElem hk)
      rw [x2, x3, hcl, if_pos rfl]
    · rw [List.getElem?_eq_none (by omega), List.getElem?_eq_none (by omega)]
  have := run_slopes_at _ pl (fun i corr => (List.range o.totalMeas).map fun m => senses o ((turb i, 0) - corr.sum) m + err i m) hpl (controls dms' gains) n _ s' ts hrun i t ht
  simp only [initial, Nat.zero_add] at this
  rw [this]
  refine List.map_congr_left fun m hm => ?_
  rw [List.mem_range] at hm
  rw [g2, map_add, Pi.add_apply, hSψ i m hm, map_sum, Finset.sum_apply, sub_add, ← Finset.sum_sub_distrib]
  congr 2
  refine Finset.sum_congr rfl fun p hp => ?_
  rw [Finset.mem_range] at hp
  rw [map_smul, Pi.smul_apply, smul_eq_mul, hsh p hp m hm, hlag p hp, show t.cmds.getD p 0 = _ by rw [List.getD_eq_getElem?_getD, hcmds p hp, Option.getD_some]]
  ring

/-- **C111 (whole).** A simulation with linear sensors measures its interaction matrix with its own mirrors, keeps the actuators that matter, and closes the loop with a control matrix that undoes the interaction matrix:
whatever the atmosphere shows, the run completes, every command follows what the control matrix reconstructs from the measurements that would be made without mirrors, late by the delay and with the gain of its mirror (`lag`),
and the measurements are the uncorrected ones minus the commands times the interaction matrix. -/
theorem C111_whole (o : Optics) (ho : Optics.Sound o) (totalActs : ℕ) (dms dms' : List Persist.Dm) (M : List (List ℚ)) (hcal : o.calibrate totalActs dms = .ok (dms', M))
    (hne : dms ≠ []) (hdms : ∀ d ∈ dms, d.shapes.length = d.nActs ∧ (o.scrn + d.nElem) % 2 = 0) (hkept : ∀ d ∈ dms', d.shapes ≠ [])
    (P : List (List ℚ)) (hrows : P.length = o.totalMeas) (hcols : ∀ r ∈ P, r.length = M.length) (hinv : Undoes P M)
    (gains : List ℚ) (hg : gains.length = dms.length) (d nIters nActs n : ℕ) (hN : 1 ≤ nIters) (saveSlopes saveDm : Bool) (hstore : saveDm = true → nActs = M.length) (turb : ℕ → ℕ → ℕ → ℕ → ℚ) :
    ∃ s' ts, runLoop (o.sys dms' P d nIters saveSlopes saveDm) (o.plant turb) (initial (o.sys dms' P d nIters saveSlopes saveDm) (controls dms' gains) o.totalMeas nActs ()) (List.replicate n (controls dms' gains)) = .ok (s', ts) ∧
      ts.length = n ∧ ∀ (i : ℕ) (t : Trace Stack), ts[i]? = some t →
        (∀ p, p < M.length → t.cmds[p]? =
          some (reconstructed P (o.uncorrected (turb i)) p - lag d (gainOf (controls dms' gains) p) (fun k => reconstructed P (o.uncorrected (turb k)) p) (fun _ => 0) i)) ∧
        t.slopes = (List.range o.totalMeas).map fun m => (o.uncorrected (turb i)).getD m 0 - ∑ p ∈ Finset.range M.length, t.cmds.getD p 0 * (M.getD p []).getD m 0 := by
  obtain ⟨s', ts, h1, h2, h3⟩ := whole_any o ho totalActs dms dms' M hcal hne hdms hkept P hrows hcols hinv gains hg d nIters nActs n hN saveSlopes saveDm hstore turb (o.plant turb) (fun _ _ => 0) (by intro i corr; rw [sense_eq o ho]; simp)
  exact ⟨s', ts, h1, h2, fun i t ht => by simpa using And.intro (h3 i t ht).1 (h3 i t ht).2.1⟩

/-- The gain of every command is the gain of one of the mirrors. -/
theorem gainOf_mem (o : Optics) (ho : Optics.Sound o) (totalActs : ℕ) (dms dms' : List Persist.Dm) (M : List (List ℚ)) (hcal : o.calibrate totalActs dms = .ok (dms', M))
    (hdms : ∀ d ∈ dms, d.shapes.length = d.nActs ∧ (o.scrn + d.nElem) % 2 = 0) (gains : List ℚ) (hg : gains.length = dms.length) (p : ℕ) (hp : p < M.length) : gainOf (controls dms' gains) p ∈ gains := by
  obtain ⟨hl, hML, _⟩ := calibrate_rows o ho totalActs dms dms' M hcal hdms
  have hg' : gains.length = dms'.length := by omega
  have hnC : nCommands (controls dms' gains) = M.length := by rw [nCommands, controls_valid dms' gains hg', hML]
  obtain ⟨⟨k, j⟩, ⟨x, hk, hj, hpe⟩, _⟩ := C11_blocks_partition (controls dms' gains) p (by omega)
  dsimp only at hk hj hpe
  obtain ⟨_, _, _, _, hgk⟩ := controls_get dms' gains hg' k x hk
  rw [hpe, gainOf_get _ k x hk j hj]
  exact List.mem_of_getElem? hgk

theorem settles_sum (N : ℕ) (e : ℕ → ℕ → ℚ) (c : ℕ → ℚ) (h : ∀ p, p < N → Settles (e p)) : Settles fun i => ∑ p ∈ Finset.range N, e p i * c p := by
  induction N with
  | zero => intro ε hε; exact ⟨0, fun n _ => by simpa using hε⟩
  | succ N ih =>
    intro ε hε
    obtain ⟨N1, h1⟩ := ih (fun p hp => h p (by omega)) (ε / 2) (by linarith)
    have hc : 0 < |c N| + 1 := by positivity
    obtain ⟨N2, h2⟩ := h N (by omega) (ε / 2 / (|c N| + 1)) (by positivity)
    refine ⟨max N1 N2, fun n hn => ?_⟩
    dsimp only
    rw [Finset.sum_range_succ]
    refine lt_of_le_of_lt (abs_add_le _ _) ?_
    have a1 := h1 n (le_trans (le_max_left _ _) hn)
    have a2 := h2 n (le_trans (le_max_right _ _) hn)
    have a3 : |e N n * c N| ≤ ε / 2 := by
      rw [abs_mul]
      rw [lt_div_iff₀ hc] at a2
      have := abs_nonneg (e N n)
      nlinarith
    linarith

theorem settles_all (N : ℕ) (e : ℕ → ℕ → ℚ) (h : ∀ p, p < N → Settles (e p)) (ε : ℚ) (hε : 0 < ε) : ∃ K, ∀ n, K ≤ n → ∀ p, p < N → |e p n| < ε := by
  induction N with
  | zero => exact ⟨0, fun _ _ p hp => by omega⟩
  | succ N ih =>
    obtain ⟨K1, h1⟩ := ih fun p hp => h p (by omega)
    obtain ⟨K2, h2⟩ := h N (by omega) ε hε
    refine ⟨max K1 K2, fun n hn p hp => ?_⟩
    rcases Nat.lt_succ_iff_lt_or_eq.mp hp with hlt | rfl
    · exact h1 n (le_trans (le_max_left _ _) hn) p hlt
    · exact h2 n (le_trans (le_max_right _ _) hn)

/-- **C111 (nulls, any gains for which single components settle).** If the atmosphere stands still and what the sensors measure of it is what they measure of some shape of the mirrors (commands `c`), then the commands come and stay as close to
`c` as one likes, and all measurements to zero — in one number of frames for all, whatever the length of the run. -/
theorem C111_nulls_of (o : Optics) (ho : Optics.Sound o) (totalActs : ℕ) (dms dms' : List Persist.Dm) (M : List (List ℚ)) (hcal : o.calibrate totalActs dms = .ok (dms', M))
    (hne : dms ≠ []) (hdms : ∀ d ∈ dms, d.shapes.length = d.nActs ∧ (o.scrn + d.nElem) % 2 = 0) (hkept : ∀ d ∈ dms', d.shapes ≠ [])
    (P : List (List ℚ)) (hrows : P.length = o.totalMeas) (hcols : ∀ r ∈ P, r.length = M.length) (hinv : Undoes P M)
    (gains : List ℚ) (hg : gains.length = dms.length) (d nIters nActs : ℕ) (hN : 1 ≤ nIters) (saveSlopes saveDm : Bool) (hstore : saveDm = true → nActs = M.length)
    (hgains : ∀ g ∈ gains, ∀ a, Settles (leftOver d g a))
    (still : ℕ → ℕ → ℕ → ℚ) (c : ℕ → ℚ) (hc : ∀ m, m < o.totalMeas → (o.uncorrected still).getD m 0 = ∑ p ∈ Finset.range M.length, c p * (M.getD p []).getD m 0) (ε : ℚ) (hε : 0 < ε) :
    ∃ K, ∀ n, ∃ s' ts, runLoop (o.sys dms' P d nIters saveSlopes saveDm) (o.plant fun _ => still) (initial (o.sys dms' P d nIters saveSlopes saveDm) (controls dms' gains) o.totalMeas nActs ()) (List.replicate n (controls dms' gains)) = .ok (s', ts) ∧
      ts.length = n ∧ ∀ (i : ℕ) (t : Trace Stack), K ≤ i → ts[i]? = some t →
        (∀ p, p < M.length → ∃ x, t.cmds[p]? = some x ∧ |x - c p| < ε) ∧ t.slopes.length = o.totalMeas ∧ ∀ x ∈ t.slopes, |x| < ε := by
  obtain ⟨hl, hML, _⟩ := calibrate_rows o ho totalActs dms dms' M hcal hdms
  have hg' : gains.length = dms'.length := by omega
  have hval := controls_valid dms' gains hg'
  have hnC : nCommands (controls dms' gains) = M.length := by rw [nCommands, hval, hML]
  -- the reconstructed commands
  have hrec : ∀ p, p < M.length → reconstructed P (o.uncorrected still) p = c p := by
    intro p hp
    rw [reconstructed, hrows, Finset.sum_congr rfl fun m hm => by rw [hc m (Finset.mem_range.mp hm), Finset.mul_sum], Finset.sum_comm]
    have : ∀ q ∈ Finset.range M.length, ∑ m ∈ Finset.range o.totalMeas, (P.getD m []).getD p 0 * (c q * (M.getD q []).getD m 0) = if q = p then c p else 0 := by
      intro q hq
      have := hinv q p (Finset.mem_range.mp hq) hp
      rw [hrows] at this
      rw [Finset.sum_congr rfl fun m _ => show (P.getD m []).getD p 0 * (c q * (M.getD q []).getD m 0) = c q * ((M.getD q []).getD m 0 * (P.getD m []).getD p 0) by ring, ← Finset.mul_sum, this]
      split_ifs with h
      · rw [h, mul_one]
      · rw [mul_zero]
    rw [Finset.sum_congr rfl this, Finset.sum_ite_eq' (Finset.range M.length) p, if_pos (Finset.mem_range.mpr hp)]
  -- every command settles
  set e : ℕ → ℕ → ℚ := fun p => leftOver d (gainOf (controls dms' gains) p) (c p) with he
  have hset : ∀ p, p < M.length → Settles (e p) := by
    intro p hp
    obtain ⟨⟨k, j⟩, ⟨x, hk, hj, hpe⟩, _⟩ := C11_blocks_partition (controls dms' gains) p (by omega)
    dsimp only at hk hj hpe
    obtain ⟨_, _, _, _, hgk⟩ := controls_get dms' gains hg' k x hk
    have hgp : gainOf (controls dms' gains) p = x.gain := by rw [hpe]; exact gainOf_get _ k x hk j hj
    rw [he]
    dsimp only
    rw [hgp]
    exact hgains _ (List.mem_of_getElem? hgk) (c p)
  obtain ⟨K1, hK1⟩ := settles_all M.length e hset ε hε
  obtain ⟨K2, hK2⟩ := settles_all o.totalMeas (fun m i => ∑ p ∈ Finset.range M.length, e p i * (M.getD p []).getD m 0) (fun m _ => settles_sum M.length e (fun p => (M.getD p []).getD m 0) hset) ε hε
  refine ⟨max K1 K2, fun n => ?_⟩
  obtain ⟨s', ts, hrun, hlen, hts⟩ := C111_whole o ho totalActs dms dms' M hcal hne hdms hkept P hrows hcols hinv gains hg d nIters nActs n hN saveSlopes saveDm hstore fun _ => still
  refine ⟨s', ts, hrun, hlen, fun i t hi ht => ?_⟩
  obtain ⟨h1, h2⟩ := hts i t ht
  have hcmd : ∀ p, p < M.length → t.cmds[p]? = some (c p - e p i) := by
    intro p hp
    rw [h1 p hp, hrec p hp, lag_static]
  refine ⟨fun p hp => ⟨_, hcmd p hp, ?_⟩, by rw [h2]; simp, ?_⟩
  · rw [sub_sub_cancel_left, abs_neg]
    exact hK1 i (le_trans (le_max_left _ _) hi) p hp
  · intro x hx
    rw [h2] at hx
    obtain ⟨m, hm, rfl⟩ := List.mem_map.mp hx
    rw [List.mem_range] at hm
    have := hK2 i (le_trans (le_max_right _ _) hi) m hm
    rw [hc m hm, ← Finset.sum_sub_distrib]
    rw [Finset.sum_congr rfl fun p hp => show c p * (M.getD p []).getD m 0 - t.cmds.getD p 0 * (M.getD p []).getD m 0 = e p i * (M.getD p []).getD m 0 by
      rw [show t.cmds.getD p 0 = _ by rw [List.getD_eq_getElem?_getD, hcmd p (Finset.mem_range.mp hp), Option.getD_some]]
      ring]
    exact this

/-- **C111 (nulls).** If the atmosphere stands still and what the sensors measure of it is what they measure of some shape of the mirrors (commands `c`), then with gains between 0 and 1 and below `1 / d` the commands come and stay as close to
`c` as one likes, and all measurements to zero — in one number of frames for all, whatever the length of the run. -/
theorem C111_nulls (o : Optics) (ho : Optics.Sound o) (totalActs : ℕ) (dms dms' : List Persist.Dm) (M : List (List ℚ)) (hcal : o.calibrate totalActs dms = .ok (dms', M))
    (hne : dms ≠ []) (hdms : ∀ d ∈ dms, d.shapes.length = d.nActs ∧ (o.scrn + d.nElem) % 2 = 0) (hkept : ∀ d ∈ dms', d.shapes ≠ [])
    (P : List (List ℚ)) (hrows : P.length = o.totalMeas) (hcols : ∀ r ∈ P, r.length = M.length) (hinv : Undoes P M)
    (gains : List ℚ) (hg : gains.length = dms.length) (d nIters nActs : ℕ) (hN : 1 ≤ nIters) (saveSlopes saveDm : Bool) (hstore : saveDm = true → nActs = M.length)
    (hgains : ∀ g ∈ gains, 0 < g ∧ g ≤ 1 ∧ g * d < 1)
    (still : ℕ → ℕ → ℕ → ℚ) (c : ℕ → ℚ) (hc : ∀ m, m < o.totalMeas → (o.uncorrected still).getD m 0 = ∑ p ∈ Finset.range M.length, c p * (M.getD p []).getD m 0) (ε : ℚ) (hε : 0 < ε) :
    ∃ K, ∀ n, ∃ s' ts, runLoop (o.sys dms' P d nIters saveSlopes saveDm) (o.plant fun _ => still) (initial (o.sys dms' P d nIters saveSlopes saveDm) (controls dms' gains) o.totalMeas nActs ()) (List.replicate n (controls dms' gains)) = .ok (s', ts) ∧
      ts.length = n ∧ ∀ (i : ℕ) (t : Trace Stack), K ≤ i → ts[i]? = some t →
        (∀ p, p < M.length → ∃ x, t.cmds[p]? = some x ∧ |x - c p| < ε) ∧ t.slopes.length = o.totalMeas ∧ ∀ x ∈ t.slopes, |x| < ε :=
  C111_nulls_of o ho totalActs dms dms' M hcal hne hdms hkept P hrows hcols hinv gains hg d nIters nActs hN saveSlopes saveDm hstore
    (fun g h a => (C79_delay_stable d g a (hgains g h).1 (hgains g h).2.1 (hgains g h).2.2).1) still c hc ε hε

/-- **C111 (follows).** If what the control matrix reconstructs from the uncorrected measurements changes by at most `δ` per frame and command, the commands come and stay within `(1 + g d) (δ / g) / (1 - g d)` of it. -/
theorem C111_follows (o : Optics) (ho : Optics.Sound o) (totalActs : ℕ) (dms dms' : List Persist.Dm) (M : List (List ℚ)) (hcal : o.calibrate totalActs dms = .ok (dms', M))
    (hne : dms ≠ []) (hdms : ∀ d ∈ dms, d.shapes.length = d.nActs ∧ (o.scrn + d.nElem) % 2 = 0) (hkept : ∀ d ∈ dms', d.shapes ≠ [])
    (P : List (List ℚ)) (hrows : P.length = o.totalMeas) (hcols : ∀ r ∈ P, r.length = M.length) (hinv : Undoes P M)
    (g : ℚ) (d nIters nActs n : ℕ) (hN : 1 ≤ nIters) (saveSlopes saveDm : Bool) (hstore : saveDm = true → nActs = M.length) (h0 : 0 < g) (h1 : g ≤ 1) (hd : g * d < 1)
    (turb : ℕ → ℕ → ℕ → ℕ → ℚ) (δ : ℚ) (hδ : ∀ p k, p < M.length → |reconstructed P (o.uncorrected (turb (k + 1))) p - reconstructed P (o.uncorrected (turb k)) p| ≤ δ) :
    ∃ s' ts, runLoop (o.sys dms' P d nIters saveSlopes saveDm) (o.plant turb)
        (initial (o.sys dms' P d nIters saveSlopes saveDm) (controls dms' (List.replicate dms.length g)) o.totalMeas nActs ()) (List.replicate n (controls dms' (List.replicate dms.length g))) = .ok (s', ts) ∧
      ts.length = n ∧ ∀ (i : ℕ) (t : Trace Stack), ts[i]? = some t → ∀ p, p < M.length → ∃ x, t.cmds[p]? = some x ∧ ∀ q, q * (2 * d + 1) ≤ i →
        |reconstructed P (o.uncorrected (turb i)) p - x| ≤ (1 - g + g ^ 2 * d) ^ q * (|reconstructed P (o.uncorrected (turb 0)) p| + 4 * d * δ) + (1 + g * d) * (δ / g) / (1 - g * d) := by
  obtain ⟨hl, hML, _⟩ := calibrate_rows o ho totalActs dms dms' M hcal hdms
  have hg' : (List.replicate dms.length g).length = dms'.length := by simp; omega
  have hval := controls_valid dms' (List.replicate dms.length g) hg'
  have hnC : nCommands (controls dms' (List.replicate dms.length g)) = M.length := by rw [nCommands, hval, hML]
  obtain ⟨s', ts, r1, r2, r3⟩ := C111_whole o ho totalActs dms dms' M hcal hne hdms hkept P hrows hcols hinv (List.replicate dms.length g) (by simp) d nIters nActs n hN saveSlopes saveDm hstore turb
  refine ⟨s', ts, r1, r2, fun i t ht p hp => ⟨_, (r3 i t ht).1 p hp, fun q hq => ?_⟩⟩
  have hgp : gainOf (controls dms' (List.replicate dms.length g)) p = g := by
    obtain ⟨⟨k, j⟩, ⟨x, hk, hj, hpe⟩, _⟩ := C11_blocks_partition (controls dms' (List.replicate dms.length g)) p (by omega)
    dsimp only at hk hj hpe
    obtain ⟨_, _, _, _, hgk⟩ := controls_get dms' _ hg' k x hk
    rw [hpe, gainOf_get _ k x hk j hj]
    exact List.eq_of_mem_replicate (List.mem_of_getElem? hgk)
  rw [sub_sub_cancel, hgp]
  have := C110_bounded d g δ 0 (fun k => reconstructed P (o.uncorrected (turb k)) p) (fun _ => 0) h0 h1 hd (fun k => hδ p k hp) (fun _ => by simp) q i hq
  simpa using this

/-- **C111 (pseudo-inverse).** A matrix with `M P M = M`, as the pseudo-inverse is, undoes `M` if no combination of actuators is invisible to the sensors. -/
theorem C111_undoes (P M : List (List ℚ))
    (hP : ∀ p m, p < M.length → m < P.length → ∑ q ∈ Finset.range M.length, (∑ l ∈ Finset.range P.length, (M.getD p []).getD l 0 * (P.getD l []).getD q 0) * (M.getD q []).getD m 0 = (M.getD p []).getD m 0)
    (hind : ∀ c : ℕ → ℚ, (∀ m, m < P.length → ∑ q ∈ Finset.range M.length, c q * (M.getD q []).getD m 0 = 0) → ∀ q, q < M.length → c q = 0) : Undoes P M := by
  intro p q hp hq
  have := hind (fun q => ∑ l ∈ Finset.range P.length, (M.getD p []).getD l 0 * (P.getD l []).getD q 0 - if p = q then 1 else 0) (by
    intro m hm
    have h := hP p m hp hm
    simp only [sub_mul, Finset.sum_sub_distrib]
    rw [h, Finset.sum_congr rfl fun q _ => show (if p = q then (1 : ℚ) else 0) * (M.getD q []).getD m 0 = if p = q then (M.getD p []).getD m 0 else 0 by
      split_ifs with h
      · rw [h, one_mul]
      · rw [zero_mul], Finset.sum_ite_eq (Finset.range M.length) p, if_pos (Finset.mem_range.mpr hp), sub_self]) q hq
  linarith

/-! ### The gradient sensor -/

private theorem window (n x y s : ℕ) (hx : x + s ≤ n) (hy : y + s ≤ n) (f : ℕ → ℕ → ℚ) :
    ∑ i ∈ Finset.range n, ∑ j ∈ Finset.range n, (if x ≤ i ∧ i < x + s ∧ y ≤ j ∧ j < y + s then f i j else 0) = ∑ i ∈ Finset.range s, ∑ j ∈ Finset.range s, f (x + i) (y + j) := by
  have one : ∀ (x : ℕ) (_ : x + s ≤ n) (g : ℕ → ℚ), ∑ i ∈ Finset.range n, (if x ≤ i ∧ i < x + s then g i else 0) = ∑ i ∈ Finset.range s, g (x + i) := by
    intro x hx g
    obtain ⟨r, rfl⟩ := Nat.exists_eq_add_of_le hx
    rw [Finset.sum_range_add, Finset.sum_range_add]
    rw [Finset.sum_eq_zero fun i hi => by rw [Finset.mem_range] at hi; rw [if_neg (by omega)], zero_add]
    rw [Finset.sum_congr rfl fun i hi => if_pos (show x ≤ x + i ∧ x + i < x + s by rw [Finset.mem_range] at hi; omega)]
    rw [show ∑ i ∈ Finset.range r, (if x ≤ x + s + i ∧ x + s + i < x + s then g (x + s + i) else 0) = 0 from Finset.sum_eq_zero fun i _ => by rw [if_neg (by omega)], add_zero]
  rw [← one x hx fun i => ∑ j ∈ Finset.range s, f i (y + j)]
  refine Finset.sum_congr rfl fun i _ => ?_
  by_cases h : x ≤ i ∧ i < x + s
  · rw [if_pos h, ← one y hy (f i)]
    refine Finset.sum_congr rfl fun j _ => ?_
    simp [h.1, h.2]
  · rw [if_neg h]
    refine Finset.sum_eq_zero fun j _ => ?_
    rw [if_neg (by tauto)]

private theorem weight_cast (s : ℕ) (a : ℚ) (k : Fin s) : ((gradWeight s a k : ℚ) : ℝ) = Sensors.coord (a : ℝ) k / Sensors.norm2 s a := by
  unfold gradWeight Sensors.norm2 Sensors.coord
  simp only [Finset.sum_range]
  push_cast
  rfl

/-- **C111 (gradient sensor).** The measurements of the gradient sensor, two per sub-aperture, are those of a linear sensor. -/
theorem C111_gradient (g : Geom) (k : ℚ) (mask phase : ℕ → ℕ → ℚ) (subs : List (ℕ × ℕ)) (s : ℕ) (a : ℚ) (hin : ∀ c ∈ subs, c.1 + s ≤ g.nOut ∧ c.2 + s ≤ g.nOut) (q : Fin subs.length) :
    (gradWfs g k mask subs s a).nMeas = subs.length + subs.length ∧ (gradWfs g k mask subs s a).geom = g ∧ (gradWfs g k mask subs s a).k = k ∧
    (((∑ i ∈ Finset.range g.nOut, ∑ j ∈ Finset.range g.nOut, (gradWfs g k mask subs s a).coef q i j * phase i j : ℚ)) : ℝ) =
      (Sensors.gradSlopes (a : ℝ) false fun m : Fin subs.length => (Sensors.cut (fun i j => (mask i j : ℝ)) (fun i j => (phase i j : ℝ)) subs[m].1 subs[m].2 : Sensors.Sub s)).1 q ∧
    (((∑ i ∈ Finset.range g.nOut, ∑ j ∈ Finset.range g.nOut, (gradWfs g k mask subs s a).coef (subs.length + q) i j * phase i j : ℚ)) : ℝ) =
      (Sensors.gradSlopes (a : ℝ) false fun m : Fin subs.length => (Sensors.cut (fun i j => (mask i j : ℝ)) (fun i j => (phase i j : ℝ)) subs[m].1 subs[m].2 : Sensors.Sub s)).2 q := by
  have hq := hin subs[q] (List.getElem_mem _)
  have hget : subs.getD q (0, 0) = subs[q] := by simp [List.getD_eq_getElem?_getD]
  refine ⟨by simp only [gradWfs]; omega, rfl, rfl, ?_⟩
  constructor
  · simp only [Sensors.gradSlopes, Bool.false_eq_true, if_false, gradWfs, q.2, if_true, hget]
    rw [Finset.sum_congr rfl fun i _ => Finset.sum_congr rfl fun j _ => ite_mul _ _ _ _]
    simp only [zero_mul]
    rw [window g.nOut _ _ s hq.1 hq.2, Sensors.slopeX_eq, Finset.sum_div]
    push_cast
    rw [Finset.sum_range]
    refine Finset.sum_congr rfl fun i _ => ?_
    rw [Finset.sum_range, Finset.sum_div]
    refine Finset.sum_congr rfl fun j _ => ?_
    rw [Nat.add_sub_cancel_left, weight_cast, Sensors.cut]
    ring
  · simp only [Sensors.gradSlopes, Bool.false_eq_true, if_false, gradWfs, show ¬ (subs.length + (q : ℕ) < subs.length) by omega, Nat.add_sub_cancel_left, hget]
    rw [Finset.sum_congr rfl fun i _ => Finset.sum_congr rfl fun j _ => ite_mul _ _ _ _]
    simp only [zero_mul]
    rw [window g.nOut _ _ s hq.1 hq.2, Sensors.slopeY_eq, Finset.sum_div]
    push_cast
    rw [Finset.sum_range]
    refine Finset.sum_congr rfl fun i _ => ?_
    rw [Finset.sum_range, Finset.sum_div]
    refine Finset.sum_congr rfl fun j _ => ?_
    rw [Nat.add_sub_cancel_left, weight_cast, Sensors.cut]
    ring

/-! ### An example: two sensors in different directions, a mirror at the pupil with a dead actuator and a mirror at 1 km -/

def wholeWfs (a : ℚ) : LinWfs :=
  ⟨⟨false, (a, 0), (0, 0), 0, 1, 1 / 2, 6, 2⟩, 2, 2, fun q i j => if i = 0 ∧ j = 0 then -1 else if q = 0 ∧ i = 1 ∧ j = 0 then 1 else if q = 1 ∧ i = 0 ∧ j = 1 then 1 else 0⟩
def wholeOptics : Optics := ⟨6, [0, 1000], [0, 1000], [wholeWfs 0, wholeWfs (1 / 2000)]⟩
def wholeDms : List Persist.Dm := [⟨3, 2, [true, true, true], toyShapes3⟩, ⟨1, 6, [true], [⟨6, 6, fun i _ => i * i⟩]⟩]
def wholeImat : List (List ℚ) := [[2, 0, 2, 0], [0, 2, 0, 2], [10, 0, 14, 0]]
def wholeCmat : List (List ℚ) := [[7 / 4, 0, -1 / 4], [0, 1 / 4, 0], [-5 / 4, 0, 1 / 4], [0, 1 / 4, 0]]

theorem whole_ok : ∃ dms', wholeOptics.calibrate 4 wholeDms = .ok (dms', wholeImat) ∧ ∀ d ∈ dms', d.shapes ≠ [] := by
  have h1 : (wholeOptics.calibrate 4 wholeDms).map Prod.snd = .ok wholeImat := by decide +kernel
  have h2 : (wholeOptics.calibrate 4 wholeDms).map (fun p => p.1.map fun d => d.shapes.length) = .ok [2, 1] := by decide +kernel
  cases h : wholeOptics.calibrate 4 wholeDms with
  | error e => rw [h] at h1; cases h1
  | ok p =>
    rw [h] at h1 h2
    simp only [Except.map, Except.ok.injEq] at h1 h2
    refine ⟨p.1, by rw [← h1], ?_⟩
    intro d hd hcon
    have : d.shapes.length ∈ p.1.map fun d => d.shapes.length := List.mem_map.mpr ⟨d, hd, rfl⟩
    rw [h2, hcon] at this
    simp at this

theorem whole_sound : Optics.Sound wholeOptics := by
  refine ⟨by decide, ?_⟩
  intro w hw
  simp only [wholeOptics, List.mem_cons, List.not_mem_nil, or_false] at hw
  rcases hw with rfl | rfl <;> exact ⟨rfl, by simp [wholeWfs]⟩

theorem whole_undoes : Undoes wholeCmat wholeImat := by
  intro p q hp hq
  have hp3 : p < 3 := hp
  have hq3 : q < 3 := hq
  interval_cases p <;> interval_cases q <;> decide +kernel

example (turb : ℕ → ℕ → ℕ → ℕ → ℚ) : ∃ dms', wholeOptics.calibrate 4 wholeDms = .ok (dms', wholeImat) ∧
    ∃ s' ts, runLoop (wholeOptics.sys dms' wholeCmat 1 100 true false) (wholeOptics.plant turb) (initial (wholeOptics.sys dms' wholeCmat 1 100 true false) (controls dms' [1 / 2, 1 / 4]) 4 4 ()) (List.replicate 100 (controls dms' [1 / 2, 1 / 4])) = .ok (s', ts) ∧
      ts.length = 100 := by
  obtain ⟨dms', h1, h2⟩ := whole_ok
  obtain ⟨s', ts, r1, r2, _⟩ := C111_whole wholeOptics whole_sound 4 wholeDms dms' wholeImat h1 (by simp [wholeDms])
    (by intro d hd; simp only [wholeDms, List.mem_cons, List.not_mem_nil, or_false] at hd; rcases hd with rfl | rfl <;> exact ⟨rfl, rfl⟩) h2 wholeCmat rfl (by decide) whole_undoes
    [1 / 2, 1 / 4] rfl 1 100 4 100 (by norm_num) true false (fun h => nomatch h) turb
  exact ⟨dms', h1, s', ts, r1, r2⟩

/-- A tilt is nulled. -/
example (ε : ℚ) (hε : 0 < ε) : ∃ dms', wholeOptics.calibrate 4 wholeDms = .ok (dms', wholeImat) ∧ ∃ K, ∀ n, ∃ s' ts,
    runLoop (wholeOptics.sys dms' wholeCmat 1 100 true false) (wholeOptics.plant fun _ l i _ => if l = 0 then 3 * i else 0) (initial (wholeOptics.sys dms' wholeCmat 1 100 true false) (controls dms' [1 / 2, 1 / 4]) 4 4 ())
      (List.replicate n (controls dms' [1 / 2, 1 / 4])) = .ok (s', ts) ∧ ts.length = n ∧ ∀ (i : ℕ) (t : Trace Stack), K ≤ i → ts[i]? = some t → ∀ x ∈ t.slopes, |x| < ε := by
  obtain ⟨dms', h1, h2⟩ := whole_ok
  obtain ⟨K, hK⟩ := C111_nulls wholeOptics whole_sound 4 wholeDms dms' wholeImat h1 (by simp [wholeDms])
    (by intro d hd; simp only [wholeDms, List.mem_cons, List.not_mem_nil, or_false] at hd; rcases hd with rfl | rfl <;> exact ⟨rfl, rfl⟩) h2 wholeCmat rfl (by decide) whole_undoes
    [1 / 2, 1 / 4] rfl 1 100 4 (by norm_num) true false (fun h => nomatch h)
    (by intro g hg; simp only [List.mem_cons, List.not_mem_nil, or_false] at hg; rcases hg with rfl | rfl <;> norm_num)
    (fun l i _ => if l = 0 then 3 * i else 0) (fun p => if p = 0 then 3 else 0)
    (by
      have e : wholeOptics.uncorrected (fun l i _ => if l = 0 then 3 * i else 0) = [6, 0, 6, 0] := by decide +kernel
      rw [e]
      intro m hm
      have hm4 : m < 4 := hm
      interval_cases m <;> decide +kernel) ε hε
  refine ⟨dms', h1, K, fun n => ?_⟩
  obtain ⟨s', ts, r1, r2, r3⟩ := hK n
  exact ⟨s', ts, r1, r2, fun i t hi ht => (r3 i t hi ht).2.2⟩

example : Undoes wholeCmat wholeImat := by
  refine C111_undoes wholeCmat wholeImat ?_ ?_
  · intro p m hp hm
    have hp3 : p < 3 := hp
    have hm4 : m < 4 := hm
    interval_cases p <;> interval_cases m <;> decide +kernel
  · intro c h q hq
    have h0 := h 0 (by decide)
    have h1 := h 1 (by decide)
    have h2 := h 2 (by decide)
    simp [wholeImat, Finset.sum_range_succ] at h0 h1 h2
    have hq3 : q < 3 := hq
    interval_cases q <;> linarith

/-- A tilt of slope 3 over a sub-aperture of two pixels. -/
example : ∑ i ∈ Finset.range 2, ∑ j ∈ Finset.range 2, (gradWfs ⟨false, (0, 0), (0, 0), 0, 1, 1 / 2, 6, 2⟩ 2 (fun _ _ => 1) [(0, 0)] 2 1).coef 0 i j * (3 * (j : ℚ)) = -3 := by decide +kernel

example (turb : ℕ → ℕ → ℕ → ℕ → ℚ) (hstill : ∀ k, turb k = turb 0) : ∃ dms', wholeOptics.calibrate 4 wholeDms = .ok (dms', wholeImat) ∧
    ∃ s' ts, runLoop (wholeOptics.sys dms' wholeCmat 1 100 true false) (wholeOptics.plant turb) (initial (wholeOptics.sys dms' wholeCmat 1 100 true false) (controls dms' (List.replicate 2 (1 / 2))) 4 4 ())
      (List.replicate 50 (controls dms' (List.replicate 2 (1 / 2)))) = .ok (s', ts) ∧ ts.length = 50 ∧ ∀ (i : ℕ) (t : Trace Stack), ts[i]? = some t → ∀ p, p < 3 → ∃ x, t.cmds[p]? = some x ∧ ∀ q, q * 3 ≤ i →
        |reconstructed wholeCmat (wholeOptics.uncorrected (turb i)) p - x| ≤ (3 / 4) ^ q * |reconstructed wholeCmat (wholeOptics.uncorrected (turb 0)) p| := by
  obtain ⟨dms', h1, h2⟩ := whole_ok
  obtain ⟨s', ts, r1, r2, r3⟩ := C111_follows wholeOptics whole_sound 4 wholeDms dms' wholeImat h1 (by simp [wholeDms])
    (by intro d hd; simp only [wholeDms, List.mem_cons, List.not_mem_nil, or_false] at hd; rcases hd with rfl | rfl <;> exact ⟨rfl, rfl⟩) h2 wholeCmat rfl (by decide) whole_undoes
    (1 / 2) 1 100 4 50 (by norm_num) true false (fun h => nomatch h) (by norm_num) (by norm_num) (by norm_num) turb 0 (fun p k _ => by rw [hstill (k + 1), hstill k]; simp)
  refine ⟨dms', h1, s', ts, r1, r2, fun i t ht p hp => ?_⟩
  obtain ⟨x, x1, x2⟩ := r3 i t ht p hp
  refine ⟨x, x1, fun q hq => ?_⟩
  have := x2 q hq
  norm_num at this
  exact this

/-- **C111 (no such mirror).** Commands for a mirror the simulation does not have raise an `IndexError`. -/
theorem C111_no_mirror (o : Optics) (dms : List Persist.Dm) (cmat : List (List ℚ)) (loopDelay : ℤ) (nIters : ℕ) (ss sd : Bool) (k : ℕ) (hk : dms.length ≤ k) (c : List ℚ) :
    (o.sys dms cmat loopDelay nIters ss sd).surface k c = .error .indexError := by
  simp [Optics.sys, List.getElem?_eq_none hk]

example : (wholeOptics.sys wholeDms wholeCmat 1 100 true false).surface 2 [1] = .error .indexError := C111_no_mirror _ _ _ _ _ _ _ 2 (by decide) _

end Soapy.Props
