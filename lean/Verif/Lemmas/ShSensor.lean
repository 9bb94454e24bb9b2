/-
Closed forms for the pieces of a Shack-Hartmann frame: the zoomed phase, the placed images, the measurements.
-/
import Verif.Model.ShSensor
import Verif.Lemmas.Interp
import Verif.Props.Interp
import Verif.Props.Subaps
import Verif.Props.Spot
import Verif.Props.Psf

namespace Soapy.ShSensor

open Finset Soapy.Mirror Soapy.Interp Soapy.Subaps Soapy.Spot Soapy.SubapScale

/-! ### The zoomed phase -/

/-- Bilinear interpolation at `(x, y)`. -/
def bil (px : ℕ → ℕ → ℚ) (x y : ℚ) : ℚ :=
  (1 - (x - ⌊x⌋₊)) * (1 - (y - ⌊y⌋₊)) * px ⌊x⌋₊ ⌊y⌋₊ + (x - ⌊x⌋₊) * (1 - (y - ⌊y⌋₊)) * px (⌊x⌋₊ + 1) ⌊y⌋₊
    + (1 - (x - ⌊x⌋₊)) * (y - ⌊y⌋₊) * px ⌊x⌋₊ (⌊y⌋₊ + 1) + (x - ⌊x⌋₊) * (y - ⌊y⌋₊) * px (⌊x⌋₊ + 1) (⌊y⌋₊ + 1)

theorem bil_swap (px : ℕ → ℕ → ℚ) (x y : ℚ) : bil (fun i j => px j i) y x = bil px x y := by
  unfold bil; ring

theorem bil_add (px px' : ℕ → ℕ → ℚ) (x y c : ℚ) (h : ∀ i j, (i = ⌊x⌋₊ ∨ i = ⌊x⌋₊ + 1) → (j = ⌊y⌋₊ ∨ j = ⌊y⌋₊ + 1) → px' i j = px i j + c) :
    bil px' x y = bil px x y + c := by
  unfold bil
  rw [h _ _ (Or.inl rfl) (Or.inl rfl), h _ _ (Or.inr rfl) (Or.inl rfl), h _ _ (Or.inl rfl) (Or.inr rfl), h _ _ (Or.inr rfl) (Or.inr rfl)]
  ring

theorem bilinAt_bil (a : Arr2) (x y : ℚ) (hx : 0 ≤ x ∧ x < a.rows - 1) (hy : 0 ≤ y ∧ y < a.cols - 1) : bilinAt a x y = .ok (bil a.px x y) := by
  have fl : ∀ (n : ℕ) (z : ℚ), 0 ≤ z → z < n - 1 → ⌊z⌋₊ + 1 < n := by
    intro n z h0 h1
    have : (⌊z⌋₊ : ℚ) ≤ z := Nat.floor_le h0
    have : ((⌊z⌋₊ + 1 : ℕ) : ℚ) < n := by push_cast; linarith
    exact_mod_cast this
  exact bilinAt_ok a x y ⌊x⌋₊ ⌊y⌋₊ ⟨Nat.floor_le hx.1, Nat.lt_floor_add_one x⟩ ⟨Nat.floor_le hy.1, Nat.lt_floor_add_one y⟩ (fl _ _ hx.1 hx.2) (fl _ _ hy.1 hy.2)

theorem zoomCoord_bounds (n m k : ℕ) (hn : 2 ≤ n) (hk : k < m) : 0 ≤ zoomCoord n m k ∧ zoomCoord n m k < n - 1 :=
  (Props.C29_zoom ⟨n, n, fun _ _ => 0⟩ 0 0 0 0 m m hn hn (by simp)).2.1 k hk

/-- Element `(j, k)` of the phase on the field of `N × N` elements. -/
def wave (phase : Arr2) (N j k : ℕ) : ℚ := bil phase.px (zoomCoord phase.rows N j) (zoomCoord phase.cols N k)

/-- A table as a list of lists. -/
def tab (N : ℕ) (w : ℕ → ℕ → ℚ) : List (List ℚ) := (List.range N).map fun k => (List.range N).map fun l => w k l

theorem tab_get (N : ℕ) (w : ℕ → ℕ → ℚ) (j k : ℕ) (hj : j < N) (hk : k < N) : ((tab N w).getD j []).getD k 0 = w j k := by
  simp [tab, List.getD, hj, hk]

theorem sampled_tab (phase : Arr2) (N : ℕ) (hr : 2 ≤ phase.rows) (hc : 2 ≤ phase.cols) : sampled phase N = .ok (tab N (wave phase N)) := by
  unfold sampled zoom interp
  rw [mapM_ok _ (fun x => ((List.range N).map fun k => zoomCoord phase.cols N k).map fun y => bil phase.px x y)]
  · simp [tab, wave, List.map_map, Function.comp_def]
  · intro x hx
    obtain ⟨k, hk, rfl⟩ := List.mem_map.mp hx
    apply mapM_ok
    intro y hy
    obtain ⟨l, hl, rfl⟩ := List.mem_map.mp hy
    exact bilinAt_bil phase _ _ (zoomCoord_bounds _ _ _ hr (by simpa using hk)) (zoomCoord_bounds _ _ _ hc (by simpa using hl))

/-! ### Placed images -/

section

variable {K : Type} [AddCommMonoid K]

/-- The shapes in `place_subaps_on_detector` fit on the axis of index `x`. -/
def fitsAx (nx p o g x : ℕ) : Bool := (bcast (sliceLen (o * p) (subRange nx p o g x).1 (subRange nx p o g x).2) (sliceLen (detSize nx p g) (detRange nx p o g x).1 (detRange nx p o g x).2)).isSome

/-- Row `r` of the detector belongs to index `x`. -/
def hasAx (nx p o g x r : ℕ) : Prop :=
  sliceBound (detSize nx p g) (detRange nx p o g x).1 ≤ r ∧
    r < sliceBound (detSize nx p g) (detRange nx p o g x).1 + sliceLen (detSize nx p g) (detRange nx p o g x).1 (detRange nx p o g x).2

instance (nx p o g x r : ℕ) : Decidable (hasAx nx p o g x r) := by unfold hasAx; infer_instance

/-- Row of the image that lands on row `r`. -/
def fromAx (nx p o g x r : ℕ) : ℕ :=
  sliceBound (o * p) (subRange nx p o g x).1 +
    ((bcast (sliceLen (o * p) (subRange nx p o g x).1 (subRange nx p o g x).2) (sliceLen (detSize nx p g) (detRange nx p o g x).1 (detRange nx p o g x).2)).getD id)
      (r - sliceBound (detSize nx p g) (detRange nx p o g x).1)

/-- What sub-aperture `q` puts onto pixel `(r, c)`. -/
def part (nx p o g : ℕ) (q : ℕ × ℕ) (img : ℕ → ℕ → K) (r c : ℕ) : K :=
  if hasAx nx p o g q.1 r ∧ hasAx nx p o g q.2 c then img (fromAx nx p o g q.1 r) (fromAx nx p o g q.2 c) else 0

theorem part_swap (nx p o g : ℕ) (q : ℕ × ℕ) (img : ℕ → ℕ → K) (r c : ℕ) : part nx p o g q.swap (fun i j => img j i) c r = part nx p o g q img r c := by
  unfold part
  simp only [Prod.fst_swap, Prod.snd_swap, and_comm]

theorem placeOne_eq (nx p o g : ℕ) (det img : ℕ → ℕ → K) (q : ℕ × ℕ) :
    placeOne (detSize nx p g) (o * p) det img (detRange nx p o g q.1) (detRange nx p o g q.2) (subRange nx p o g q.1) (subRange nx p o g q.2) =
      if fitsAx nx p o g q.1 && fitsAx nx p o g q.2 then .ok (fun r c => det r c + part nx p o g q img r c) else .error .valueError := by
  unfold placeOne fitsAx part hasAx fromAx
  dsimp only
  cases h1 : bcast (sliceLen (o * p) (subRange nx p o g q.1).1 (subRange nx p o g q.1).2) (sliceLen (detSize nx p g) (detRange nx p o g q.1).1 (detRange nx p o g q.1).2) with
  | none => simp
  | some f =>
    cases h2 : bcast (sliceLen (o * p) (subRange nx p o g q.2).1 (subRange nx p o g q.2).2) (sliceLen (detSize nx p g) (detRange nx p o g q.2).1 (detRange nx p o g q.2).2) with
    | none => simp
    | some k =>
      simp only [Option.isSome_some, Bool.and_self, if_true, Option.getD_some]
      congr 1
      funext r c
      split_ifs <;> simp

theorem place_eq (nx p o g : ℕ) (l : List ((ℕ × ℕ) × (ℕ → ℕ → K))) (det : ℕ → ℕ → K) :
    place nx p o g det l = if l.all (fun s => fitsAx nx p o g s.1.1 && fitsAx nx p o g s.1.2) then
      .ok (fun r c => det r c + (l.map fun s => part nx p o g s.1 s.2 r c).sum) else .error .valueError := by
  induction l generalizing det with
  | nil => simp [place]
  | cons a l ih =>
    have h := placeOne_eq nx p o g det a.2 a.1
    by_cases hf : fitsAx nx p o g a.1.1 && fitsAx nx p o g a.1.2
    · rw [if_pos hf] at h
      rw [Props.place_cons nx p o g det a l _ h, ih, List.all_cons, hf, Bool.true_and]
      simp only [List.map_cons, List.sum_cons, add_assoc]
    · rw [if_neg hf] at h
      rw [Props.place_cons_error nx p o g det a l _ h, List.all_cons]
      simp only [Bool.not_eq_true] at hf
      simp [hf]

end

/-! ### The frame -/

theorem spot_eq (nFft n : ℕ) (e e' : ℕ → ℕ → ℂ) (tilt : ℕ → ℕ → ℝ) (h : ∀ j < n, ∀ k < n, e j k = e' j k) : spot nFft n e tilt = spot nFft n e' tilt := by
  funext p q
  unfold spot focal
  congr 1
  exact sum_congr rfl fun j hj => sum_congr rfl fun k hk => by rw [h j (mem_range.mp hj) k (mem_range.mp hk)]

/-- Field of the sub-aperture `q` for the phase `w`. -/
noncomputable def field (s : Sh) (w : ℕ → ℕ → ℚ) (q : ℕ × ℕ) (j k : ℕ) : ℂ :=
  s.scaled (corner s q.1 + j) (corner s q.2 + k) * cis (2 * Real.pi * ((w (corner s q.1 + j) (corner s q.2 + k) : ℚ) : ℝ))

/-- Its image. -/
noncomputable def pic (s : Sh) (w : ℕ → ℕ → ℚ) (q : ℕ × ℕ) (i j : ℕ) : ℝ :=
  binned s.b (spot (s.o * s.p * s.b) s.m (field s w q) (tiltFix s.p s.m s.A)) i j * s.fill q.1 q.2

theorem image_pic (s : Sh) (w : ℕ → ℕ → ℚ) (q : ℕ × ℕ) (h : inside s q = true) : image s (tab s.N w) q = pic s w q := by
  unfold inside at h
  rw [decide_eq_true_eq] at h
  funext i j
  unfold image pic subImage
  rw [spot_eq _ _ _ (field s w q)]
  intro j hj k hk
  unfold subField field
  rw [tab_get _ _ _ _ (by omega) (by omega)]

/-- The detector before it is read. -/
noncomputable def det (s : Sh) (w : ℕ → ℕ → ℚ) (r c : ℕ) : ℝ := ((subs s).map fun q => part s.nx s.p s.o s.g q (pic s w q) r c).sum

/-- All sub-apertures lie inside the field and fit on the detector. -/
def good (s : Sh) : Bool := (subs s).all fun q => inside s q && (fitsAx s.nx s.p s.o s.g q.1 && fitsAx s.nx s.p s.o s.g q.2)

theorem detector_eq (s : Sh) (w : ℕ → ℕ → ℚ) : detector s (tab s.N w) = if good s then .ok (det s w) else .error .valueError := by
  unfold detector
  by_cases hi : (subs s).all (inside s)
  · rw [if_pos hi]
    have hall : ∀ q ∈ subs s, inside s q = true := by simpa [List.all_eq_true] using hi
    have hl : (subs s).map (fun q => (q, image s (tab s.N w) q)) = (subs s).map fun q => (q, pic s w q) :=
      List.map_congr_left fun q hq => by rw [image_pic s w q (hall q hq)]
    rw [hl, place_eq]
    have hg : good s = ((subs s).map fun q => (q, pic s w q)).all (fun t => fitsAx s.nx s.p s.o s.g t.1.1 && fitsAx s.nx s.p s.o s.g t.1.2) := by
      unfold good
      rw [List.all_map, Bool.eq_iff_iff, List.all_eq_true, List.all_eq_true]
      constructor
      · intro h q hq
        have := h q hq
        rw [Bool.and_eq_true] at this
        exact this.2
      · intro h q hq
        rw [Bool.and_eq_true]
        exact ⟨hall q hq, h q hq⟩
    rw [← hg]
    by_cases hgood : good s = true
    · rw [if_pos hgood, if_pos hgood]
      congr 1
      funext r c
      rw [zero_add, det, List.map_map]
      rfl
    · rw [if_neg hgood, if_neg hgood]
  · rw [if_neg hi, if_neg]
    intro hg
    apply hi
    unfold good at hg
    rw [List.all_eq_true] at hg ⊢
    intro q hq
    have := hg q hq
    rw [Bool.and_eq_true] at this
    exact this.1

theorem raw_eq (s : Sh) (phase : Arr2) (hr : 2 ≤ phase.rows) (hc : 2 ≤ phase.cols) :
    raw s phase = if good s then .ok ((subs s).map (centre s (det s (wave phase s.N)))) else .error .valueError := by
  unfold raw
  rw [sampled_tab phase s.N hr hc]
  dsimp only
  rw [detector_eq]
  by_cases h : good s = true
  · rw [if_pos h, if_pos h]
  · rw [if_neg h, if_neg h]

/-- Measurement of the sub-aperture `q` before tip and tilt are removed. -/
noncomputable def meas (s : Sh) (phase : Arr2) (q : ℕ × ℕ) : ℝ × ℝ :=
  let a := centre s (det s (wave phase s.N)) q
  let b := centre s (det s (wave (flat phase) s.N)) q
  (a.1 - b.1, a.2 - b.2)

/-- The list of measurements. -/
noncomputable def pack (s : Sh) (f : ℕ × ℕ → ℝ × ℝ) : List ℝ :=
  let x := (subs s).map fun q => (f q).1
  let y := (subs s).map fun q => (f q).2
  if s.removeTT then removeMean x ++ removeMean y else x ++ y

theorem measure_eq (s : Sh) (phase : Arr2) (hr : 2 ≤ phase.rows) (hc : 2 ≤ phase.cols) :
    measure s phase = if good s then .ok (pack s (meas s phase)) else .error .valueError := by
  unfold measure
  rw [raw_eq s phase hr hc, raw_eq s (flat phase) hr hc]
  by_cases h : good s = true
  · rw [if_pos h, if_pos h, if_pos h]
    dsimp only
    simp only [List.map_map, List.zipWith_map, List.zipWith_self]
    rfl
  · rw [if_neg h, if_neg h, if_neg h]

theorem wave_flat (phase : Arr2) (N j k : ℕ) : wave (flat phase) N j k = 0 := by
  unfold wave flat bil; simp

theorem subs_nodup (s : Sh) : (subs s).Nodup := by
  refine List.Pairwise.imp ?_ (Props.C40_active_iff s.pupil s.nx s.th 0 0).2
  rintro ⟨a, b⟩ ⟨c, d⟩ h he
  injection he with h1 h2
  dsimp only at h
  omega

theorem subs_lt (s : Sh) (q : ℕ × ℕ) (hq : q ∈ subs s) : q.1 < s.nx ∧ q.2 < s.nx := by
  have := (Props.C40_active_iff s.pupil s.nx s.th q.1 q.2).1.mp hq
  exact ⟨this.1, this.2.1⟩

end Soapy.ShSensor
