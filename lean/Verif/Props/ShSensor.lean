/-
Property theorems C130-C132: a whole frame of a Shack-Hartmann sensor.
-/
import Verif.Lemmas.ShSensor

namespace Soapy.Props

open Finset Soapy.Mirror Soapy.Interp Soapy.Subaps Soapy.Spot Soapy.ShSensor

/-! ### C130: no preferred axis -/

/-- A centroider that treats both axes alike. -/
def SameAxes (cent : (ℕ → ℕ → ℝ) → ℝ × ℝ) : Prop := ∀ img, cent (fun i j => img j i) = (cent img).swap

theorem cog_sameAxes (p : ℕ) : SameAxes (cog p) := by
  intro img
  have h : ∀ f : ℕ → ℕ → ℝ, ∑ i ∈ range p, ∑ j ∈ range p, f j i = ∑ i ∈ range p, ∑ j ∈ range p, f i j := fun f => Finset.sum_comm
  unfold cog
  dsimp only [Prod.swap]
  rw [h img, h fun i j => ((j : ℝ) + 1 / 2) * img i j, h fun i j => ((i : ℝ) + 1 / 2) * img i j]

theorem area_turn (a : Arr2) (nx x y : ℕ) : area (turnArr a) nx y x = area a nx x y := by
  unfold area turnArr
  dsimp only
  rw [Nat.mul_comm]

theorem illum_turn (a : Arr2) (nx x y : ℕ) : illum (turnArr a) nx y x = illum a nx x y := by
  unfold illum turnArr
  dsimp only
  rw [Finset.sum_comm]

theorem subs_turn (s : Sh) : (subs (turn s)).Perm ((subs s).map Prod.swap) := by
  have hn : ((subs s).map Prod.swap).Nodup := (subs_nodup s).map Prod.swap_injective
  rw [List.perm_ext_iff_of_nodup (subs_nodup (turn s)) hn]
  rintro ⟨x, y⟩
  have e : (x, y) ∈ (subs s).map Prod.swap ↔ (y, x) ∈ subs s := by
    rw [List.mem_map]
    constructor
    · rintro ⟨⟨a, b⟩, h, h2⟩
      injection h2 with h3 h4
      dsimp only at h3 h4
      subst h3; subst h4
      exact h
    · intro h
      exact ⟨(y, x), h, rfl⟩
  rw [e]
  have h1 := (C40_active_iff (turnArr s.pupil) s.nx s.th x y).1
  have h2 := (C40_active_iff s.pupil s.nx s.th y x).1
  rw [area_turn, illum_turn] at h1
  unfold subs turn
  dsimp only
  rw [h1, h2]
  tauto

theorem focal_turn (nFft n : ℕ) (e : ℕ → ℕ → ℂ) (tilt : ℕ → ℕ → ℝ) (u v : ℝ) :
    focal nFft n (fun j k => e k j) (fun j k => tilt k j) v u = focal nFft n e tilt u v := by
  unfold focal
  rw [Finset.sum_comm]
  exact sum_congr rfl fun j _ => sum_congr rfl fun k _ => by rw [show v * (k : ℝ) + u * j = u * j + v * k by ring]

theorem tiltFix_symm (pxls n : ℕ) (A : ℝ) : (fun j k => tiltFix pxls n A k j) = tiltFix pxls n A := by
  funext j k
  unfold tiltFix
  rw [add_comm (coord n j)]

theorem pic_turn (s : Sh) (w : ℕ → ℕ → ℚ) (q : ℕ × ℕ) : pic (turn s) (fun j k => w k j) q.swap = fun i j => pic s w q j i := by
  funext i j
  unfold pic
  have hf : field (turn s) (fun j k => w k j) q.swap = fun j k => field s w q k j := by
    funext j k
    rfl
  have hsp : ∀ a b, spot (s.o * s.p * s.b) s.m (fun j k => field s w q k j) (tiltFix s.p s.m s.A) a b = spot (s.o * s.p * s.b) s.m (field s w q) (tiltFix s.p s.m s.A) b a := by
    intro a b
    unfold spot
    rw [← focal_turn (s.o * s.p * s.b) s.m (field s w q) (tiltFix s.p s.m s.A), tiltFix_symm]
  rw [hf]
  change binned s.b (spot (s.o * s.p * s.b) s.m (fun j k => field s w q k j) (tiltFix s.p s.m s.A)) i j * s.fill q.1 q.2 = _
  congr 1
  unfold binned
  simp only [hsp]
  rw [Finset.sum_comm]

theorem det_turn (s : Sh) (w : ℕ → ℕ → ℚ) (r c : ℕ) : det (turn s) (fun j k => w k j) c r = det s w r c := by
  unfold det
  rw [((subs_turn s).map _).sum_eq, List.map_map]
  congr 1
  apply List.map_congr_left
  intro q _
  rw [Function.comp_apply, pic_turn]
  exact part_swap s.nx s.p s.o s.g q (pic s w q) r c

theorem readOut_turn (s : Sh) (d d' : ℕ → ℕ → ℝ) (h : ∀ r c, d' c r = d r c) (r c : ℕ) : readOut (turn s) d' c r = readOut s d r c := by
  have h1 : (turn s).nx = s.nx := rfl
  have h2 : (turn s).p = s.p := rfl
  have h3 : (turn s).g = s.g := rfl
  have h4 : (turn s).photons = s.photons := rfl
  unfold readOut
  rw [h1, h2, h3, h4, h, Finset.sum_comm]
  simp only [h]

theorem centre_turn (s : Sh) (hc : SameAxes s.cent) (d d' : ℕ → ℕ → ℝ) (h : ∀ r c, d' c r = d r c) (q : ℕ × ℕ) :
    centre (turn s) d' q.swap = (centre s d q).swap := by
  have h2 : (turn s).p = s.p := rfl
  have h3 : (turn s).g = s.g := rfl
  have h5 : (turn s).cent = s.cent := rfl
  have hcut : cut s.p s.g (readOut (turn s) d') q.swap = fun i j => cut s.p s.g (readOut s d) q j i := by
    funext i j
    exact readOut_turn s d d' h _ _
  unfold centre
  dsimp only
  rw [h2, h3, h5, hcut, hc]
  rfl

theorem wave_turn (phase : Arr2) (N : ℕ) : wave (turnArr phase) N = fun j k => wave phase N k j := by
  funext j k
  unfold wave turnArr
  dsimp only
  exact bil_swap _ _ _

theorem meas_turn (s : Sh) (hc : SameAxes s.cent) (phase : Arr2) (q : ℕ × ℕ) : meas (turn s) (turnArr phase) q.swap = (meas s phase q).swap := by
  have hN : (turn s).N = s.N := rfl
  have hfl : flat (turnArr phase) = turnArr (flat phase) := rfl
  unfold meas
  dsimp only
  rw [hN, hfl, wave_turn, wave_turn, centre_turn s hc _ _ (det_turn s _), centre_turn s hc _ _ (det_turn s _)]
  rfl

theorem good_turn (s : Sh) : good (turn s) = good s := by
  have key : ∀ q : ℕ × ℕ, (inside (turn s) q.swap && (fitsAx (turn s).nx (turn s).p (turn s).o (turn s).g q.swap.1 && fitsAx (turn s).nx (turn s).p (turn s).o (turn s).g q.swap.2)) =
      (inside s q && (fitsAx s.nx s.p s.o s.g q.1 && fitsAx s.nx s.p s.o s.g q.2)) := by
    intro q
    congr 1
    · unfold inside
      rw [decide_eq_decide]
      exact and_comm
    · exact Bool.and_comm _ _
  unfold good
  rw [Bool.eq_iff_iff, List.all_eq_true, List.all_eq_true]
  constructor
  · intro h q hq
    rw [← key]
    exact h q.swap ((subs_turn s).mem_iff.mpr (List.mem_map_of_mem hq))
  · intro h q hq
    obtain ⟨q', hq', rfl⟩ := List.mem_map.mp ((subs_turn s).mem_iff.mp hq)
    rw [key]
    exact h q' hq'

theorem pack_length (s : Sh) (f : ℕ × ℕ → ℝ × ℝ) : (pack s f).length = 2 * (subs s).length := by
  unfold pack removeMean
  dsimp only
  split_ifs <;> simp <;> omega

/-- Entries of the vector of measurements. -/
theorem pack_get (s : Sh) (f : ℕ × ℕ → ℝ × ℝ) (i : ℕ) (q : ℕ × ℕ) (h : (subs s)[i]? = some q) :
    (pack s f)[i]? = some ((f q).1 - if s.removeTT then ((subs s).map fun q => (f q).1).sum / (subs s).length else 0) ∧
    (pack s f)[(subs s).length + i]? = some ((f q).2 - if s.removeTT then ((subs s).map fun q => (f q).2).sum / (subs s).length else 0) := by
  have hi : i < (subs s).length := by
    by_contra hcon
    rw [List.getElem?_eq_none (by omega)] at h
    cases h
  unfold pack removeMean
  dsimp only
  cases s.removeTT
  · simp only [Bool.false_eq_true, if_false, sub_zero]
    constructor
    · rw [List.getElem?_append_left (by simpa using hi), List.getElem?_map, h]; rfl
    · rw [List.getElem?_append_right (by simp), List.length_map, Nat.add_sub_cancel_left, List.getElem?_map, h]; rfl
  · simp only [if_true]
    constructor
    · rw [List.getElem?_append_left (by simpa using hi), List.getElem?_map, List.getElem?_map, h]; simp
    · rw [List.getElem?_append_right (by simp), List.length_map (as := (subs s).map fun q => (f q).1), List.length_map (as := subs s) (f := fun q => (f q).1), Nat.add_sub_cancel_left, List.getElem?_map, List.getElem?_map, h]; simp

/-- **C130.** A Shack-Hartmann sensor has no preferred axis: transposing the wavefront and the pupil (and with it the mask and the fill factors) gives the same measurements with the two axes exchanged.  The measurement of
sub-aperture `(y, x)` along one axis is that of sub-aperture `(x, y)` along the other one, whether or not tip and tilt are removed, and a frame raises if and only if the transposed frame does. -/
theorem C130_axes (s : Sh) (hc : SameAxes s.cent) (phase : Arr2) (hr : 2 ≤ phase.rows) (hcol : 2 ≤ phase.cols) :
    (∀ e, measure s phase = .error e → measure (turn s) (turnArr phase) = .error e) ∧
    ∀ l, measure s phase = .ok l → ∃ l', measure (turn s) (turnArr phase) = .ok l' ∧ l'.length = l.length ∧ (subs (turn s)).length = (subs s).length ∧
      ∀ (i x y : ℕ), (subs s)[i]? = some (x, y) → ∃ j, (subs (turn s))[j]? = some (y, x) ∧
        l'[j]? = l[(subs s).length + i]? ∧ l'[(subs s).length + j]? = l[i]? := by
  have hlen : (subs (turn s)).length = (subs s).length := by rw [(subs_turn s).length_eq, List.length_map]
  rw [measure_eq s phase hr hcol, measure_eq (turn s) (turnArr phase) hcol hr, good_turn]
  by_cases hg : good s = true
  swap
  · rw [if_neg hg, if_neg hg]
    refine ⟨fun e h => h, fun l h => ?_⟩
    cases h
  rw [if_pos hg, if_pos hg]
  constructor
  · intro e h
    cases h
  intro l hl
  injection hl with hl
  subst hl
  refine ⟨_, rfl, by rw [pack_length, pack_length, hlen], hlen, ?_⟩
  intro i x y hi
  have hmem : (y, x) ∈ subs (turn s) := (subs_turn s).mem_iff.mpr (List.mem_map.mpr ⟨(x, y), List.mem_of_getElem? hi, rfl⟩)
  obtain ⟨j, hj⟩ := List.getElem?_of_mem hmem
  refine ⟨j, hj, ?_⟩
  obtain ⟨a1, a2⟩ := pack_get s (meas s phase) i (x, y) hi
  obtain ⟨b1, b2⟩ := pack_get (turn s) (meas (turn s) (turnArr phase)) j (y, x) hj
  rw [hlen] at b1 b2
  have hs := meas_turn s hc phase (x, y)
  have hsum : ∀ k : ℝ × ℝ → ℝ, ((subs (turn s)).map fun q => k (meas (turn s) (turnArr phase) q)).sum = ((subs s).map fun q => k (meas s phase q).swap).sum := by
    intro k
    rw [((subs_turn s).map _).sum_eq, List.map_map]
    congr 1
    apply List.map_congr_left
    intro q _
    rw [Function.comp_apply, meas_turn s hc]
  have h1 := hsum Prod.fst
  have h2 := hsum Prod.snd
  have htt : (turn s).removeTT = s.removeTT := rfl
  rw [b1, b2, a1, a2, h1, h2, htt]
  change meas (turn s) (turnArr phase) (y, x) = _ at hs
  rw [hs]
  exact ⟨rfl, rfl⟩

/-! ### C131: sub-apertures are independent of each other -/

/-- A centroider that looks only at the pixels of its sub-aperture. -/
def LooksAt (p : ℕ) (cent : (ℕ → ℕ → ℝ) → ℝ × ℝ) : Prop := ∀ img img' : ℕ → ℕ → ℝ, (∀ i < p, ∀ j < p, img i j = img' i j) → cent img = cent img'

theorem cog_looksAt (p : ℕ) : LooksAt p (cog p) := by
  intro img img' h
  have e : ∀ f : ℕ → ℕ → ℝ, ∑ i ∈ range p, ∑ j ∈ range p, f i j * img i j = ∑ i ∈ range p, ∑ j ∈ range p, f i j * img' i j := fun f =>
    sum_congr rfl fun i hi => sum_congr rfl fun j hj => by rw [h i (mem_range.mp hi) j (mem_range.mp hj)]
  have e1 := e fun _ _ => 1
  simp only [one_mul] at e1
  unfold cog
  dsimp only
  rw [e1, e fun i j => (j : ℝ) + 1 / 2, e fun i j => (i : ℝ) + 1 / 2]

/-- Row `r` of the phase (`n` rows) belongs to sub-apertures of index `x`: it is one of those read for their part of the field, or lies between them. -/
def reads (s : Sh) (n x r : ℕ) : Prop := zoomCoord n s.N (corner s x) - 1 < r ∧ (r : ℚ) ≤ zoomCoord n s.N (corner s x + s.m - 1) + 1

theorem zoomCoord_le (n N j k : ℕ) (hn : 2 ≤ n) (hjk : j ≤ k) (hN : 1 ≤ N) : zoomCoord n N j ≤ zoomCoord n N k := by
  unfold zoomCoord
  have h1 : (1 : ℚ) ≤ N := by exact_mod_cast hN
  have h2 : (2 : ℚ) ≤ n := by exact_mod_cast hn
  have h3 : (j : ℚ) ≤ k := by exact_mod_cast hjk
  apply div_le_div_of_nonneg_right _ (by linarith)
  exact mul_le_mul_of_nonneg_right h3 (by linarith)

theorem reads_floor (s : Sh) (n x k r : ℕ) (hn : 2 ≤ n) (hk : k < s.m) (hin : corner s x + s.m ≤ s.N)
    (hr : r = ⌊zoomCoord n s.N (corner s x + k)⌋₊ ∨ r = ⌊zoomCoord n s.N (corner s x + k)⌋₊ + 1) : reads s n x r := by
  have h0 := (zoomCoord_bounds n s.N (corner s x + k) hn (by omega)).1
  have h1 := Nat.floor_le h0
  have h2 := Nat.lt_floor_add_one (zoomCoord n s.N (corner s x + k))
  have h3 := zoomCoord_le n s.N (corner s x) (corner s x + k) hn (by omega) (by omega)
  have h4 := zoomCoord_le n s.N (corner s x + k) (corner s x + s.m - 1) hn (by omega) (by omega)
  unfold reads
  rcases hr with rfl | rfl
  · constructor <;> linarith
  · push_cast
    constructor <;> linarith

/-- Equal phase on a sub-aperture, up to piston, gives equal phase on its part of the field. -/
theorem wave_local (s : Sh) (phase phase' : Arr2) (hr : 2 ≤ phase.rows) (hc : 2 ≤ phase.cols) (hr' : phase'.rows = phase.rows) (hc' : phase'.cols = phase.cols) (q : ℕ × ℕ)
    (hin : inside s q = true) (c : ℚ) (h : ∀ i j, reads s phase.rows q.1 i → reads s phase.cols q.2 j → phase'.px i j = phase.px i j + c) (j k : ℕ) (hj : j < s.m) (hk : k < s.m) :
    wave phase' s.N (corner s q.1 + j) (corner s q.2 + k) = wave phase s.N (corner s q.1 + j) (corner s q.2 + k) + c := by
  unfold inside at hin
  rw [decide_eq_true_eq] at hin
  unfold wave
  rw [hr', hc']
  apply bil_add
  intro a b ha hb
  exact h a b (reads_floor s _ _ j a hr hj hin.1 ha) (reads_floor s _ _ k b hc hk hin.2 hb)

theorem pic_local (s : Sh) (w w' : ℕ → ℕ → ℚ) (q : ℕ × ℕ) (c : ℚ) (h : ∀ j < s.m, ∀ k < s.m, w' (corner s q.1 + j) (corner s q.2 + k) = w (corner s q.1 + j) (corner s q.2 + k) + c) :
    pic s w' q = pic s w q := by
  funext i j
  unfold pic
  have e : spot (s.o * s.p * s.b) s.m (field s w' q) (tiltFix s.p s.m s.A) = spot (s.o * s.p * s.b) s.m (field s w q) (tiltFix s.p s.m s.A) := by
    rw [spot_eq _ _ (field s w' q) (fun j k => field s w q j k * cis (2 * Real.pi * (c : ℝ)))]
    · funext a b
      exact C82_piston _ _ _ _ _ _ _
    · intro j hj k hk
      unfold field
      rw [h j hj k hk]
      push_cast
      rw [mul_add, cis_add]
      ring
  rw [e]

theorem det_place (s : Sh) (w : ℕ → ℕ → ℚ) (hg : good s = true) :
    place s.nx s.p s.o s.g (fun _ _ => (0 : ℝ)) ((subs s).map fun q => (q, pic s w q)) = .ok (det s w) := by
  rw [place_eq, if_pos]
  · congr 1
    funext r c
    rw [zero_add, det, List.map_map]
    rfl
  · rw [List.all_map, List.all_eq_true]
    unfold good at hg
    rw [List.all_eq_true] at hg
    intro q hq
    have := hg q hq
    rw [Bool.and_eq_true] at this
    exact this.2

theorem det_cut (s : Sh) (w : ℕ → ℕ → ℚ) (hg : good s = true) (ho : s.o = 1) (hp : 1 ≤ s.p) (q : ℕ × ℕ) (hq : q ∈ subs s) (i j : ℕ) (hi : i < s.p) (hj : j < s.p) :
    cut s.p s.g (det s w) q i j = pic s w q i j := by
  obtain ⟨d, e, h⟩ := C43_roundtrip s.nx s.p s.g hp ((subs s).map fun q => (q, pic s w q)) (by
    intro t ht
    obtain ⟨q', hq', rfl⟩ := List.mem_map.mp ht
    exact subs_lt s q' hq') (by
    rw [List.map_map]
    have : (Prod.fst ∘ fun q : ℕ × ℕ => (q, pic s w q)) = id := by funext t; rfl
    rw [this, List.map_id]
    exact subs_nodup s) (q, pic s w q) (List.mem_map_of_mem hq) i j hi hj
  have hd := det_place s w hg
  rw [ho, e] at hd
  injection hd with hd
  rw [← hd]
  exact h

theorem sum_window (D a p : ℕ) (h : a + p ≤ D) (f : ℕ → ℝ) : (∑ r ∈ range D, if a ≤ r ∧ r < a + p then f (r - a) else 0) = ∑ i ∈ range p, f i := by
  rw [← Finset.sum_filter]
  have : (range D).filter (fun r => a ≤ r ∧ r < a + p) = Finset.Ico a (a + p) := by
    ext r
    simp only [mem_filter, mem_range, Finset.mem_Ico]
    omega
  rw [this, Finset.sum_Ico_eq_sum_range, Nat.add_sub_cancel_left]
  exact sum_congr rfl fun i _ => by rw [Nat.add_sub_cancel_left]

/-- With a field stop all the light lands on the detector. -/
theorem det_total (s : Sh) (w : ℕ → ℕ → ℚ) (hg : good s = true) (ho : s.o = 1) (hp : 1 ≤ s.p) :
    ∑ r ∈ range (detSize s.nx s.p s.g), ∑ c ∈ range (detSize s.nx s.p s.g), det s w r c =
      ((subs s).map fun q => ∑ i ∈ range s.p, ∑ j ∈ range s.p, pic s w q i j).sum := by
  obtain ⟨d, e, v⟩ := C43_place_partial s.nx s.p 1 s.g 0 (by omega) hp ((subs s).map fun q => (q, pic s w q)) (by
    intro t ht
    obtain ⟨q', hq', rfl⟩ := List.mem_map.mp ht
    exact subs_lt s q' hq') (fun _ _ => (0 : ℝ))
  have hd := det_place s w hg
  rw [ho, e] at hd
  injection hd with hd
  subst hd
  have hval : ∀ r ∈ range (detSize s.nx s.p s.g), ∀ c ∈ range (detSize s.nx s.p s.g), det s w r c =
      ((subs s).map fun q => contribution s.p 1 s.g 0 q (pic s w q) r c).sum := by
    intro r hr c hc
    rw [v r c (mem_range.mp hr) (mem_range.mp hc), zero_add, List.map_map]
    rfl
  rw [sum_congr rfl fun r hr => sum_congr rfl fun c hc => hval r hr c hc]
  have hlt := subs_lt s
  clear hval v e
  generalize subs s = l at hlt
  induction l with
  | nil => simp
  | cons q l ih =>
    simp only [List.map_cons, List.sum_cons, sum_add_distrib]
    rw [ih fun q' hq' => hlt q' (List.mem_cons_of_mem _ hq')]
    congr 1
    have h1 := cent_le s.nx s.p s.g q.1 (hlt q List.mem_cons_self).1
    have h2 := cent_le s.nx s.p s.g q.2 (hlt q List.mem_cons_self).2
    have hc : ∀ r c, contribution s.p 1 s.g 0 q (pic s w q) r c = if centCoord s.p s.g q.1 ≤ r ∧ r < centCoord s.p s.g q.1 + s.p then
        (if centCoord s.p s.g q.2 ≤ c ∧ c < centCoord s.p s.g q.2 + s.p then pic s w q (r - centCoord s.p s.g q.1) (c - centCoord s.p s.g q.2) else 0) else 0 := by
      intro r c
      unfold contribution
      simp only [add_zero, one_mul]
      by_cases a : centCoord s.p s.g q.1 ≤ r ∧ r < centCoord s.p s.g q.1 + s.p
      · by_cases b : centCoord s.p s.g q.2 ≤ c ∧ c < centCoord s.p s.g q.2 + s.p
        · rw [if_pos ⟨a, b⟩, if_pos a, if_pos b]
        · rw [if_neg (fun h => b h.2), if_pos a, if_neg b]
      · rw [if_neg (fun h => a h.1), if_neg a]
    simp only [hc]
    have hin : ∀ r, (∑ c ∈ range (detSize s.nx s.p s.g), if centCoord s.p s.g q.1 ≤ r ∧ r < centCoord s.p s.g q.1 + s.p then
        (if centCoord s.p s.g q.2 ≤ c ∧ c < centCoord s.p s.g q.2 + s.p then pic s w q (r - centCoord s.p s.g q.1) (c - centCoord s.p s.g q.2) else 0) else 0) =
        if centCoord s.p s.g q.1 ≤ r ∧ r < centCoord s.p s.g q.1 + s.p then (fun i => ∑ j ∈ range s.p, pic s w q i j) (r - centCoord s.p s.g q.1) else 0 := by
      intro r
      by_cases a : centCoord s.p s.g q.1 ≤ r ∧ r < centCoord s.p s.g q.1 + s.p
      · simp only [if_pos a]
        exact sum_window _ _ _ (by omega) fun j => pic s w q (r - centCoord s.p s.g q.1) j
      · simp only [if_neg a, sum_const_zero]
    simp only [hin]
    exact sum_window _ _ _ (by omega) fun i => ∑ j ∈ range s.p, pic s w q i j

/-- The light in an image does not depend on the phase. -/
theorem pic_total (s : Sh) (w w' : ℕ → ℕ → ℚ) (q : ℕ × ℕ) (ho : s.o = 1) (hp : 1 ≤ s.p) (hb : 1 ≤ s.b) (hm : s.m ≤ s.p * s.b) :
    ∑ i ∈ range s.p, ∑ j ∈ range s.p, pic s w' q i j = ∑ i ∈ range s.p, ∑ j ∈ range s.p, pic s w q i j := by
  have key : ∀ w, ∑ i ∈ range s.p, ∑ j ∈ range s.p, pic s w q i j =
      (((s.p * s.b : ℕ) : ℝ) ^ 2 * ∑ j ∈ range s.m, ∑ k ∈ range s.m, s.scaled (corner s q.1 + j) (corner s q.2 + k) ^ 2) * s.fill q.1 q.2 := by
    intro w
    unfold pic
    simp only [← sum_mul]
    rw [Lemmas.sum_binned, ho, one_mul, sum_spot (s.p * s.b) s.m (Nat.mul_pos hp hb) hm]
    congr 2
    refine sum_congr rfl fun j _ => sum_congr rfl fun k _ => ?_
    unfold field
    rw [map_mul, cis_normSq, mul_one, Complex.normSq_ofReal, sq]
  rw [key, key]

theorem centre_local (s : Sh) (hl : LooksAt s.p s.cent) (hg : good s = true) (ho : s.o = 1) (hp : 1 ≤ s.p) (hb : 1 ≤ s.b) (hm : s.m ≤ s.p * s.b) (w w' : ℕ → ℕ → ℚ) (q : ℕ × ℕ)
    (hq : q ∈ subs s) (h : pic s w' q = pic s w q) : centre s (det s w') q = centre s (det s w) q := by
  have htot : ∑ r ∈ range (detSize s.nx s.p s.g), ∑ c ∈ range (detSize s.nx s.p s.g), det s w' r c = ∑ r ∈ range (detSize s.nx s.p s.g), ∑ c ∈ range (detSize s.nx s.p s.g), det s w r c := by
    rw [det_total s w' hg ho hp, det_total s w hg ho hp]
    exact congrArg List.sum (List.map_congr_left fun q _ => pic_total s w w' q ho hp hb hm)
  have hcent : s.cent (cut s.p s.g (readOut s (det s w')) q) = s.cent (cut s.p s.g (readOut s (det s w)) q) := by
    apply hl
    intro i hi j hj
    have a := det_cut s w' hg ho hp q hq i j hi hj
    have b := det_cut s w hg ho hp q hq i j hi hj
    unfold cut at a b ⊢
    unfold readOut
    rw [htot, a, b, h]
  unfold centre
  dsimp only
  rw [hcent]

/-- What C131 says about a sensor: whatever the wavefront, the measurements of a sub-aperture depend only on the phase across that sub-aperture, apart from its piston. -/
def OwnPieceOnly (s : Sh) : Prop :=
  ∀ (phase phase' : Arr2), 2 ≤ phase.rows → 2 ≤ phase.cols → phase'.rows = phase.rows → phase'.cols = phase.cols →
    ∀ (i x y : ℕ) (c : ℚ), (subs s)[i]? = some (x, y) → (∀ a b, reads s phase.rows x a → reads s phase.cols y b → phase'.px a b = phase.px a b + c) →
      ∀ l l', measure s phase = .ok l → measure s phase' = .ok l' → l'[i]? = l[i]? ∧ l'[(subs s).length + i]? = l[(subs s).length + i]?

/-- **C131.** With a field stop (`subapFieldStop`, "prevent spots wandering into adjacent sub-apertures") and without removal of tip and tilt a sub-aperture measures its own piece of the wavefront and nothing else: an aberration elsewhere in the pupil, of whatever strength, and a piston of
the sub-aperture do not change its measurements. -/
theorem C131_field_stop (s : Sh) (hl : LooksAt s.p s.cent) (ho : s.o = 1) (hp : 1 ≤ s.p) (hb : 1 ≤ s.b) (hm : s.m ≤ s.p * s.b) (htt : s.removeTT = false) : OwnPieceOnly s := by
  intro phase phase' hr hc hr' hc' i x y c hi hph l l' h h'
  rw [measure_eq s phase hr hc] at h
  rw [measure_eq s phase' (by omega) (by omega)] at h'
  by_cases hg : good s = true
  swap
  · rw [if_neg hg] at h
    cases h
  rw [if_pos hg] at h h'
  have h := Except.ok.inj h
  have h' := Except.ok.inj h'
  subst h
  subst h'
  obtain ⟨a1, a2⟩ := pack_get s (meas s phase) i (x, y) hi
  obtain ⟨b1, b2⟩ := pack_get s (meas s phase') i (x, y) hi
  have hq : (x, y) ∈ subs s := List.mem_of_getElem? hi
  have hin : inside s (x, y) = true := by
    unfold good at hg
    rw [List.all_eq_true] at hg
    have := hg _ hq
    rw [Bool.and_eq_true] at this
    exact this.1
  have e1 : centre s (det s (wave phase' s.N)) (x, y) = centre s (det s (wave phase s.N)) (x, y) :=
    centre_local s hl hg ho hp hb hm _ _ _ hq (pic_local s _ _ _ c fun j hj k hk => wave_local s phase phase' hr hc hr' hc' (x, y) hin c hph j k hj hk)
  have e2 : wave (flat phase') s.N = wave (flat phase) s.N := by
    funext j k
    rw [wave_flat, wave_flat]
  have e : meas s phase' (x, y) = meas s phase (x, y) := by
    unfold meas
    dsimp only
    rw [e1, e2]
  rw [a1, a2, b1, b2, e, htt]
  simp only [Bool.false_eq_true, if_false, and_self]

/-- **C131 (piston, all sensors).** A piston of the whole wavefront changes no measurement, with or without field stop and removal of tip and tilt. -/
theorem C131_piston (s : Sh) (phase : Arr2) (hr : 2 ≤ phase.rows) (hc : 2 ≤ phase.cols) (c : ℚ) : measure s ⟨phase.rows, phase.cols, fun i j => phase.px i j + c⟩ = measure s phase := by
  have hw : ∀ j k, wave ⟨phase.rows, phase.cols, fun i j => phase.px i j + c⟩ s.N j k = wave phase s.N j k + c := by
    intro j k
    exact bil_add _ _ _ _ _ fun _ _ _ _ => rfl
  have hd : det s (wave ⟨phase.rows, phase.cols, fun i j => phase.px i j + c⟩ s.N) = det s (wave phase s.N) := by
    funext a b
    unfold det
    refine congrArg List.sum (List.map_congr_left fun q _ => ?_)
    rw [pic_local s (wave phase s.N) _ q c fun j _ k _ => hw _ _]
  rw [measure_eq s phase hr hc, measure_eq s ⟨phase.rows, phase.cols, fun i j => phase.px i j + c⟩ hr hc]
  have e : meas s ⟨phase.rows, phase.cols, fun i j => phase.px i j + c⟩ = meas s phase := by
    funext q
    unfold meas
    dsimp only
    rw [hd]
    rfl
  rw [e]

/-! ### C133: all sub-apertures are alike -/

/-- Two sub-apertures are lit alike: the same mask on their pieces of the field, the same fill factor. -/
def LitAlike (s : Sh) (q q' : ℕ × ℕ) : Prop :=
  s.fill q'.1 q'.2 = s.fill q.1 q.2 ∧ ∀ j < s.m, ∀ k < s.m, s.scaled (corner s q'.1 + j) (corner s q'.2 + k) = s.scaled (corner s q.1 + j) (corner s q.2 + k)

theorem pic_alike (s : Sh) (w : ℕ → ℕ → ℚ) (q q' : ℕ × ℕ) (hlit : LitAlike s q q') (c : ℚ)
    (h : ∀ j < s.m, ∀ k < s.m, w (corner s q'.1 + j) (corner s q'.2 + k) = w (corner s q.1 + j) (corner s q.2 + k) + c) : pic s w q' = pic s w q := by
  funext i j
  unfold pic
  have e : spot (s.o * s.p * s.b) s.m (field s w q') (tiltFix s.p s.m s.A) = spot (s.o * s.p * s.b) s.m (field s w q) (tiltFix s.p s.m s.A) := by
    rw [spot_eq _ _ (field s w q') (fun j k => field s w q j k * cis (2 * Real.pi * (c : ℝ)))]
    · funext a b
      exact C82_piston _ _ _ _ _ _ _
    · intro j hj k hk
      unfold field
      rw [h j hj k hk, hlit.2 j hj k hk]
      push_cast
      rw [mul_add, cis_add]
      ring
  rw [e, hlit.1]

theorem centre_alike (s : Sh) (hl : LooksAt s.p s.cent) (hg : good s = true) (ho : s.o = 1) (hp : 1 ≤ s.p) (w : ℕ → ℕ → ℚ) (q q' : ℕ × ℕ) (hq : q ∈ subs s) (hq' : q' ∈ subs s)
    (h : pic s w q' = pic s w q) : centre s (det s w) q' = centre s (det s w) q := by
  have hcent : s.cent (cut s.p s.g (readOut s (det s w)) q') = s.cent (cut s.p s.g (readOut s (det s w)) q) := by
    apply hl
    intro i hi j hj
    have a := det_cut s w hg ho hp q' hq' i j hi hj
    have b := det_cut s w hg ho hp q hq i j hi hj
    unfold cut at a b ⊢
    unfold readOut
    rw [a, b, h]
  unfold centre
  dsimp only
  rw [hcent]

theorem meas_alike (s : Sh) (hl : LooksAt s.p s.cent) (hg : good s = true) (ho : s.o = 1) (hp : 1 ≤ s.p) (phase : Arr2) (q q' : ℕ × ℕ) (hq : q ∈ subs s) (hq' : q' ∈ subs s)
    (hlit : LitAlike s q q') (c : ℚ) (h : ∀ j < s.m, ∀ k < s.m, wave phase s.N (corner s q'.1 + j) (corner s q'.2 + k) = wave phase s.N (corner s q.1 + j) (corner s q.2 + k) + c) :
    meas s phase q' = meas s phase q := by
  unfold meas
  dsimp only
  rw [centre_alike s hl hg ho hp _ q q' hq hq' (pic_alike s _ q q' hlit c h),
    centre_alike s hl hg ho hp _ q q' hq hq' (pic_alike s _ q q' hlit 0 fun j _ k _ => by rw [wave_flat, wave_flat, add_zero])]

/-- A tilted wavefront is the same in front of all sub-apertures, up to piston. -/
theorem wave_tilt (s : Sh) (phase : Arr2) (hr : 2 ≤ phase.rows) (hc : 2 ≤ phase.cols) (α β γ : ℚ) (hph : ∀ i j : ℕ, i < phase.rows → j < phase.cols → phase.px i j = α + β * i + γ * j)
    (j k : ℕ) (hj : j < s.N) (hk : k < s.N) : wave phase s.N j k = α + β * zoomCoord phase.rows s.N j + γ * zoomCoord phase.cols s.N k := by
  have h1 := sampled_tab phase s.N hr hc
  have h2 := (C29_zoom phase α β γ 0 s.N s.N hr hc (fun a b ha hb => by rw [hph a b ha hb]; ring)).1
  unfold SubapScale.sampled at h1
  rw [h1] at h2
  have h3 := Except.ok.inj h2
  rw [← tab_get s.N (wave phase s.N) j k hj hk, h3]
  simp [List.getD, hj, hk]

theorem tilt_piston (s : Sh) (hg : good s = true) (phase : Arr2) (hr : 2 ≤ phase.rows) (hc : 2 ≤ phase.cols) (α β γ : ℚ)
    (hph : ∀ i j : ℕ, i < phase.rows → j < phase.cols → phase.px i j = α + β * i + γ * j) (q q' : ℕ × ℕ) (hq : q ∈ subs s) (hq' : q' ∈ subs s) :
    ∃ c, ∀ j < s.m, ∀ k < s.m, wave phase s.N (corner s q'.1 + j) (corner s q'.2 + k) = wave phase s.N (corner s q.1 + j) (corner s q.2 + k) + c := by
  have hin : ∀ q ∈ subs s, corner s q.1 + s.m ≤ s.N ∧ corner s q.2 + s.m ≤ s.N := by
    intro q hq
    unfold good at hg
    rw [List.all_eq_true] at hg
    have := hg q hq
    rw [Bool.and_eq_true] at this
    have h1 := this.1
    unfold inside at h1
    rwa [decide_eq_true_eq] at h1
  have a := hin q hq
  have b := hin q' hq'
  refine ⟨β * (zoomCoord phase.rows s.N (corner s q'.1) - zoomCoord phase.rows s.N (corner s q.1)) + γ * (zoomCoord phase.cols s.N (corner s q'.2) - zoomCoord phase.cols s.N (corner s q.2)), ?_⟩
  intro j hj k hk
  rw [wave_tilt s phase hr hc α β γ hph _ _ (by omega) (by omega), wave_tilt s phase hr hc α β γ hph _ _ (by omega) (by omega)]
  have hz : ∀ n x y : ℕ, zoomCoord n s.N (x + y) = zoomCoord n s.N x + zoomCoord n s.N y := by
    intro n x y
    unfold zoomCoord
    push_cast
    ring
  rw [hz, hz, hz, hz]
  ring

/-- **C133.** With a field stop all sub-apertures that are lit alike measure alike: where the phase in front of them is the same up to piston, the measurements are the same. -/
theorem C133_alike (s : Sh) (hl : LooksAt s.p s.cent) (ho : s.o = 1) (hp : 1 ≤ s.p) (phase : Arr2) (hr : 2 ≤ phase.rows) (hc : 2 ≤ phase.cols) (i i' : ℕ) (q q' : ℕ × ℕ)
    (hi : (subs s)[i]? = some q) (hi' : (subs s)[i']? = some q') (hlit : LitAlike s q q') (c : ℚ)
    (h : ∀ j < s.m, ∀ k < s.m, wave phase s.N (corner s q'.1 + j) (corner s q'.2 + k) = wave phase s.N (corner s q.1 + j) (corner s q.2 + k) + c) (l : List ℝ) (hm : measure s phase = .ok l) :
    l[i']? = l[i]? ∧ l[(subs s).length + i']? = l[(subs s).length + i]? := by
  rw [measure_eq s phase hr hc] at hm
  by_cases hg : good s = true
  swap
  · rw [if_neg hg] at hm
    cases hm
  rw [if_pos hg] at hm
  have hm := Except.ok.inj hm
  subst hm
  obtain ⟨a1, a2⟩ := pack_get s (meas s phase) i q hi
  obtain ⟨b1, b2⟩ := pack_get s (meas s phase) i' q' hi'
  rw [a1, a2, b1, b2, meas_alike s hl hg ho hp phase q q' (List.mem_of_getElem? hi) (List.mem_of_getElem? hi') hlit c h]
  exact ⟨rfl, rfl⟩

/-- **C133 (tilt).** A tilt of the wavefront, of any size and direction, gives the same measurement in all sub-apertures that are lit alike. -/
theorem C133_tilt (s : Sh) (hl : LooksAt s.p s.cent) (ho : s.o = 1) (hp : 1 ≤ s.p) (phase : Arr2) (hr : 2 ≤ phase.rows) (hc : 2 ≤ phase.cols) (α β γ : ℚ)
    (hph : ∀ i j : ℕ, i < phase.rows → j < phase.cols → phase.px i j = α + β * i + γ * j) (i i' : ℕ) (q q' : ℕ × ℕ)
    (hi : (subs s)[i]? = some q) (hi' : (subs s)[i']? = some q') (hlit : LitAlike s q q') (l : List ℝ) (hm : measure s phase = .ok l) :
    l[i']? = l[i]? ∧ l[(subs s).length + i']? = l[(subs s).length + i]? := by
  have hg : good s = true := by
    by_contra hg
    rw [measure_eq s phase hr hc, if_neg hg] at hm
    cases hm
  obtain ⟨c, h⟩ := tilt_piston s hg phase hr hc α β γ hph q q' (List.mem_of_getElem? hi) (List.mem_of_getElem? hi')
  exact C133_alike s hl ho hp phase hr hc i i' q q' hi hi' hlit c h l hm

/-- **C133 (removal of tip and tilt).** If all sub-apertures are lit alike, `removeTT` makes the sensor blind to tilts: the measurements are those of a flat wavefront, all zero. -/
theorem C133_removed (s : Sh) (hl : LooksAt s.p s.cent) (ho : s.o = 1) (hp : 1 ≤ s.p) (htt : s.removeTT = true) (hlit : ∀ q ∈ subs s, ∀ q' ∈ subs s, LitAlike s q q')
    (phase : Arr2) (hr : 2 ≤ phase.rows) (hc : 2 ≤ phase.cols) (α β γ : ℚ)
    (hph : ∀ i j : ℕ, i < phase.rows → j < phase.cols → phase.px i j = α + β * i + γ * j) (l : List ℝ) (hm : measure s phase = .ok l) : ∀ v ∈ l, v = 0 := by
  have hg : good s = true := by
    by_contra hg
    rw [measure_eq s phase hr hc, if_neg hg] at hm
    cases hm
  rw [measure_eq s phase hr hc, if_pos hg] at hm
  have hm := Except.ok.inj hm
  subst hm
  have key : ∀ (k : ℝ × ℝ → ℝ), ∀ v ∈ removeMean ((subs s).map fun q => k (meas s phase q)), v = 0 := by
    intro k v hv
    unfold removeMean at hv
    obtain ⟨u, hu, rfl⟩ := List.mem_map.mp hv
    obtain ⟨q, hq, rfl⟩ := List.mem_map.mp hu
    have hsame : (subs s).map (fun q => k (meas s phase q)) = (subs s).map fun _ => k (meas s phase q) := by
      refine List.map_congr_left fun q' hq' => ?_
      obtain ⟨c, h⟩ := tilt_piston s hg phase hr hc α β γ hph q q' hq hq'
      rw [meas_alike s hl hg ho hp phase q q' hq hq' (hlit q hq q' hq') c h]
    have hlen : 0 < (subs s).length := List.length_pos_of_mem hq
    have hne : ((subs s).length : ℝ) ≠ 0 := by positivity
    rw [hsame]
    simp only [List.map_const', List.sum_replicate, List.length_replicate, nsmul_eq_mul]
    field_simp
    ring
  intro v hv
  unfold pack at hv
  dsimp only at hv
  rw [htt] at hv
  simp only [if_true] at hv
  rcases List.mem_append.mp hv with h | h
  · exact key Prod.fst v h
  · exact key Prod.snd v h

/-! ### C132: brightness -/

/-- A centroider that does not depend on the brightness of the image. -/
def AnyBrightness (cent : (ℕ → ℕ → ℝ) → ℝ × ℝ) : Prop := ∀ (k : ℝ) (img : ℕ → ℕ → ℝ), 0 < k → cent (fun i j => k * img i j) = cent img

theorem cog_anyBrightness (p : ℕ) : AnyBrightness (cog p) := by
  intro k img hk
  have e : ∀ f : ℕ → ℕ → ℝ, ∑ i ∈ range p, ∑ j ∈ range p, f i j * (k * img i j) = k * ∑ i ∈ range p, ∑ j ∈ range p, f i j * img i j := by
    intro f
    simp only [mul_sum]
    exact sum_congr rfl fun i _ => sum_congr rfl fun j _ => by ring
  have e1 := e fun _ _ => 1
  simp only [one_mul] at e1
  unfold cog
  dsimp only
  rw [e1, e fun i j => (j : ℝ) + 1 / 2, e fun i j => (i : ℝ) + 1 / 2, mul_div_mul_left _ _ hk.ne', mul_div_mul_left _ _ hk.ne']

theorem readOut_photons (s : Sh) (k : ℝ) (d : ℕ → ℕ → ℝ) (r c : ℕ) : readOut { s with photons := k } d r c = k * readOut { s with photons := 1 } d r c := by
  unfold readOut
  dsimp only
  rw [mul_one, mul_comm]

/-- **C132.** Without noise the measurements do not depend on the brightness of the guide star (its magnitude, the zero point, the exposure time), as long as there is some light. -/
theorem C132_brightness (s : Sh) (hc : AnyBrightness s.cent) (k : ℝ) (hk : 0 < k) (phase : Arr2) (hr : 2 ≤ phase.rows) (hcol : 2 ≤ phase.cols) :
    measure { s with photons := k } phase = measure { s with photons := 1 } phase := by
  have e : ∀ d q, centre { s with photons := k } d q = centre { s with photons := 1 } d q := by
    intro d q
    have hcut : cut s.p s.g (readOut { s with photons := k } d) q = fun i j => k * cut s.p s.g (readOut { s with photons := 1 } d) q i j := by
      funext i j
      exact readOut_photons s k d _ _
    have hcent : s.cent (cut s.p s.g (readOut { s with photons := k } d) q) = s.cent (cut s.p s.g (readOut { s with photons := 1 } d) q) := by
      rw [hcut, hc k _ hk]
    unfold centre
    dsimp only
    rw [hcent]
  rw [measure_eq _ phase hr hcol, measure_eq _ phase hr hcol]
  have hm : meas { s with photons := k } phase = meas { s with photons := 1 } phase := by
    funext q
    unfold meas
    dsimp only
    rw [e, e]
    rfl
  rw [hm]
  rfl

/-- **C132 (grey filter).** Nor do they depend on a filter that takes the same part of the light everywhere in the pupil (`t` of the amplitude, `f` through the fill factors). -/
theorem C132_filter (s : Sh) (t f : ℝ) (ht : 0 < t) (hf : 0 < f) (phase : Arr2) (hr : 2 ≤ phase.rows) (hcol : 2 ≤ phase.cols) :
    measure { s with scaled := fun i j => t * s.scaled i j, fill := fun x y => f * s.fill x y } phase = measure s phase := by
  set s' : Sh := { s with scaled := fun i j => t * s.scaled i j, fill := fun x y => f * s.fill x y } with hs'
  have hp : ∀ w q, pic s' w q = fun i j => t ^ 2 * f * pic s w q i j := by
    intro w q
    have hfo : ∀ u v, focal (s.o * s.p * s.b) s.m (field s' w q) (tiltFix s.p s.m s.A) u v = (t : ℂ) * focal (s.o * s.p * s.b) s.m (field s w q) (tiltFix s.p s.m s.A) u v := by
      intro u v
      unfold focal
      simp only [mul_sum]
      refine sum_congr rfl fun j _ => sum_congr rfl fun k _ => ?_
      have : field s' w q j k = (t : ℂ) * field s w q j k := by
        change ((t * s.scaled (corner s q.1 + j) (corner s q.2 + k) : ℝ) : ℂ) * _ = _
        unfold field
        rw [Complex.ofReal_mul, mul_assoc]
        rfl
      rw [this]
      ring
    funext i j
    change binned s.b (spot (s.o * s.p * s.b) s.m (field s' w q) (tiltFix s.p s.m s.A)) i j * (f * s.fill q.1 q.2) = _
    have hsp : spot (s.o * s.p * s.b) s.m (field s' w q) (tiltFix s.p s.m s.A) = fun a b => t ^ 2 * spot (s.o * s.p * s.b) s.m (field s w q) (tiltFix s.p s.m s.A) a b := by
      funext a b
      unfold spot
      rw [hfo, map_mul, Complex.normSq_ofReal, sq]
    rw [hsp]
    unfold pic binned
    simp only [← mul_sum]
    ring
  have hd : ∀ w, det s' w = fun r c => t ^ 2 * f * det s w r c := by
    intro w
    funext r c
    unfold det
    rw [← List.sum_map_mul_left]
    refine congrArg List.sum (List.map_congr_left fun q _ => ?_)
    rw [hp]
    unfold part
    change (if hasAx s.nx s.p s.o s.g q.1 r ∧ hasAx s.nx s.p s.o s.g q.2 c then t ^ 2 * f * pic s w q (fromAx s.nx s.p s.o s.g q.1 r) (fromAx s.nx s.p s.o s.g q.2 c) else 0) = _
    rw [mul_ite, mul_zero]
  have hro : ∀ w, readOut s' (det s' w) = readOut s (det s w) := by
    intro w
    funext r c
    rw [hd]
    change t ^ 2 * f * det s w r c / (∑ i ∈ range (detSize s.nx s.p s.g), ∑ j ∈ range (detSize s.nx s.p s.g), t ^ 2 * f * det s w i j) * s.photons = _
    simp only [← mul_sum]
    rw [mul_div_mul_left _ _ (by positivity)]
    rfl
  have hm : meas s' phase = meas s phase := by
    funext q
    unfold meas centre
    dsimp only
    rw [hro, hro]
  rw [measure_eq _ phase hr hcol, measure_eq _ phase hr hcol, hm]
  rfl

/-! ### A small sensor -/

/-- Two by two sub-apertures of 2 × 2 pixels; a telescope of 8 × 8 pixels with one pixel of padding; the field of view is `2 / o` times `λ / d` per sub-aperture, so `nx_subap_interp` is 2. -/
noncomputable def toySh (o : ℕ) : Sh where
  nx := 2
  p := 2
  o := o
  g := 0
  b := 1
  m := 2
  N := 5
  P := 8
  pad := 1
  A := Real.pi / (2 * o)
  th := 1 / 2
  pupil := ⟨8, 8, fun _ _ => 1⟩
  scaled := fun _ _ => 1
  fill := fun _ _ => 1
  cent := cog 2
  photons := 1
  removeTT := false

/-- The numbers are those the code derives. -/
example (o : ℕ) (ho : o = 1 ∨ o = 2) (lam diam : ℝ) (hl : 0 < lam) (hd : 0 < diam) :
    ((toySh o).m : ℤ) = nxInterp o (2 / o) ∧ (toySh o).N = SubapScale.efieldSize (toySh o).nx (toySh o).m (toySh o).P ((toySh o).P + 2 * (toySh o).pad) ∧
    (toySh o).A = tiltAmp o (2 / o * lam / diam) diam lam ((toySh o).o * (toySh o).p * (toySh o).b) := by
  refine ⟨?_, ?_, ?_⟩
  · rcases ho with rfl | rfl <;> decide +kernel
  · change 5 = SubapScale.efieldSize 2 2 8 (8 + 2 * 1)
    decide +kernel
  · unfold tiltAmp toySh
    dsimp only
    rcases ho with rfl | rfl
    · push_cast; field_simp
    · push_cast; field_simp; norm_num

theorem toy_subs (o : ℕ) : subs (toySh o) = [(0, 0), (0, 1), (1, 0), (1, 1)] := by
  change activeList ⟨8, 8, fun _ _ => 1⟩ 2 (1 / 2) = _
  decide +kernel

theorem toy_corner (o : ℕ) (x : ℕ) (hx : x < 2) : corner (toySh o) x = 2 * x := by
  change (interpCoord 8 2 1 2 x).toNat = 2 * x
  rcases (by omega : x = 0 ∨ x = 1) with rfl | rfl <;> decide +kernel

theorem toy_good (o : ℕ) (ho : o = 1 ∨ o = 2) : good (toySh o) = true := by
  unfold good
  rw [toy_subs]
  have hi : ∀ q : ℕ × ℕ, q.1 < 2 → q.2 < 2 → inside (toySh o) q = true := by
    intro q h1 h2
    unfold inside
    rw [decide_eq_true_eq, toy_corner o _ h1, toy_corner o _ h2]
    change 2 * q.1 + 2 ≤ 5 ∧ 2 * q.2 + 2 ≤ 5
    omega
  have hf : ∀ x < 2, fitsAx 2 2 o 0 x = true := by
    rcases ho with rfl | rfl <;> decide +kernel
  rw [List.all_eq_true]
  intro q hq
  have hb : q.1 < 2 ∧ q.2 < 2 := subs_lt (toySh o) q (by rw [toy_subs]; exact hq)
  rw [Bool.and_eq_true, Bool.and_eq_true]
  exact ⟨hi q hb.1 hb.2, hf _ hb.1, hf _ hb.2⟩

/-- The toy sensor meets the hypotheses of `C130_axes`, `C131_field_stop` and `C132_brightness`, and its frames do not raise. -/
example (phase : Arr2) (hr : phase.rows = 10) (hc : phase.cols = 10) :
    (∃ l, measure (toySh 1) phase = .ok l ∧ l.length = 8) ∧ SameAxes (toySh 1).cent ∧ AnyBrightness (toySh 1).cent ∧ OwnPieceOnly (toySh 1) := by
  refine ⟨⟨_, by rw [measure_eq _ phase (by omega) (by omega), if_pos (toy_good 1 (Or.inl rfl))], ?_⟩, cog_sameAxes 2, cog_anyBrightness 2,
    C131_field_stop (toySh 1) (cog_looksAt 2) rfl (by decide) (by decide) (by decide) rfl⟩
  rw [pack_length, toy_subs]
  rfl

/-- All sub-apertures of the toy sensor are lit alike, so it does not see tilts when told to remove them. -/
example (β γ : ℚ) : ∃ l, measure { toySh 1 with removeTT := true } ⟨10, 10, fun i j => β * i + γ * j⟩ = .ok l ∧ l.length = 8 ∧ ∀ v ∈ l, v = 0 := by
  have hg : good { toySh 1 with removeTT := true } = true := toy_good 1 (Or.inl rfl)
  have hm := measure_eq { toySh 1 with removeTT := true } ⟨10, 10, fun i j => β * i + γ * j⟩ (by norm_num) (by norm_num)
  rw [if_pos hg] at hm
  refine ⟨_, hm, ?_, ?_⟩
  · rw [pack_length]
    change 2 * (subs (toySh 1)).length = 8
    rw [toy_subs]
    rfl
  · have hlit : ∀ q q', LitAlike { toySh 1 with removeTT := true } q q' := by
      intro q q'
      refine ⟨?_, fun j _ k _ => ?_⟩
      · change (1 : ℝ) = 1
        rfl
      · change (1 : ℝ) = 1
        rfl
    exact C133_removed _ (cog_looksAt 2) rfl (by decide) rfl (fun q _ q' _ => hlit q q') _ (by norm_num) (by norm_num) 0 β γ (fun i j _ _ => by ring) _ hm

/-! ### C131 needs the field stop -/

/-- A step of a quarter wave inside the sub-aperture `(1, 0)` of `toySh`, nothing elsewhere. -/
def stepPhase : Arr2 := ⟨10, 10, fun i j => if (i = 6 ∨ i = 7) ∧ j < 4 then 1 / 4 else 0⟩

theorem step_wave : ∀ j < 4, ∀ k < 4, wave stepPhase 5 j k = if j = 3 ∧ k < 2 then 1 / 4 else 0 := by decide +kernel

/-- Light along one axis: pixel `p` of an image of four pixels, for a step of `θ` between the two elements of the field. -/
noncomputable def lobe (θ : ℝ) (p : ℕ) : ℝ := 2 + 2 * Real.cos (Real.pi / 2 + Real.pi * (ftShiftIdx' p) / 2 - θ)
where ftShiftIdx' (p : ℕ) : ℝ := ((Tools.ftShiftIdx 4 p : ℕ) : ℝ)

theorem toy_spot (e : ℕ → ℕ → ℂ) (θ : ℝ) (he : ∀ j < 2, ∀ k < 2, e j k = cis (θ * j)) (a b : ℕ) :
    spot 4 2 e (tiltFix 2 2 (Real.pi / 4)) a b = lobe θ a * lobe 0 b := by
  have c0 : coord 2 0 = -1 := by norm_num [coord]
  have c1 : coord 2 1 = 1 := by norm_num [coord]
  have hf : ∀ u v : ℝ, focal 4 2 e (tiltFix 2 2 (Real.pi / 4)) u v =
      (cis (Real.pi / 4) + cis (-(Real.pi / 4) + θ - Real.pi * u / 2)) * (cis (Real.pi / 4) + cis (-(Real.pi / 4) - Real.pi * v / 2)) := by
    intro u v
    unfold focal tiltFix
    simp only [sum_range_succ, sum_range_zero, zero_add, he 0 (by norm_num) 0 (by norm_num), he 0 (by norm_num) 1 (by norm_num), he 1 (by norm_num) 0 (by norm_num),
      he 1 (by norm_num) 1 (by norm_num), c0, c1, ← cis_add, add_mul, mul_add]
    norm_num
    have e1 : θ + -(2 * Real.pi * u / 4) = -(Real.pi / 4) + θ - Real.pi * u / 2 + Real.pi / 4 := by ring
    have e2 : -(2 * Real.pi * v / 4) = Real.pi / 4 + (-(Real.pi / 4) - Real.pi * v / 2) := by ring
    have e3 : θ + (-(Real.pi / 4) + -(Real.pi / 4)) + -((2 * Real.pi * u + 2 * Real.pi * v) / 4) = -(Real.pi / 4) + θ - Real.pi * u / 2 + (-(Real.pi / 4) - Real.pi * v / 2) := by ring
    rw [e1, e2, e3]
    ring
  unfold spot
  rw [hf, map_mul, normSq_cis_add, normSq_cis_add]
  unfold lobe lobe.ftShiftIdx'
  congr 3
  · congr 1; ring
  · congr 1; ring

theorem toy_pic (w : ℕ → ℕ → ℚ) (x y : ℕ) (hx : x < 2) (hy : y < 2) (t : ℚ) (hw : ∀ j < 2, ∀ k < 2, w (2 * x + j) (2 * y + k) = t * j) (a b : ℕ) :
    pic (toySh 2) w (x, y) a b = lobe (2 * Real.pi * t) a * lobe 0 b := by
  have hs := toy_spot (field (toySh 2) w (x, y)) (2 * Real.pi * t) (by
    intro j hj k hk
    unfold field
    dsimp only
    rw [toy_corner 2 x hx, toy_corner 2 y hy, hw j hj k hk]
    change ((1 : ℝ) : ℂ) * _ = _
    rw [Complex.ofReal_one, one_mul]
    congr 1
    push_cast
    ring) a b
  have hA : (toySh 2).A = Real.pi / 4 := by
    change Real.pi / (2 * ((2 : ℕ) : ℝ)) = _
    norm_num
  unfold pic
  rw [hA]
  change binned 1 (spot 4 2 (field (toySh 2) w (x, y)) (tiltFix 2 2 (Real.pi / 4))) a b * 1 = _
  unfold binned
  simp only [sum_range_one, zero_add, mul_one]
  exact hs

theorem lobe_flat : lobe 0 0 = 0 ∧ lobe 0 1 = 2 ∧ lobe 0 2 = 4 ∧ lobe 0 3 = 2 := by
  have f0 : Tools.ftShiftIdx 4 0 = 1 := by decide +kernel
  have f1 : Tools.ftShiftIdx 4 1 = 0 := by decide +kernel
  have f2 : Tools.ftShiftIdx 4 2 = 3 := by decide +kernel
  have f3 : Tools.ftShiftIdx 4 3 = 2 := by decide +kernel
  unfold lobe lobe.ftShiftIdx'
  rw [f0, f1, f2, f3]
  push_cast
  refine ⟨?_, ?_, ?_, ?_⟩
  · rw [show Real.pi / 2 + Real.pi * 1 / 2 - 0 = Real.pi by ring, Real.cos_pi]; norm_num
  · rw [show Real.pi / 2 + Real.pi * 0 / 2 - 0 = Real.pi / 2 by ring, Real.cos_pi_div_two]; norm_num
  · rw [show Real.pi / 2 + Real.pi * 3 / 2 - 0 = 2 * Real.pi by ring, Real.cos_two_pi]; norm_num
  · rw [show Real.pi / 2 + Real.pi * 2 / 2 - 0 = Real.pi / 2 + Real.pi by ring, Real.cos_add_pi, Real.cos_pi_div_two]; norm_num

theorem lobe_step : lobe (2 * Real.pi * ((1 / 4 : ℚ) : ℝ)) 0 = 2 := by
  have f0 : Tools.ftShiftIdx 4 0 = 1 := by decide +kernel
  unfold lobe lobe.ftShiftIdx'
  rw [f0]
  push_cast
  rw [show Real.pi / 2 + Real.pi * 1 / 2 - 2 * Real.pi * (1 / 4) = Real.pi / 2 by ring, Real.cos_pi_div_two]
  norm_num

theorem toy_det (w : ℕ → ℕ → ℚ) (r c : ℕ) : det (toySh 2) w r c =
    part 2 2 2 0 (0, 0) (pic (toySh 2) w (0, 0)) r c + (part 2 2 2 0 (0, 1) (pic (toySh 2) w (0, 1)) r c + (part 2 2 2 0 (1, 0) (pic (toySh 2) w (1, 0)) r c + part 2 2 2 0 (1, 1) (pic (toySh 2) w (1, 1)) r c)) := by
  unfold det
  rw [toy_subs]
  simp only [List.map_cons, List.map_nil, List.sum_cons, List.sum_nil, add_zero]
  rfl

theorem toy_ax : (hasAx 2 2 2 0 0 0 ∧ fromAx 2 2 2 0 0 0 = 1) ∧ (hasAx 2 2 2 0 0 1 ∧ fromAx 2 2 2 0 0 1 = 2) ∧ ¬ hasAx 2 2 2 0 1 0 ∧ (hasAx 2 2 2 0 1 1 ∧ fromAx 2 2 2 0 1 1 = 0) := by
  decide +kernel

/-- The corner of the detector that belongs to the sub-aperture `(0, 0)`. -/
theorem toy_corner_det (w : ℕ → ℕ → ℚ) (t : ℚ) (h : ∀ j < 4, ∀ k < 4, w j k = if j = 3 ∧ k < 2 then t else 0) :
    let z := lobe (2 * Real.pi * t) 0
    det (toySh 2) w 0 0 = 4 ∧ det (toySh 2) w 0 1 = 8 ∧ det (toySh 2) w 1 0 = 8 + 2 * z ∧ det (toySh 2) w 1 1 = 16 + 4 * z := by
  intro z
  obtain ⟨⟨a1, a2⟩, ⟨b1, b2⟩, c1, d1, d2⟩ := toy_ax
  obtain ⟨l0, l1, l2, _⟩ := lobe_flat
  have hz : lobe (2 * Real.pi * (0 : ℚ)) = lobe 0 := by simp
  have p00 := toy_pic w 0 0 (by norm_num) (by norm_num) 0 (by
    intro j hj k hk
    rw [h _ (by omega) _ (by omega), if_neg (by omega), zero_mul])
  have p01 := toy_pic w 0 1 (by norm_num) (by norm_num) 0 (by
    intro j hj k hk
    rw [h _ (by omega) _ (by omega), if_neg (by omega), zero_mul])
  have p11 := toy_pic w 1 1 (by norm_num) (by norm_num) 0 (by
    intro j hj k hk
    rw [h _ (by omega) _ (by omega), if_neg (by omega), zero_mul])
  have p10 := toy_pic w 1 0 (by norm_num) (by norm_num) t (by
    intro j hj k hk
    rw [h _ (by omega) _ (by omega)]
    rcases (by omega : j = 0 ∨ j = 1) with rfl | rfl
    · rw [if_neg (by omega)]; simp
    · rw [if_pos (by omega)]; simp)
  simp only [hz] at p00 p01 p11
  simp only [toy_det, part, a1, a2, b1, b2, c1, d1, d2, and_true, and_false, and_self, if_true, if_false, p00, p01, p10, p11, l0, l1, l2]
  norm_num
  refine ⟨?_, ?_⟩ <;> ring

theorem toy_centre (w : ℕ → ℕ → ℚ) (t : ℚ) (h : ∀ j < 4, ∀ k < 4, w j k = if j = 3 ∧ k < 2 then t else 0) :
    (centre (toySh 2) (det (toySh 2) w) (0, 0)).2 = (42 + 9 * lobe (2 * Real.pi * t) 0) / (36 + 6 * lobe (2 * Real.pi * t) 0) - 1 := by
  obtain ⟨h00, h01, h10, h11⟩ := toy_corner_det w t h
  have hnn : ∀ r c, 0 ≤ det (toySh 2) w r c := by
    intro r c
    unfold det
    apply List.sum_nonneg
    intro v hv
    obtain ⟨q, _, rfl⟩ := List.mem_map.mp hv
    unfold part
    split_ifs
    · unfold pic binned
      refine mul_nonneg (sum_nonneg fun _ _ => sum_nonneg fun _ _ => Complex.normSq_nonneg _) ?_
      exact zero_le_one
    · exact le_refl _
  have hT : 0 < ∑ i ∈ range 4, ∑ j ∈ range 4, det (toySh 2) w i j := by
    refine Finset.sum_pos' (fun i _ => sum_nonneg fun j _ => hnn i j) ⟨0, by norm_num, Finset.sum_pos' (fun j _ => hnn 0 j) ⟨0, by norm_num, ?_⟩⟩
    rw [h00]; norm_num
  set T := ∑ i ∈ range 4, ∑ j ∈ range 4, det (toySh 2) w i j with hTd
  have hcut : cut 2 0 (readOut (toySh 2) (det (toySh 2) w)) (0, 0) = fun i j => T⁻¹ * det (toySh 2) w i j := by
    funext i j
    unfold cut centCoord
    simp only [Nat.zero_mul, Nat.mul_zero, Nat.zero_add]
    change det (toySh 2) w i j / T * 1 = _
    rw [mul_one, div_eq_inv_mul]
  change (cog 2 (cut 2 0 (readOut (toySh 2) (det (toySh 2) w)) (0, 0))).2 - ((2 : ℕ) : ℝ) / 2 = _
  rw [hcut, cog_anyBrightness 2 T⁻¹ _ (inv_pos.mpr hT)]
  unfold cog
  simp only [sum_range_succ, sum_range_zero, h00, h01, h10, h11]
  congr 1
  · congr 1
    · push_cast; ring
    · ring
  · norm_num

/-- **C131 (the field stop is needed).** Without field stop, the default, the images overlap, as documented ("to allow into adjacent subaps"): a step of a quarter wave inside a neighbouring sub-aperture changes the measurement of the sub-aperture `(0, 0)`, whose own wavefront stays flat. -/
theorem C131_no_stop : ¬ OwnPieceOnly (toySh 2) := by
  intro hS
  have hg := toy_good 2 (Or.inr rfl)
  have hm0 := measure_eq (toySh 2) ⟨10, 10, fun _ _ => 0⟩ (by norm_num) (by norm_num)
  have hm1 := measure_eq (toySh 2) stepPhase (by decide) (by decide)
  rw [if_pos hg] at hm0 hm1
  have hi : (subs (toySh 2))[0]? = some (0, 0) := by rw [toy_subs]; rfl
  have := (hS ⟨10, 10, fun _ _ => 0⟩ stepPhase (by norm_num) (by norm_num) rfl rfl 0 0 0 0 hi (by
    intro a b ha hb
    unfold reads at ha
    rw [toy_corner 2 0 (by norm_num)] at ha
    have h2 := ha.2
    change (a : ℚ) ≤ zoomCoord 10 5 (2 * 0 + 2 - 1) + 1 at h2
    have hz : zoomCoord 10 5 (2 * 0 + 2 - 1) + 1 < 4 := by decide +kernel
    have ha4 : (a : ℚ) < 4 := lt_of_le_of_lt h2 hz
    have ha4' : a < 4 := by exact_mod_cast ha4
    change (if (a = 6 ∨ a = 7) ∧ b < 4 then (1 / 4 : ℚ) else 0) = 0 + 0
    rw [if_neg (by omega), add_zero]) _ _ hm0 hm1).2
  obtain ⟨_, a2⟩ := pack_get (toySh 2) (meas (toySh 2) ⟨10, 10, fun _ _ => 0⟩) 0 (0, 0) hi
  obtain ⟨_, b2⟩ := pack_get (toySh 2) (meas (toySh 2) stepPhase) 0 (0, 0) hi
  rw [a2, b2] at this
  have htt : (toySh 2).removeTT = false := rfl
  have hN : (toySh 2).N = 5 := rfl
  simp only [htt, Bool.false_eq_true, if_false, sub_zero, Option.some.injEq] at this
  unfold meas at this
  dsimp only at this
  have hfl : ∀ ph : Arr2, wave (flat ph) (toySh 2).N = fun _ _ => 0 := fun ph => by funext j k; exact wave_flat ph _ j k
  rw [hfl, hfl] at this
  have h0 : wave ⟨10, 10, fun _ _ => 0⟩ (toySh 2).N = fun _ _ => 0 := by
    funext j k
    exact wave_flat ⟨10, 10, fun _ _ => 0⟩ _ j k
  rw [h0, hN, sub_self] at this
  have e0 := toy_centre (fun _ _ => 0) 0 (fun j _ k _ => by simp)
  have e1 := toy_centre (wave stepPhase 5) (1 / 4) step_wave
  rw [e0, e1, lobe_step] at this
  have hz : lobe (2 * Real.pi * ((0 : ℚ) : ℝ)) 0 = 0 := by
    simpa using lobe_flat.1
  rw [hz] at this
  norm_num at this

end Soapy.Props
