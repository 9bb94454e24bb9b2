/-
Property theorems C120, C121: the field and the recorded phase of a line of sight in physical propagation.
-/
import Verif.Props.Los
import Verif.Lemmas.AngularSpectrum
import Mathlib.Data.List.GetD

namespace Soapy.Props

open Soapy.Mirror Soapy.Interp Soapy.Los Soapy.Spot Soapy.Physical Soapy.Lemmas Finset

/-! ### What a frame does -/

/-- The light of a star seen through layers, from the highest to the lowest: at each layer its phase is applied, then the light travels to the next layer, from the last one to the ground. -/
noncomputable def descend (g : Grid) (k : ℚ) : List (ℚ × Arr2) → Field → Field
  | [], E => E
  | (h, b) :: r, E => descend g k r (angularSpectrum g ((h - (r.head?.map Prod.fst).getD 0 : ℚ) : ℝ) (applyPhase k b E))

private theorem descend_cons (g : Grid) (k h : ℚ) (b : Arr2) (r : List (ℚ × Arr2)) (E : Field) :
    descend g k ((h, b) :: r) E = descend g k r (angularSpectrum g ((h - (r.head?.map Prod.fst).getD 0 : ℚ) : ℝ) (applyPhase k b E)) := rfl

/-- A frame that looks down, taken apart: the sampled screens, the operations on the field, the sum of the mirrors. -/
private theorem frame_down (g : Grid) (c : Cfg) (hup : c.up = false) (hk : c.k ≠ 0) (hd : ∀ x ∈ c.dmCoords, x.1.length = c.nOut ∧ x.2.length = c.nOut) (source : ℚ) (alts : List ℚ)
    (mask : Option (ℕ → ℕ → ℝ)) (scrns corr : Option (List Arr2)) (o : Out) (h : Physical.frame g c source alts mask scrns corr = .ok o) :
    ∃ bufs acts, ∃ w : ℕ → ℕ → ℚ, fill c.layerCoords (c.layerCoords.map fun _ => zero2 c.nOut) (scrns.getD (c.layerCoords.map fun _ => zero2 c.scrn)) = .ok bufs ∧
      physical false source alts bufs.length = .ok acts ∧
      (∀ i < c.nOut, ∀ j < c.nOut, SumOfLayers c.dmCoords (corr.getD []) i j (w i j)) ∧
      (∀ i j, o.field i j = (acts.foldl (step g c.k bufs) fun _ _ => 1) i j * cis ((-(w i j * c.k) : ℚ) : ℝ)) ∧
      (∀ i j, o.phase.px i j = -(w i j * c.k)) ∧ (∀ i j, o.residual.px i j = -(w i j)) := by
  unfold Physical.frame Physical.makePhase at h
  simp only [hup] at h
  cases hf : fill c.layerCoords (c.layerCoords.map fun _ => zero2 c.nOut) (scrns.getD (c.layerCoords.map fun _ => zero2 c.scrn)) with
  | error e => simp only [hf, reduceCtorEq] at h
  | ok bufs =>
    simp only [hf] at h
    cases hp : physical false source alts bufs.length with
    | error e => simp only [hp, reduceCtorEq] at h
    | ok acts =>
      simp only [hp, Bool.false_eq_true, if_false] at h
      cases corr with
      | none =>
        simp only [Except.ok.injEq] at h
        subst h
        refine ⟨bufs, acts, fun _ _ => 0, rfl, hp, fun i _ j _ => ⟨[], rfl, rfl, by simp⟩, ?_, ?_, ?_⟩
        · intro i j; simp [cis_zero']
        · intro i j; simp [zero2]
        · intro i j; simp [zero2]
      | some corr =>
        simp only [correct] at h
        cases hc : fill c.dmCoords (c.dmCoords.map fun _ => zero2 c.nOut) corr with
        | error e => simp only [hc, reduceCtorEq] at h
        | ok cb =>
          simp only [hc, Except.ok.injEq] at h
          subst h
          refine ⟨bufs, acts, fun i j => (sumImg c.nOut cb).px i j, rfl, hp, ?_, ?_, ?_, ?_⟩
          · intro i hi j hj
            refine fill_sumOfLayers c.dmCoords c.nOut hd _ corr cb ?_ hc i j hi hj
            intro b hb i j; obtain ⟨_, _, rfl⟩ := List.mem_map.mp hb; rfl
          · intro i j; rfl
          · intro i j; simp only [zero2]; field_simp; ring
          · intro i j; simp only [zero2]; field_simp; ring

/-! ### Light -/

theorem power_phase (n : ℕ) (k : ℚ) (b : Arr2) (E : Field) : power n (applyPhase k b E) = power n E :=
  sum_congr rfl fun i _ => sum_congr rfl fun j _ => by rw [applyPhase, Complex.normSq_mul, cis_normSq', mul_one]

theorem power_steps (g : Grid) (k : ℚ) (bufs : List Arr2) (acts : List Act) (E : Field) : power g.n (acts.foldl (step g k bufs) E) = power g.n E := by
  induction acts generalizing E with
  | nil => rfl
  | cons a acts ih =>
    rw [List.foldl_cons, ih]
    cases a with
    | propagate z => exact power_propagated g z E
    | screen i => exact power_phase g.n k _ E

/-- **C120 (light, down).** Looking down, no light is lost or gained on the way: whatever the layers, their altitudes (in any order) and the mirrors, all pixels together hold one unit of light per pixel. -/
theorem C120_light (g : Grid) (c : Cfg) (hup : c.up = false) (hn : g.n = c.nOut) (hk : c.k ≠ 0) (hd : ∀ x ∈ c.dmCoords, x.1.length = c.nOut ∧ x.2.length = c.nOut) (source : ℚ)
    (alts : List ℚ) (mask : Option (ℕ → ℕ → ℝ)) (scrns corr : Option (List Arr2)) (o : Out) (h : Physical.frame g c source alts mask scrns corr = .ok o) :
    ∑ i ∈ range c.nOut, ∑ j ∈ range c.nOut, Complex.normSq (o.field i j) = (c.nOut : ℝ) ^ 2 := by
  obtain ⟨bufs, acts, w, _, _, _, hfield, _, _⟩ := frame_down g c hup hk hd source alts mask scrns corr o h
  have e : ∑ i ∈ range c.nOut, ∑ j ∈ range c.nOut, Complex.normSq (o.field i j) = power g.n (acts.foldl (step g c.k bufs) fun _ _ => 1) := by
    rw [hn]
    exact sum_congr rfl fun i _ => sum_congr rfl fun j _ => by rw [hfield, Complex.normSq_mul, cis_normSq', mul_one]
  rw [e, power_steps, power, hn]
  simp [pow_two]

/-- **C120 (light, up).** Going up, the light that passes the mask of the launch telescope arrives; without a mask nothing can be propagated. -/
theorem C120_light_up (g : Grid) (c : Cfg) (hup : c.up = true) (source : ℚ) (alts : List ℚ) (scrns corr : Option (List Arr2)) :
    (∀ o, Physical.frame g c source alts none scrns corr ≠ .ok o) ∧
    (∀ (m : ℕ → ℕ → ℝ) (o : Out), Physical.frame g c source alts (some m) scrns corr = .ok o →
      ∑ i ∈ range g.n, ∑ j ∈ range g.n, Complex.normSq (o.field i j) = ∑ i ∈ range g.n, ∑ j ∈ range g.n, m i j ^ 2) := by
  have key : ∀ (mask : Option (ℕ → ℕ → ℝ)) (o : Out), Physical.frame g c source alts mask scrns corr = .ok o →
      ∃ m, mask = some m ∧ ∃ E : Field, (∀ i j, Complex.normSq (E i j) = 1) ∧ ∃ bufs acts, o.field = List.foldl (step g c.k bufs) (fun i j => E i j * (m i j : ℂ)) acts := by
    intro mask o h
    unfold Physical.frame at h
    simp only [hup] at h
    have fin : ∀ o' : Out, (∀ i j, Complex.normSq (o'.field i j) = 1) →
        (match Physical.makePhase g c source alts mask o' (scrns.getD (c.layerCoords.map fun _ => zero2 c.scrn)) with
          | .error e => .error e
          | .ok o => .ok { o with residual := o.phase }) = (Except.ok o : Except PyErr Out) →
        ∃ m, mask = some m ∧ ∃ E : Field, (∀ i j, Complex.normSq (E i j) = 1) ∧ ∃ bufs acts, o.field = List.foldl (step g c.k bufs) (fun i j => E i j * (m i j : ℂ)) acts := by
      intro o' ho' h
      unfold Physical.makePhase at h
      cases hf : fill c.layerCoords (c.layerCoords.map fun _ => zero2 c.nOut) (scrns.getD (c.layerCoords.map fun _ => zero2 c.scrn)) with
      | error e => simp only [hf, reduceCtorEq] at h
      | ok bufs =>
        simp only [hf, hup] at h
        cases hp : physical true source alts bufs.length with
        | error e => simp only [hp, reduceCtorEq] at h
        | ok acts =>
          simp only [hp, if_true] at h
          cases mask with
          | none => simp at h
          | some m =>
            simp only [Except.ok.injEq] at h
            subst h
            exact ⟨m, rfl, o'.field, ho', bufs, acts, rfl⟩
    cases corr with
    | none => exact fin _ (by simp) h
    | some corr =>
      dsimp only at h
      unfold correct at h
      cases hc : fill c.dmCoords (c.dmCoords.map fun _ => zero2 c.nOut) corr with
      | error e => simp only [hc, reduceCtorEq] at h
      | ok cb =>
        simp only [hc] at h
        refine fin _ ?_ h
        intro i j
        simp [cis_normSq']
  constructor
  · intro o h
    obtain ⟨m, hm, _⟩ := key none o h
    cases hm
  · intro m o h
    obtain ⟨m', hm, E, hE, bufs, acts, ho⟩ := key (some m) o h
    cases hm
    rw [ho]
    have := power_steps g c.k bufs acts (fun i j => E i j * (m i j : ℂ))
    rw [power, power] at this
    rw [this]
    refine sum_congr rfl fun i _ => sum_congr rfl fun j _ => ?_
    rw [Complex.normSq_mul, hE, Complex.normSq_ofReal]; ring

/-! ### The path of the light -/

private theorem loop_descend (g : Grid) (k : ℚ) (bufs : List Arr2) (n : ℕ) (alts : ℕ → ℚ) (ids : ℕ → ℕ) (ht : ℚ) (h0 : 0 ≤ ht)
    (hm : ∀ i, i + 1 < n → alts (i + 1) ≤ alts i) :
    ∀ (fuel i : ℕ) (z : ℚ) (E : Field), i + fuel = n → i < n → z = ht - alts i →
      List.foldl (step g k bufs) E (physLoop n false alts ids ht 0 fuel i z) =
        descend g k ((List.range' i fuel).map fun l => (alts l, bufs.getD (ids l) (zero2 g.n))) E := by
  intro fuel
  induction fuel with
  | zero => intro i z E h1 h2; omega
  | succ fuel ih =>
    intro i z E h1 h2 hz
    rw [physLoop]
    by_cases hl : i + 1 = n
    · have hf0 : fuel = 0 := by omega
      subst hf0
      rw [if_pos hl]
      have e : |0 - ht| - z = alts i - 0 := by rw [zero_sub, abs_neg, abs_of_nonneg h0, hz]; ring
      rw [e]
      simp only [Bool.false_eq_true, if_false, List.foldl_cons, List.foldl_nil, List.range', List.map, descend, step, List.head?_nil, Option.map_none, Option.getD_none]
    · obtain ⟨f, rfl⟩ : ∃ f, fuel = f + 1 := ⟨fuel - 1, by omega⟩
      rw [if_neg hl]
      have hmi := hm i (by omega)
      have habs : |alts (i + 1) - alts i| = alts i - alts (i + 1) := by rw [abs_of_nonpos (by linarith)]; ring
      rw [List.foldl_cons, List.foldl_cons, ih (i + 1) _ _ (by omega) (by omega) (by rw [hz, habs]; ring)]
      rw [List.range'_succ (s := i), List.map_cons (a := i), descend_cons, habs]
      have eh : ((((List.range' (i + 1) (f + 1)).map fun l => (alts l, bufs.getD (ids l) (zero2 g.n))).head?).map Prod.fst).getD 0 = alts (i + 1) := by
        rw [List.range'_succ]; rfl
      rw [eh]
      rfl

private theorem asc_mono (alts : List ℚ) (hasc : Ascending alts) : ∀ i j, i ≤ j → j < alts.length → alts.getD i 0 ≤ alts.getD j 0 := by
  intro i j hij
  induction j, hij using Nat.le_induction with
  | base => intro _; exact le_refl _
  | succ j hj ih => intro hl; exact (ih (by omega)).trans (hasc j hl)

theorem steps_descend (g : Grid) (k : ℚ) (source : ℚ) (alts : List ℚ) (bufs : List Arr2) (hlen : bufs.length = alts.length) (hasc : Ascending alts)
    (h0 : 0 ≤ alts.getD 0 0) (acts : List Act) (h : physical false source alts bufs.length = .ok acts) (E : Field) :
    List.foldl (step g k bufs) E acts = descend g k (alts.zip bufs).reverse E := by
  unfold physical at h
  by_cases hz : bufs.length = 0 ∨ alts.length < bufs.length
  · rw [if_pos hz] at h; cases h
  rw [if_neg hz] at h
  have hne : 0 < alts.length := by omega
  have mono := asc_mono alts hasc
  simp only [Bool.false_eq_true, if_false, Nat.sub_zero, hlen, ne_eq, not_true_eq_false, List.nil_append, Bool.false_and, Except.ok.injEq] at h
  rw [← h, loop_descend g k bufs alts.length _ _ _ ((h0.trans (mono 0 (alts.length - 1) (by omega) (by omega))))
    (by intro i hi; exact mono _ _ (by omega) (by omega)) alts.length 0 0 E (by omega) hne (by simp)]
  congr 1
  apply List.ext_getElem
  · simp [hlen]
  · intro i h1 h2
    have hi : i < alts.length := by simpa using h1
    simp only [List.getElem_map, List.getElem_range', List.getElem_reverse, List.getElem_zip, List.length_zip, hlen, min_self]
    have e1 : alts.length - 1 - (0 + 1 * i) = alts.length - 1 - i := by omega
    rw [e1, List.getD_eq_getElem _ _ (by omega), List.getD_eq_getElem _ _ (by omega)]

/-- **C120 (path).** Looking down through layers with ascending altitudes, the field is that of light which starts plane above the highest layer, gets the phase of each (sampled) layer at its altitude, travels the distance
to the next, and finally to the ground; there the mirrors' phase is taken away. -/
theorem C120_path (g : Grid) (c : Cfg) (hup : c.up = false) (hk : c.k ≠ 0) (hd : ∀ x ∈ c.dmCoords, x.1.length = c.nOut ∧ x.2.length = c.nOut) (source : ℚ) (alts : List ℚ)
    (hlen : c.layerCoords.length = alts.length) (hasc : Ascending alts) (h0 : 0 ≤ alts.getD 0 0) (mask : Option (ℕ → ℕ → ℝ)) (scrns corr : Option (List Arr2)) (o : Out)
    (h : Physical.frame g c source alts mask scrns corr = .ok o) :
    ∃ bufs, fill c.layerCoords (c.layerCoords.map fun _ => zero2 c.nOut) (scrns.getD (c.layerCoords.map fun _ => zero2 c.scrn)) = .ok bufs ∧
      ∀ i < c.nOut, ∀ j < c.nOut, ∃ w, SumOfLayers c.dmCoords (corr.getD []) i j w ∧
        o.field i j = descend g c.k (alts.zip bufs).reverse (fun _ _ => 1) i j * cis (-(c.k * w : ℚ) : ℝ) := by
  obtain ⟨bufs, acts, w, hf, hp, hw, hfield, _, _⟩ := frame_down g c hup hk hd source alts mask scrns corr o h
  refine ⟨bufs, hf, fun i hi j hj => ⟨w i j, hw i hi j hj, ?_⟩⟩
  have hbl := (fill_spec _ _ _ _ hf).1
  rw [List.length_map, hlen] at hbl
  rw [hfield, steps_descend g c.k source alts bufs hbl hasc h0 acts hp]
  congr 2
  push_cast
  ring

/-! ### Nothing to diffract -/

private theorem loop_ground (g : Grid) (k : ℚ) (bufs : List Arr2) (n : ℕ) (inf : Bool) (alts : ℕ → ℚ) (ids : ℕ → ℕ) (ha : ∀ i, alts i = 0) :
    ∀ (fuel i : ℕ) (E : Field), i + fuel = n → List.foldl (step g k bufs) E (physLoop n inf alts ids 0 0 fuel i 0) =
      fun a b => E a b * cis (((((List.range' i fuel).map fun l => (bufs.getD (ids l) (zero2 g.n)).px a b).sum * k : ℚ)) : ℝ) := by
  intro fuel
  induction fuel with
  | zero => intro i E _; funext a b; simp [physLoop, cis_zero']
  | succ fuel ih =>
    intro i E h1
    have rest : List.foldl (step g k bufs) (step g k bufs E (.screen (ids i)))
        (if i + 1 = n then (if inf then [] else [.propagate (|(0 : ℚ) - 0| - 0)])
          else .propagate |alts (i + 1) - alts i| :: physLoop n inf alts ids 0 0 fuel (i + 1) (0 + |alts (i + 1) - alts i|)) =
        List.foldl (step g k bufs) (step g k bufs E (.screen (ids i))) (physLoop n inf alts ids 0 0 fuel (i + 1) 0) := by
      by_cases hl : i + 1 = n
      · have : fuel = 0 := by omega
        subst this
        rw [if_pos hl]
        cases inf <;> simp [physLoop, step, angularSpectrum]
      · rw [if_neg hl]
        simp [ha, step, angularSpectrum]
    rw [physLoop, List.foldl_cons, rest, ih (i + 1) _ (by omega)]
    funext a b
    simp only [step, applyPhase, List.range'_succ, List.map_cons, List.sum_cons]
    rw [mul_assoc, ← cis_add']
    congr 2
    push_cast
    ring

theorem sumOfLayers_unique (coords : List (List ℚ × List ℚ)) (data : List Arr2) (i j : ℕ) (v v' : ℚ) (h : SumOfLayers coords data i j v) (h' : SumOfLayers coords data i j v') : v = v' := by
  obtain ⟨vs, h1, h2, h3⟩ := h
  obtain ⟨vs', h1', h2', h3'⟩ := h'
  have : vs = vs' := by
    apply List.ext_getElem (by omega)
    intro l hl hl'
    have hdl : l < data.length := by omega
    obtain ⟨c, x, y, w, a1, a2, a3, a4, a5⟩ := h3 l data[l] (List.getElem?_eq_getElem hdl)
    obtain ⟨c', x', y', w', b1, b2, b3, b4, b5⟩ := h3' l data[l] (List.getElem?_eq_getElem hdl)
    rw [a1] at b1; cases b1
    rw [a2] at b2; cases b2
    rw [a3] at b3; cases b3
    rw [a5] at b5; cases b5
    rw [List.getElem?_eq_getElem hl] at a4
    rw [List.getElem?_eq_getElem hl'] at b4
    exact (Option.some.inj a4).trans (Option.some.inj b4).symm
  rw [h2, h2', this]

/-- **C120 (ground).** If all layers are at the ground there is nothing to diffract: physical propagation gives in every pixel the field of geometric propagation, for all screens and mirrors. -/
theorem C120_ground (g : Grid) (c : Cfg) (hup : c.up = false) (hk : c.k ≠ 0) (hl : ∀ x ∈ c.layerCoords, x.1.length = c.nOut ∧ x.2.length = c.nOut)
    (hd : ∀ x ∈ c.dmCoords, x.1.length = c.nOut ∧ x.2.length = c.nOut) (source : ℚ) (alts : List ℚ) (hlen : c.layerCoords.length = alts.length) (hz : ∀ a ∈ alts, a = 0)
    (mask : Option (ℕ → ℕ → ℝ)) (scrns : List Arr2) (corr : Option (List Arr2)) (o : Out) (s t : State)
    (h : Physical.frame g c source alts mask (some scrns) corr = .ok o) (hg : Los.frame c s (some scrns) corr = .ok t) :
    ∀ i < c.nOut, ∀ j < c.nOut, o.field i j = cis (t.efield.px i j : ℝ) := by
  intro i hi j hj
  obtain ⟨bufs, acts, w, hf, hp, hw, hfield, _, _⟩ := frame_down g c hup hk hd source alts mask (some scrns) corr o h
  obtain ⟨v, w', hv, hw', _, he⟩ := C31_additive c s t scrns corr hk hl hd hg i j hi hj
  have hzl : ∀ b ∈ (c.layerCoords.map fun _ => zero2 c.nOut), ∀ i j, b.px i j = 0 := by
    intro b hb i j; obtain ⟨_, _, rfl⟩ := List.mem_map.mp hb; rfl
  have hv2 := fill_sumOfLayers c.layerCoords c.nOut hl _ scrns bufs hzl hf i j hi hj
  have ev := sumOfLayers_unique _ _ _ _ _ _ hv hv2
  have ew := sumOfLayers_unique _ _ _ _ _ _ hw' (hw i hi j hj)
  have hbl := (fill_spec _ _ _ _ hf).1
  rw [List.length_map, hlen] at hbl
  have ha : ∀ l, alts.getD l 0 = 0 := by
    intro l
    by_cases h : l < alts.length
    · rw [List.getD_eq_getElem _ _ h]; exact hz _ (List.getElem_mem h)
    · rw [List.getD_eq_default _ _ (by omega)]
  unfold physical at hp
  by_cases hzz : bufs.length = 0 ∨ alts.length < bufs.length
  · rw [if_pos hzz] at hp; cases hp
  rw [if_neg hzz] at hp
  simp only [Bool.false_eq_true, if_false, ha, ne_eq, not_true_eq_false, List.nil_append, Bool.false_and, Except.ok.injEq] at hp
  rw [hfield, ← hp, loop_ground g c.k bufs bufs.length false _ _ (fun _ => rfl) bufs.length 0 _ (by omega), he, ev, ew]
  simp only [one_mul]
  rw [← cis_add']
  congr 1
  have hsum : ((List.range' 0 bufs.length).map fun l => (bufs.getD (bufs.length - 1 - l) (zero2 g.n)).px i j).sum = (bufs.map fun b => b.px i j).sum := by
    have : ((List.range' 0 bufs.length).map fun l => (bufs.getD (bufs.length - 1 - l) (zero2 g.n)).px i j) = (bufs.map fun b => b.px i j).reverse := by
      apply List.ext_getElem (by simp)
      intro l h1 h2
      have hl' : l < bufs.length := by simpa using h1
      simp only [List.getElem_map, List.getElem_range', List.getElem_reverse, List.length_map, zero_add, one_mul]
      rw [List.getD_eq_getElem _ _ (by omega)]
    rw [this, List.sum_reverse]
  rw [hsum]
  push_cast
  ring

/-! ### Layers without turbulence -/

private theorem phase_congr (n : ℕ) (k : ℚ) (b : Arr2) {E E' : Field} (h : Same n E E') : Same n (applyPhase k b E) (applyPhase k b E') := by
  intro i hi j hj; rw [applyPhase, applyPhase, h i hi j hj]

private theorem descend_congr (g : Grid) (k : ℚ) (l : List (ℚ × Arr2)) {E E' : Field} (h : Same g.n E E') : Same g.n (descend g k l E) (descend g k l E') := by
  induction l generalizing E E' with
  | nil => exact h
  | cons x r ih => exact ih (propagate_congr g _ (phase_congr g.n k x.2 h))

private theorem phase_flat (n : ℕ) (k : ℚ) (b : Arr2) (hb : ∀ i < n, ∀ j < n, b.px i j = 0) (E : Field) : Same n (applyPhase k b E) E := by
  intro i hi j hj; simp [applyPhase, hb i hi j hj, cis_zero']

private theorem descend_flat (g : Grid) (k h : ℚ) (b : Arr2) (hb : ∀ i < g.n, ∀ j < g.n, b.px i j = 0) (above below : List (ℚ × Arr2)) (ha : above ≠ []) (E : Field) :
    Same g.n (descend g k (above ++ (h, b) :: below) E) (descend g k (above ++ below) E) := by
  induction above generalizing E with
  | nil => exact absurd rfl ha
  | cons x r ih =>
    cases r with
    | nil =>
      simp only [List.cons_append, List.nil_append, descend, List.head?_cons, Option.map_some, Option.getD_some]
      apply descend_congr
      refine (propagate_congr g _ (phase_flat g.n k b hb _)).trans ((propagate_add g _ _ _).trans ?_)
      rw [← Rat.cast_add, sub_add_sub_cancel]
      exact Same.refl _ _
    | cons y r => exact ih (by simp) _

/-- **C120 (empty layers).** A layer without turbulence anywhere below the highest layer leaves the field as it is: layers may be added to or taken from the profile where there is no turbulence. -/
theorem C120_empty_layer (g : Grid) (k source : ℚ) (alts alts' : List ℚ) (bufs bufs' : List Arr2) (h : ℚ) (b : Arr2) (p : ℕ) (hp : p < alts.length)
    (hlen : bufs.length = alts.length) (ea : alts' = alts.take p ++ h :: alts.drop p) (eb : bufs' = bufs.take p ++ b :: bufs.drop p)
    (hasc : Ascending alts) (h0 : 0 ≤ alts.getD 0 0) (hasc' : Ascending alts') (h0' : 0 ≤ alts'.getD 0 0)
    (hb : ∀ i < g.n, ∀ j < g.n, b.px i j = 0) (acts acts' : List Act)
    (ha : physical false source alts bufs.length = .ok acts) (ha' : physical false source alts' bufs'.length = .ok acts') (E : Field) :
    ∀ i < g.n, ∀ j < g.n, List.foldl (step g k bufs') E acts' i j = List.foldl (step g k bufs) E acts i j := by
  have hlen' : bufs'.length = alts'.length := by subst ea; subst eb; simp [hlen]
  rw [steps_descend g k source alts bufs hlen hasc h0 acts ha E, steps_descend g k source alts' bufs' hlen' hasc' h0' acts' ha' E]
  have e1 : (alts.zip bufs).reverse = ((alts.drop p).zip (bufs.drop p)).reverse ++ ((alts.take p).zip (bufs.take p)).reverse := by
    rw [← List.reverse_append]
    congr 1
    conv_lhs => rw [← List.take_append_drop p alts, ← List.take_append_drop p bufs]
    rw [List.zip_append (by simp [hlen])]
  have e2 : (alts'.zip bufs').reverse = ((alts.drop p).zip (bufs.drop p)).reverse ++ (h, b) :: ((alts.take p).zip (bufs.take p)).reverse := by
    subst ea; subst eb
    rw [List.zip_append (by simp [hlen]), List.zip_cons_cons, List.reverse_append, List.reverse_cons, List.append_assoc]
    rfl
  rw [e1, e2]
  refine descend_flat g k h b hb _ _ ?_ E
  intro hnil
  have := congrArg List.length hnil
  simp [hlen] at this
  omega

/-- **C120 (no turbulence).** Without turbulence and correction plane light stays plane with its full brightness in every pixel (with an even number of pixels, where the transform has the frequency zero, it is the same as in
geometric propagation), whatever the altitudes. -/
theorem C120_vacuum (g : Grid) (c : Cfg) (hup : c.up = false) (hn : g.n = c.nOut) (hk : c.k ≠ 0) (hl : ∀ x ∈ c.layerCoords, x.1.length = c.nOut ∧ x.2.length = c.nOut)
    (hd : ∀ x ∈ c.dmCoords, x.1.length = c.nOut ∧ x.2.length = c.nOut) (source : ℚ) (alts : List ℚ) (mask : Option (ℕ → ℕ → ℝ)) (o : Out)
    (h : Physical.frame g c source alts mask none none = .ok o) :
    ∃ a : ℝ, (∀ i < c.nOut, ∀ j < c.nOut, o.field i j = cis a) ∧ (g.freq 0 = 0 → ∀ i < c.nOut, ∀ j < c.nOut, o.field i j = 1) := by
  obtain ⟨bufs, acts, w, hf, hp, hw, hfield, _, _⟩ := frame_down g c hup hk hd source alts mask none none o h
  have hw0 : ∀ i < c.nOut, ∀ j < c.nOut, w i j = 0 := by
    intro i hi j hj
    exact sumOfLayers_unique _ _ _ _ _ _ (hw i hi j hj) ⟨[], rfl, rfl, by simp⟩
  have hzero : ∀ (l i j : ℕ), i < c.nOut → j < c.nOut → (bufs.getD l (zero2 g.n)).px i j = 0 := by
    intro l i j hi hj
    obtain ⟨h1, _, _, h4, _⟩ := fill_spec _ _ _ _ hf
    rw [List.length_map] at h1
    by_cases hlt : l < bufs.length
    · rw [List.getD_eq_getElem _ _ hlt]
      have hcl : l < c.layerCoords.length := by omega
      have hs := h4 l c.layerCoords[l] (zero2 c.scrn) bufs[l] (List.getElem?_eq_getElem hcl) (by simp [hcl]) (List.getElem?_eq_getElem hlt)
      obtain ⟨_, _, hpx⟩ := sampled_px _ _ _ hs
      have hcc := hl _ (List.getElem_mem hcl)
      have := hpx i j _ _ (List.getElem?_eq_getElem (by omega)) (List.getElem?_eq_getElem (by omega))
      unfold interpVal at this
      simp only [Bool.false_eq_true, if_false] at this
      unfold bilinAt readPx at this
      simp only [zero2] at this
      split at this
      · rename_i d10 d00 d11 d01 r1 r2 r3 r4
        have z : ∀ {a b : Except PyErr ℕ} {d : ℚ}, (match a, b with | .ok _, .ok _ => (Except.ok 0 : Except PyErr ℚ) | _, _ => .error .indexError) = .ok d → d = 0 := by
          intro a b d hh
          cases a <;> cases b <;> simp at hh
          exact hh.symm
        rw [z r1, z r2, z r3, z r4] at this
        simp at this
        exact this.symm
      · cases this
    · rw [List.getD_eq_default _ _ (by omega)]; rfl
  have run : ∀ (acts : List Act) (a : ℝ) (E : Field), Same g.n E (fun _ _ => cis a) →
      ∃ b : ℝ, Same g.n (acts.foldl (step g c.k bufs) E) (fun _ _ => cis b) ∧ (g.freq 0 = 0 → b = a) := by
    intro acts
    induction acts with
    | nil => intro a E hE; exact ⟨a, hE, fun _ => rfl⟩
    | cons x acts ih =>
      intro a E hE
      rw [List.foldl_cons]
      cases x with
      | screen l =>
        refine ih a _ ?_
        refine (phase_flat g.n c.k _ ?_ E).trans hE
        intro i hi j hj
        exact hzero l i j (by omega) (by omega)
      | propagate z =>
        have h1 := (propagate_congr g (z : ℝ) hE).trans (plane_propagated g (z : ℝ) (cis a))
        have h2 : Same g.n (fun _ _ => cis a * quad g (z : ℝ) 0 0) (fun _ _ => cis (a + -(g.kappa * (z : ℝ) * (g.freq 0 ^ 2 + g.freq 0 ^ 2)))) := by
          intro i _ j _
          dsimp only
          rw [cis_add', quad]
        obtain ⟨b, hb, hb0⟩ := ih _ _ (h1.trans h2)
        refine ⟨b, hb, fun h0 => ?_⟩
        rw [hb0 h0, h0]
        ring
  obtain ⟨b, hb, hb0⟩ := run acts 0 (fun _ _ => 1) (fun i _ j _ => cis_zero'.symm)
  have hval : ∀ i < c.nOut, ∀ j < c.nOut, o.field i j = cis b := by
    intro i hi j hj
    rw [hfield, hw0 i hi j hj, hb i (by omega) j (by omega)]
    simp [cis_zero']
  refine ⟨b, hval, fun h0 i hi j hj => ?_⟩
  rw [hval i hi j hj, hb0 h0, cis_zero']

/-! ### Mirrors -/

/-- **C120 (mirrors at the ground).** If the only layer is at the ground, a mirror there with the shape of the layer (sampled at the same places) removes it: the field is plane. -/
theorem C120_conjugate_partial (g : Grid) (c : Cfg) (hup : c.up = false) (hk : c.k ≠ 0) (L : List ℚ × List ℚ) (hL : c.layerCoords = [L]) (hD : c.dmCoords = [L])
    (hn : L.1.length = c.nOut ∧ L.2.length = c.nOut) (source : ℚ) (mask : Option (ℕ → ℕ → ℝ)) (a : Arr2) (o : Out)
    (h : Physical.frame g c source [0] mask (some [a]) (some [a]) = .ok o) : ∀ i < c.nOut, ∀ j < c.nOut, o.field i j = 1 := by
  intro i hi j hj
  have hd : ∀ x ∈ c.dmCoords, x.1.length = c.nOut ∧ x.2.length = c.nOut := by rw [hD]; simpa using hn
  obtain ⟨bufs, hf, hall⟩ := C120_path g c hup hk hd source [0] (by rw [hL]; rfl) (by intro i hi; simp at hi) (by simp) mask _ _ o h
  obtain ⟨w, hw, he⟩ := hall i hi j hj
  have hbl := (fill_spec _ _ _ _ hf).1
  rw [hL] at hbl
  have hv := fill_sumOfLayers c.layerCoords c.nOut (by rw [hL]; simpa using hn) _ [a] bufs
    (by intro b hb i j; obtain ⟨_, _, rfl⟩ := List.mem_map.mp hb; rfl) hf i j hi hj
  obtain ⟨b, rfl⟩ := List.length_eq_one_iff.mp hbl
  rw [hL] at hv
  rw [hD] at hw
  have e := sumOfLayers_unique _ _ _ _ _ _ hw hv
  simp only [List.map_cons, List.map_nil, List.sum_cons, List.sum_nil, add_zero] at e
  rw [he, e]
  simp only [List.zip_cons_cons, List.zip_nil_right, List.reverse_cons, List.reverse_nil, List.nil_append, descend, List.head?_nil, Option.map_none, Option.getD_none, sub_zero, Rat.cast_zero,
    angularSpectrum, if_true, applyPhase, one_mul]
  rw [← cis_add', ← cis_zero']
  congr 1
  push_cast
  ring

/-- **C120, as a user would want it for mirrors:** a mirror conjugated to the altitude of a layer, sampled at the same places, does to that layer in physical propagation what it does in geometric propagation. -/
def C120_ConjugateStatement : Prop :=
  ∀ (g : Grid) (c : Cfg) (L : List ℚ × List ℚ) (h : ℚ) (a : Arr2) (s t : State) (o : Out), c.up = false → c.k ≠ 0 → g.n = c.nOut → c.layerCoords = [L] → c.dmCoords = [L] → 0 ≤ h →
    Los.frame c s (some [a]) (some [a]) = .ok t → Physical.frame g c 0 [h] none (some [a]) (some [a]) = .ok o →
    ∀ i < c.nOut, ∀ j < c.nOut, o.field i j = cis (t.efield.px i j : ℝ)

/-- Two pixels, frequencies 0 and -1, so that light at 1000 m arrives at the ground with rows exchanged. -/
noncomputable def toyPhysGrid : Grid := ⟨2, Real.pi / 1000, fun u => if u = 1 then -1 else 0⟩

/-- One layer and one mirror, both sampled at the first two rows and columns. -/
def toyPhysCfg : Cfg := ⟨false, 2, [([0, 1], [0, 1])], [([0, 1], [0, 1])], 1, 3⟩

/-- A screen with one radian in the second row. -/
def toyPhysScreen : Arr2 := ⟨3, 3, fun i _ => if i = 1 then 1 else 0⟩

private theorem toy_value (i j : ℕ) (hi : i < 2) (hj : j < 2) (v : ℚ) (h : SumOfLayers [([0, 1], [0, 1])] [toyPhysScreen] i j v) : v = if i = 1 then 1 else 0 := by
  obtain ⟨vs, h1, h2, h3⟩ := h
  obtain ⟨c, x, y, w, a1, a2, a3, a4, a5⟩ := h3 0 toyPhysScreen rfl
  simp only [List.getElem?_cons_zero, Option.some.injEq] at a1
  subst a1
  obtain ⟨v', rfl⟩ := List.length_eq_one_iff.mp h1
  simp only [List.getElem?_cons_zero, Option.some.injEq] at a4
  subst a4
  have hv : v = v' := by rw [h2]; simp
  rw [hv]
  obtain rfl | rfl : i = 0 ∨ i = 1 := by omega
  all_goals
    obtain rfl | rfl : j = 0 ∨ j = 1 := by omega
    all_goals
      simp only [List.getElem?_cons_zero, List.getElem?_cons_succ, Option.some.injEq] at a2 a3
      subst a2 a3
      first
        | (rw [show interpVal false toyPhysScreen 0 0 = .ok 0 by decide +kernel] at a5; simpa using a5.symm)
        | (rw [show interpVal false toyPhysScreen 0 1 = .ok 0 by decide +kernel] at a5; simpa using a5.symm)
        | (rw [show interpVal false toyPhysScreen 1 0 = .ok 1 by decide +kernel] at a5; simpa using a5.symm)
        | (rw [show interpVal false toyPhysScreen 1 1 = .ok 1 by decide +kernel] at a5; simpa using a5.symm)

private theorem toy_swap (e₀ e₁ : ℂ) (E : Field) (h : ∀ i < 2, ∀ j < 2, E i j = if i = 1 then e₁ else e₀) :
    ∀ i < 2, ∀ j < 2, angularSpectrum toyPhysGrid 1000 E i j = if i = 1 then e₀ else e₁ := by
  have hs : Same toyPhysGrid.n (angularSpectrum toyPhysGrid 1000 E) (fun i _ => if i = 1 then e₀ else e₁) := by
    apply same_of_spectrum
    intro u hu v hv
    rw [spectrum_propagated toyPhysGrid 1000 E u v hu hv, spectrum_eq, trans_congr (-1) toyPhysGrid.n (E := E) (E' := fun i _ => if i = 1 then e₁ else e₀) h]
    have c1 : cis (-Real.pi) = -1 := by simp [cis]
    have c2 : cis (-(2 * Real.pi)) = 1 := by
      have := cis_int' (-1); push_cast at this; rw [← this]; congr 1; ring
    have r1 : -1 * (2 * Real.pi * (1 * 1 + 1 * 0) / 2) = -Real.pi := by ring
    change u < 2 at hu
    change v < 2 at hv
    obtain rfl | rfl : u = 0 ∨ u = 1 := by omega
    all_goals
      obtain rfl | rfl : v = 0 ∨ v = 1 := by omega
    all_goals
      simp only [Lemmas.trans, toyPhysGrid, quad, Finset.sum_range_succ, Finset.sum_range_zero, Physical.spectrum]
      norm_num [cis_zero', c1, c2]
      try ring_nf
  exact hs

private theorem toy_fill : ∃ b, fill [(([0, 1], [0, 1]) : List ℚ × List ℚ)] [zero2 2] [toyPhysScreen] = .ok [b] ∧ ∀ i < 2, ∀ j < 2, b.px i j = if i = 1 then 1 else 0 := by
  have hr : ∀ x ∈ ([0, 1] : List ℚ), (0 : ℚ) ≤ x ∧ x < (toyPhysScreen.rows : ℚ) - 1 := by
    have e : (toyPhysScreen.rows : ℚ) = 3 := rfl
    intro x hx
    rw [e]
    simp only [List.mem_cons, List.not_mem_nil, or_false] at hx
    rcases hx with rfl | rfl <;> norm_num
  obtain ⟨r, h⟩ := fill_ok [(([0, 1], [0, 1]) : List ℚ × List ℚ)] [zero2 2] [toyPhysScreen] rfl le_rfl (by
    intro i c d hc hd
    cases i with
    | zero =>
      simp only [List.getElem?_cons_zero, Option.some.injEq] at hc hd
      subst hc hd
      exact sampled_ok toyPhysScreen _ hr hr
    | succ i => simp at hc)
  have hl := (fill_spec _ _ _ _ h).1
  obtain ⟨b, rfl⟩ := List.length_eq_one_iff.mp hl
  refine ⟨b, h, fun i hi j hj => ?_⟩
  have hv := fill_sumOfLayers [([0, 1], [0, 1])] 2 (by simp) _ [toyPhysScreen] [b] (by simp [zero2]) h i j hi hj
  have := toy_value i j hi hj _ hv
  simpa using this

theorem toy_frame (alt : ℚ) (corr : Option (List Arr2)) (hc : corr = none ∨ corr = some [toyPhysScreen]) :
    ∃ o, Physical.frame toyPhysGrid toyPhysCfg 0 [alt] none (some [toyPhysScreen]) corr = .ok o := by
  obtain ⟨b, hb, _⟩ := toy_fill
  have hf : ∀ l, l = toyPhysCfg.layerCoords → fill l (l.map fun _ => zero2 toyPhysCfg.nOut) [toyPhysScreen] = .ok [b] := by rintro l rfl; exact hb
  have hf1 := hf _ rfl
  have hf2 : fill toyPhysCfg.dmCoords (toyPhysCfg.dmCoords.map fun _ => zero2 toyPhysCfg.nOut) [toyPhysScreen] = .ok [b] := hb
  have hp : ∃ acts, physical false 0 [alt] 1 = .ok acts := ⟨_, rfl⟩
  obtain ⟨acts, hp⟩ := hp
  unfold Physical.frame Physical.makePhase
  have hu : toyPhysCfg.up = false := rfl
  rcases hc with rfl | rfl
  · simp only [hu, Option.getD_some, hf1, List.length_singleton, hp, Bool.false_eq_true, if_false]
    exact ⟨_, rfl⟩
  · simp only [hu, Option.getD_some, hf1, List.length_singleton, hp, Bool.false_eq_true, if_false, correct, hf2]
    exact ⟨_, rfl⟩

/-- **C120 is violated for mirrors above the ground:** in physical propagation the mirrors are applied at the ground, whatever their altitude, so a mirror conjugated to a layer does not remove it. -/
theorem C120_conjugate_violated : ¬ C120_ConjugateStatement := by
  intro hall
  obtain ⟨o, ho⟩ := toy_frame 1000 (some [toyPhysScreen]) (Or.inr rfl)
  obtain ⟨b, hb, hbv⟩ := toy_fill
  have hlos : ∃ t, Los.frame toyPhysCfg ⟨[], [], zero2 2, zero2 2, zero2 2, zero2 2⟩ (some [toyPhysScreen]) (some [toyPhysScreen]) = .ok t := by
    have hf1 : fill toyPhysCfg.layerCoords (toyPhysCfg.layerCoords.map fun _ => zero2 toyPhysCfg.nOut) [toyPhysScreen] = .ok [b] := hb
    have hf2 : fill toyPhysCfg.dmCoords (toyPhysCfg.dmCoords.map fun _ => zero2 toyPhysCfg.nOut) [toyPhysScreen] = .ok [b] := hb
    unfold Los.frame Los.performCorrection Los.makePhase zeroData
    have hu : toyPhysCfg.up = false := rfl
    simp only [hu, Option.getD_some, hf1, hf2]
    exact ⟨_, rfl⟩
  obtain ⟨t, ht⟩ := hlos
  have key := hall toyPhysGrid toyPhysCfg _ 1000 toyPhysScreen _ t o rfl (by norm_num [toyPhysCfg]) rfl rfl rfl (by norm_num) ht ho
  have hcoord : ∀ x ∈ toyPhysCfg.dmCoords, x.1.length = toyPhysCfg.nOut ∧ x.2.length = toyPhysCfg.nOut := by simp [toyPhysCfg]
  have hcoordl : ∀ x ∈ toyPhysCfg.layerCoords, x.1.length = toyPhysCfg.nOut ∧ x.2.length = toyPhysCfg.nOut := by simp [toyPhysCfg]
  obtain ⟨bufs, hf, hfield⟩ := C120_path toyPhysGrid toyPhysCfg rfl (by norm_num [toyPhysCfg]) hcoord 0 [1000] rfl (by intro i hi; simp at hi) (by simp) none _ _ o ho
  have hbb : bufs = [b] := Except.ok.inj (hf.symm.trans hb)
  subst hbb
  obtain ⟨v, w', hv, hw', _, he⟩ := C31_additive toyPhysCfg _ t [toyPhysScreen] (some [toyPhysScreen]) (by norm_num [toyPhysCfg]) hcoordl hcoord ht 0 0 (by decide) (by decide)
  have ev := toy_value 0 0 (by decide) (by decide) v hv
  have ew := toy_value 0 0 (by decide) (by decide) w' hw'
  have k0 := key 0 (by decide) 0 (by decide)
  obtain ⟨w0, hw0, e0⟩ := hfield 0 (by decide) 0 (by decide)
  have ew0 := toy_value 0 0 (by decide) (by decide) w0 hw0
  have swap := toy_swap (cis 0) (cis 1) (applyPhase 1 b fun _ _ => 1) (by
    intro i hi j hj
    simp only [applyPhase, hbv i hi j hj, one_mul]
    split_ifs <;> simp) 0 (by decide) 0 (by decide)
  have ed : descend toyPhysGrid toyPhysCfg.k ([(1000 : ℚ)].zip [b]).reverse (fun _ _ => 1) 0 0 = cis 1 := by
    simp only [List.zip_cons_cons, List.zip_nil_right, List.reverse_cons, List.reverse_nil, List.nil_append, descend, List.head?_nil, Option.map_none, Option.getD_none, sub_zero]
    have : ((1000 : ℚ) : ℝ) = 1000 := by norm_num
    rw [this]
    have hk1 : toyPhysCfg.k = 1 := rfl
    rw [hk1]
    simpa using swap
  rw [e0, ed, ew0, he, ev, ew] at k0
  norm_num [cis_zero'] at k0
  have hpos := Real.sin_pos_of_pos_of_lt_pi one_pos (by linarith [Real.two_le_pi])
  have him := congrArg Complex.im k0
  rw [cis, Complex.exp_ofReal_mul_I_im] at him
  simp at him
  linarith

/-- The example meets the hypotheses of `C120_light`, `C120_path`, `C120_ground` and `C120_conjugate_partial`. -/
example : (∃ o, Physical.frame toyPhysGrid toyPhysCfg 0 [1000] none (some [toyPhysScreen]) (some [toyPhysScreen]) = .ok o) ∧
    (∃ o, Physical.frame toyPhysGrid toyPhysCfg 0 [0] none (some [toyPhysScreen]) (some [toyPhysScreen]) = .ok o) ∧
    toyPhysCfg.up = false ∧ toyPhysGrid.n = toyPhysCfg.nOut ∧ toyPhysCfg.k ≠ 0 ∧ toyPhysCfg.layerCoords.length = [(1000 : ℚ)].length ∧ Ascending [1000] ∧ toyPhysGrid.freq 0 = 0 :=
  ⟨toy_frame 1000 _ (Or.inr rfl), toy_frame 0 _ (Or.inr rfl), rfl, rfl, by norm_num [toyPhysCfg], rfl, by intro i hi; simp at hi, by simp [toyPhysGrid]⟩

/-- The profiles of `C120_empty_layer`: a layer at 500 m added between the ground and 1000 m. -/
example : ([0, 500, 1000] : List ℚ) = [0, 1000].take 1 ++ 500 :: [0, 1000].drop 1 ∧ Ascending [0, 500, 1000] ∧ (∃ acts, physical false 0 [0, 500, 1000] 3 = .ok acts) := by
  refine ⟨rfl, ?_, ⟨_, rfl⟩⟩
  intro i hi
  simp at hi
  have : i = 0 ∨ i = 1 := by omega
  rcases this with rfl | rfl <;> norm_num

/-! ### C121: the recorded phase -/

/-- **C121 (records).** In physical propagation, `phase` and `residual` of a line of sight hold the mirrors only, with opposite sign: the turbulence is not in them. -/
theorem C121_records (g : Grid) (c : Cfg) (hup : c.up = false) (hk : c.k ≠ 0) (hd : ∀ x ∈ c.dmCoords, x.1.length = c.nOut ∧ x.2.length = c.nOut) (source : ℚ) (alts : List ℚ)
    (mask : Option (ℕ → ℕ → ℝ)) (scrns corr : Option (List Arr2)) (o : Out) (h : Physical.frame g c source alts mask scrns corr = .ok o) :
    ∀ i < c.nOut, ∀ j < c.nOut, ∃ w, SumOfLayers c.dmCoords (corr.getD []) i j w ∧ o.phase.px i j = -(c.k * w) ∧ o.residual.px i j = -w := by
  obtain ⟨_, _, w, _, _, hw, _, hph, hre⟩ := frame_down g c hup hk hd source alts mask scrns corr o h
  intro i hi j hj
  exact ⟨w i j, hw i hi j hj, by rw [hph]; ring, hre i j⟩

/-- **C121 (blind).** Whatever is computed from `phase` (Gradient, Pyramid and Zernike sensors, `uncorrectedPhase`) is in physical propagation the same for all turbulence. -/
theorem C121_blind (g : Grid) (c : Cfg) (hup : c.up = false) (hk : c.k ≠ 0) (hd : ∀ x ∈ c.dmCoords, x.1.length = c.nOut ∧ x.2.length = c.nOut) (source : ℚ) (alts alts' : List ℚ)
    (mask : Option (ℕ → ℕ → ℝ)) (scrns scrns' corr : Option (List Arr2)) (o o' : Out) (h : Physical.frame g c source alts mask scrns corr = .ok o)
    (h' : Physical.frame g c source alts' mask scrns' corr = .ok o') (α : Type) (measure : (Fin c.nOut → Fin c.nOut → ℚ) → α) :
    measure (fun i j => o.phase.px i j) = measure (fun i j => o'.phase.px i j) := by
  congr 1
  funext i j
  obtain ⟨w, hw, h1, _⟩ := C121_records g c hup hk hd source alts mask scrns corr o h i i.2 j j.2
  obtain ⟨w', hw', h1', _⟩ := C121_records g c hup hk hd source alts' mask scrns' corr o' h' i i.2 j j.2
  rw [h1, h1', sumOfLayers_unique _ _ _ _ _ _ hw hw']

/-- **C121, as a user would want it:** at least when all turbulence is at the ground, the recorded phase is the phase of the field. -/
def C121_Statement : Prop :=
  ∀ (g : Grid) (c : Cfg) (scrns corr : Option (List Arr2)) (o : Out), c.up = false → c.k ≠ 0 → g.n = c.nOut →
    Physical.frame g c 0 (c.layerCoords.map fun _ => 0) none scrns corr = .ok o → ∀ i < c.nOut, ∀ j < c.nOut, o.field i j = cis (o.phase.px i j : ℝ)

/-- **C121 is violated.** -/
theorem C121_violated : ¬ C121_Statement := by
  intro hall
  obtain ⟨o, ho⟩ := toy_frame 0 none (Or.inl rfl)
  obtain ⟨b, hb, hbv⟩ := toy_fill
  have key := hall toyPhysGrid toyPhysCfg (some [toyPhysScreen]) none o rfl (by norm_num [toyPhysCfg]) rfl ho 1 (by decide) 0 (by decide)
  have hcoord : ∀ x ∈ toyPhysCfg.dmCoords, x.1.length = toyPhysCfg.nOut ∧ x.2.length = toyPhysCfg.nOut := by simp [toyPhysCfg]
  have hk : toyPhysCfg.k ≠ 0 := by norm_num [toyPhysCfg]
  obtain ⟨bufs, hf, hfield⟩ := C120_path toyPhysGrid toyPhysCfg rfl hk hcoord 0 [0] rfl (by intro i hi; simp at hi) (by simp) none _ _ o ho
  have hbb : bufs = [b] := Except.ok.inj (hf.symm.trans hb)
  subst hbb
  obtain ⟨w, hw, e⟩ := hfield 1 (by decide) 0 (by decide)
  obtain ⟨w', hw', e', _⟩ := C121_records toyPhysGrid toyPhysCfg rfl hk hcoord 0 [0] none _ _ o ho 1 (by decide) 0 (by decide)
  have z : ∀ w, SumOfLayers toyPhysCfg.dmCoords ((none : Option (List Arr2)).getD []) 1 0 w → w = 0 := fun w hw => sumOfLayers_unique _ _ _ _ _ _ hw ⟨[], rfl, rfl, by simp⟩
  rw [e, e', z w hw, z w' hw'] at key
  simp only [List.zip_cons_cons, List.zip_nil_right, List.reverse_cons, List.reverse_nil, List.nil_append, descend, List.head?_nil, Option.map_none, Option.getD_none, sub_zero, Rat.cast_zero,
    angularSpectrum, if_true, applyPhase, one_mul, hbv 1 (by decide) 0 (by decide), mul_zero, neg_zero, cis_zero', mul_one, toyPhysCfg, Rat.cast_one] at key
  have hpos := Real.sin_pos_of_pos_of_lt_pi one_pos (by linarith [Real.two_le_pi])
  have him := congrArg Complex.im key
  rw [cis, Complex.exp_ofReal_mul_I_im] at him
  simp at him
  linarith

end Soapy.Props
