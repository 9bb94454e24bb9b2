/-
Property theorems C150: light takes the same way up and down (`lineofsight.LineOfSight` with the two propagation directions).
-/
import Verif.Props.Physical

namespace Soapy.Props

open Soapy.Mirror Soapy.Interp Soapy.Los Soapy.Spot Soapy.Physical Soapy.Lemmas Finset

/-! ### Propagation is symmetric -/

/-- The sum of the products of two fields. -/
noncomputable def overlap (n : ℕ) (E F : Field) : ℂ := ∑ i ∈ range n, ∑ j ∈ range n, E i j * F i j

private theorem overlap_comm (n : ℕ) (E F : Field) : overlap n E F = overlap n F E :=
  sum_congr rfl fun _ _ => sum_congr rfl fun _ _ => mul_comm _ _

private theorem overlap_congr (n : ℕ) {E E' F F' : Field} (h : Same n E E') (h' : Same n F F') : overlap n E F = overlap n E' F' :=
  sum_congr rfl fun i hi => sum_congr rfl fun j hj => by rw [h i (mem_range.mp hi) j (mem_range.mp hj), h' i (mem_range.mp hi) j (mem_range.mp hj)]

/-- The transform has for each frequency its negative (true for an even number of pixels). -/
def Balanced (g : Grid) : Prop := ∀ u < g.n, g.freq ((g.n - u) % g.n) ^ 2 = g.freq u ^ 2

private theorem overlap_spectra (g : Grid) (z : ℝ) (hz : z ≠ 0) (E F : Field) :
    overlap g.n (angularSpectrum g z E) F = (∑ u ∈ range g.n, ∑ v ∈ range g.n, quad g z u v * (Lemmas.trans (-1) g.n E u v * Lemmas.trans 1 g.n F u v)) / (g.n : ℂ) ^ 2 := by
  unfold overlap angularSpectrum
  simp only [if_neg hz]
  rw [sum_div]
  have e : ∀ i j : ℕ, (∑ u ∈ range g.n, ∑ v ∈ range g.n, cis (-(g.kappa * z * (g.freq u ^ 2 + g.freq v ^ 2))) * spectrum g.n E u v *
      cis (1 * (2 * Real.pi * ((i : ℝ) * u + (j : ℝ) * v) / g.n))) / (g.n : ℂ) ^ 2 * F i j =
      ∑ u ∈ range g.n, ∑ v ∈ range g.n, quad g z u v * (Lemmas.trans (-1) g.n E u v * (F i j * cis (1 * (2 * Real.pi * ((u : ℝ) * i + (v : ℝ) * j) / g.n)))) / (g.n : ℂ) ^ 2 := by
    intro i j
    rw [sum_div, sum_mul]
    refine sum_congr rfl fun u _ => ?_
    rw [sum_div, sum_mul]
    refine sum_congr rfl fun v _ => ?_
    rw [quad, ← spectrum_eq, mul_comm (i : ℝ), mul_comm (j : ℝ)]
    ring
  simp only [e]
  rw [sum_congr rfl fun i _ => sum_comm, sum_comm]
  refine sum_congr rfl fun u _ => ?_
  rw [sum_congr rfl fun i _ => sum_comm, sum_comm, sum_div]
  refine sum_congr rfl fun v _ => ?_
  simp only [← sum_div, ← mul_sum]
  rfl

private theorem mirror_index (N u : ℕ) (hu : u < N) : ∃ k : ℤ, (((N - u) % N : ℕ) : ℝ) = k * N - u := by
  rcases Nat.eq_zero_or_pos u with rfl | h
  · exact ⟨0, by simp⟩
  · refine ⟨1, ?_⟩
    rw [Nat.mod_eq_of_lt (by omega), Nat.cast_sub hu.le]
    push_cast
    ring

private theorem trans_mirror (N : ℕ) (s : ℝ) (hs : s = 1 ∨ s = -1) (E : Field) (u v : ℕ) (hu : u < N) (hv : v < N) :
    Lemmas.trans s N E ((N - u) % N) ((N - v) % N) = Lemmas.trans (-s) N E u v := by
  obtain ⟨k, hk⟩ := mirror_index N u hu
  obtain ⟨l, hl⟩ := mirror_index N v hv
  have hN : (N : ℝ) ≠ 0 := by exact_mod_cast (by omega : N ≠ 0)
  refine sum_congr rfl fun a _ => sum_congr rfl fun b _ => ?_
  rw [hk, hl]
  congr 1
  obtain ⟨m, hm⟩ : ∃ m : ℤ, s * (2 * Real.pi * ((k * N - u) * a + (l * N - v) * b) / N) = -s * (2 * Real.pi * ((u : ℝ) * a + (v : ℝ) * b) / N) + 2 * Real.pi * m := by
    rcases hs with rfl | rfl
    · refine ⟨k * a + l * b, ?_⟩
      push_cast
      field_simp
      ring
    · refine ⟨-(k * a + l * b), ?_⟩
      push_cast
      field_simp
      ring
  rw [hm, cis_add', cis_int', mul_one]

private theorem sum_mirror (N : ℕ) (f : ℕ → ℂ) : ∑ u ∈ range N, f ((N - u) % N) = ∑ u ∈ range N, f u := by
  refine sum_nbij' (fun u => (N - u) % N) (fun u => (N - u) % N) ?_ ?_ ?_ ?_ ?_
  · intro u hu; rw [mem_range] at hu ⊢; exact Nat.mod_lt _ (by omega)
  · intro u hu; rw [mem_range] at hu ⊢; exact Nat.mod_lt _ (by omega)
  · intro u hu
    rw [mem_range] at hu
    rcases Nat.eq_zero_or_pos u with rfl | h
    · simp
    · rw [Nat.mod_eq_of_lt (a := N - u) (by omega), Nat.sub_sub_self hu.le, Nat.mod_eq_of_lt hu]
  · intro u hu
    rw [mem_range] at hu
    rcases Nat.eq_zero_or_pos u with rfl | h
    · simp
    · rw [Nat.mod_eq_of_lt (a := N - u) (by omega), Nat.sub_sub_self hu.le, Nat.mod_eq_of_lt hu]
  · intro u _; rfl

private theorem overlap_propagate (g : Grid) (hb : Balanced g) (z : ℝ) (E F : Field) : overlap g.n (angularSpectrum g z E) F = overlap g.n E (angularSpectrum g z F) := by
  by_cases hz : z = 0
  · simp [angularSpectrum, hz]
  rw [overlap_comm g.n E, overlap_spectra g z hz, overlap_spectra g z hz]
  congr 1
  rw [← sum_mirror g.n]
  refine sum_congr rfl fun u hu => ?_
  rw [← sum_mirror g.n]
  refine sum_congr rfl fun v hv => ?_
  rw [mem_range] at hu hv
  rw [trans_mirror g.n (-1) (Or.inr rfl) E u v hu hv, trans_mirror g.n 1 (Or.inl rfl) F u v hu hv, quad, hb u hu, hb v hv, neg_neg, quad]
  ring

private theorem overlap_phase (n : ℕ) (k : ℚ) (b : Arr2) (E F : Field) : overlap n (applyPhase k b E) F = overlap n E (applyPhase k b F) :=
  sum_congr rfl fun i _ => sum_congr rfl fun j _ => by simp only [applyPhase]; ring

/-! ### The way up and the way down -/

/-- Light that starts at altitude `a` and passes layers one after the other: it travels to the layer and gets its phase. -/
noncomputable def climb (g : Grid) (k : ℚ) : ℚ → List (ℚ × Arr2) → Field → Field
  | _, [], E => E
  | a, (h, b) :: r, E => climb g k h r (applyPhase k b (angularSpectrum g ((h - a : ℚ) : ℝ) E))

/-- The way back: through the later layers first. -/
private noncomputable def back (g : Grid) (k : ℚ) : ℚ → List (ℚ × Arr2) → Field → Field
  | _, [], F => F
  | a, (h, b) :: r, F => angularSpectrum g ((h - a : ℚ) : ℝ) (applyPhase k b (back g k h r F))

private theorem overlap_climb (g : Grid) (hb : Balanced g) (k : ℚ) (l : List (ℚ × Arr2)) (a : ℚ) (E F : Field) :
    overlap g.n (climb g k a l E) F = overlap g.n E (back g k a l F) := by
  induction l generalizing a E with
  | nil => rfl
  | cons x l ih =>
    obtain ⟨h, b⟩ := x
    rw [climb, ih, overlap_phase, overlap_propagate g hb, back]

/-- `descend`, but ending at altitude `a`. -/
private noncomputable def descendTo (g : Grid) (k a : ℚ) : List (ℚ × Arr2) → Field → Field
  | [], E => E
  | (h, b) :: r, E => descendTo g k a r (angularSpectrum g ((h - (r.head?.map Prod.fst).getD a : ℚ) : ℝ) (applyPhase k b E))

private theorem descendTo_zero (g : Grid) (k : ℚ) (l : List (ℚ × Arr2)) (E : Field) : descendTo g k 0 l E = descend g k l E := by
  induction l generalizing E with
  | nil => rfl
  | cons x l ih => obtain ⟨h, b⟩ := x; rw [descendTo, descend, ih]

private theorem descendTo_snoc (g : Grid) (k a h : ℚ) (b : Arr2) (l : List (ℚ × Arr2)) (E : Field) :
    descendTo g k a (l ++ [(h, b)]) E = angularSpectrum g ((h - a : ℚ) : ℝ) (applyPhase k b (descendTo g k h l E)) := by
  induction l generalizing E with
  | nil => rfl
  | cons x l ih =>
    obtain ⟨h', b'⟩ := x
    rw [List.cons_append, descendTo, ih, descendTo]
    have e : ((l ++ [(h, b)]).head?.map Prod.fst).getD a = (l.head?.map Prod.fst).getD h := by cases l <;> rfl
    rw [e]

private theorem back_descend (g : Grid) (k : ℚ) (l : List (ℚ × Arr2)) (a : ℚ) (F : Field) : back g k a l F = descendTo g k a l.reverse F := by
  induction l generalizing a with
  | nil => rfl
  | cons x l ih =>
    obtain ⟨h, b⟩ := x
    rw [List.reverse_cons, descendTo_snoc, ← ih, back]

/-- **C150 (any fields).** Whatever light is sent up from the ground and whatever light is sent down from the highest layer: the overlap of the first with the second at the top is that of the second with the first at the ground. -/
theorem C150_fields (g : Grid) (hb : Balanced g) (k : ℚ) (layers : List (ℚ × Arr2)) (E F : Field) :
    ∑ i ∈ range g.n, ∑ j ∈ range g.n, climb g k 0 layers E i j * F i j = ∑ i ∈ range g.n, ∑ j ∈ range g.n, E i j * descend g k layers.reverse F i j := by
  have := overlap_climb g hb k layers 0 E F
  rwa [back_descend, descendTo_zero] at this

private theorem angularSpectrum_zero (g : Grid) (E : Field) : angularSpectrum g 0 E = E := by simp [angularSpectrum]

private theorem loop_climb (g : Grid) (k : ℚ) (bufs : List Arr2) (n : ℕ) (inf : Bool) (alts : ℕ → ℚ) (ids : ℕ → ℕ) (hF : ℚ)
    (hm : ∀ i, i + 1 < n → alts i ≤ alts (i + 1)) :
    ∀ (fuel i : ℕ) (E : Field), i + fuel = n → i < n →
      List.foldl (step g k bufs) E (physLoop n inf alts ids 0 hF fuel i (alts i)) =
        (if inf then id else angularSpectrum g ((|hF| - alts (n - 1) : ℚ) : ℝ)) (climb g k (alts i) ((List.range' i fuel).map fun l => (alts l, bufs.getD (ids l) (zero2 g.n))) E) := by
  intro fuel
  induction fuel with
  | zero => intro i E h1 h2; omega
  | succ fuel ih =>
    intro i E h1 h2
    rw [physLoop]
    by_cases hl : i + 1 = n
    · have hf0 : fuel = 0 := by omega
      subst hf0
      have hn : n - 1 = i := by omega
      rw [if_pos hl, hn]
      cases inf <;> simp [climb, step, List.range', angularSpectrum_zero]
    · obtain ⟨f, rfl⟩ : ∃ f, fuel = f + 1 := ⟨fuel - 1, by omega⟩
      rw [if_neg hl]
      have hmi := hm i (by omega)
      have habs : |alts (i + 1) - alts i| = alts (i + 1) - alts i := abs_of_nonneg (by linarith)
      have e : alts i + (alts (i + 1) - alts i) = alts (i + 1) := by ring
      rw [List.foldl_cons, List.foldl_cons, habs, e, ih (i + 1) _ (by omega) (by omega)]
      rw [List.range'_succ (s := i), List.map_cons (a := i), climb]
      have e2 : ((alts i - alts i : ℚ) : ℝ) = 0 := by simp
      rw [e2, angularSpectrum_zero, List.range'_succ, List.map_cons, climb, climb]
      simp only [sub_self, Rat.cast_zero, angularSpectrum_zero, step]

private theorem asc_le (alts : List ℚ) (hasc : Ascending alts) (i : ℕ) (hi : i + 1 < alts.length) : alts.getD i 0 ≤ alts.getD (i + 1) 0 := hasc i hi

/-- The way up that the code takes: through all layers and, if the source is not at infinity, on to the source. -/
private theorem steps_climb (g : Grid) (k : ℚ) (source : ℚ) (alts : List ℚ) (bufs : List Arr2) (hlen : bufs.length = alts.length) (hasc : Ascending alts)
    (acts : List Act) (h : physical true source alts bufs.length = .ok acts) (h0 : 0 ≤ alts.getD 0 0) (E : Field) :
    List.foldl (step g k bufs) E acts =
      (if source = 0 then id else angularSpectrum g ((|source| - alts.getD (alts.length - 1) 0 : ℚ) : ℝ)) (climb g k 0 (alts.zip bufs) E) := by
  unfold physical at h
  by_cases hz : bufs.length = 0 ∨ alts.length < bufs.length
  · rw [if_pos hz] at h; cases h
  rw [if_neg hz] at h
  have hne : 0 < alts.length := by omega
  simp only [if_true, hlen, sub_zero, Bool.true_and, Except.ok.injEq, abs_of_nonneg h0] at h
  have hz0 : (if (0 : ℚ) ≠ alts.getD 0 0 then alts.getD 0 0 else 0) = alts.getD 0 0 := by
    split <;> rename_i hh
    · rfl
    · rw [not_not] at hh; exact hh
  rw [hz0] at h
  rw [← h, List.foldl_append, loop_climb g k bufs alts.length _ (fun i => alts.getD i 0) _ source (fun i hi => asc_le alts hasc i hi) alts.length 0 _ (by omega) hne]
  have hzip : (List.range' 0 alts.length).map (fun l => (alts.getD l 0, bufs.getD l (zero2 g.n))) = alts.zip bufs := by
    apply List.ext_getElem
    · simp [hlen]
    · intro i h1 h2
      have hi : i < alts.length := by simpa using h1
      simp only [List.getElem_map, List.getElem_range', List.getElem_zip, zero_add, one_mul]
      rw [List.getD_eq_getElem _ _ hi, List.getD_eq_getElem _ _ (by omega)]
  rw [hzip]
  have hpre : climb g k (alts.getD 0 0) (alts.zip bufs) (List.foldl (step g k bufs) E (if (0 : ℚ) ≠ alts.getD 0 0 then [.propagate (alts.getD 0 0)] else [])) = climb g k 0 (alts.zip bufs) E := by
    obtain ⟨a, al, rfl⟩ : ∃ a al, alts = a :: al := by cases alts with | nil => simp at hne | cons a al => exact ⟨a, al, rfl⟩
    obtain ⟨b, bl, rfl⟩ : ∃ b bl, bufs = b :: bl := by cases bufs with | nil => simp at hlen | cons b bl => exact ⟨b, bl, rfl⟩
    simp only [List.getD_cons_zero, List.zip_cons_cons, climb, sub_self, Rat.cast_zero, angularSpectrum_zero, sub_zero]
    by_cases ha : (0 : ℚ) = a
    · subst ha; simp [angularSpectrum_zero]
    · rw [if_pos ha]; rfl
  rw [hpre]
  by_cases hs : source = 0 <;> simp [hs]

/-! ### Frames -/

/-- The phase the mirrors take away. -/
private def mirrorPhase (c : Cfg) : Option (List Arr2) → Except PyErr (ℕ → ℕ → ℚ)
  | none => .ok fun _ _ => 0
  | some cs =>
    match fill c.dmCoords (c.dmCoords.map fun _ => zero2 c.nOut) cs with
    | .error e => .error e
    | .ok cb => .ok fun i j => (sumImg c.nOut cb).px i j * c.k

private theorem frame_up (g : Grid) (c : Cfg) (hup : c.up = true) (source : ℚ) (alts : List ℚ) (m : ℕ → ℕ → ℝ) (scrns corr : Option (List Arr2)) (o : Out)
    (h : Physical.frame g c source alts (some m) scrns corr = .ok o) :
    ∃ bufs acts w, fill c.layerCoords (c.layerCoords.map fun _ => zero2 c.nOut) (scrns.getD (c.layerCoords.map fun _ => zero2 c.scrn)) = .ok bufs ∧
      physical true source alts bufs.length = .ok acts ∧ mirrorPhase c corr = .ok w ∧
      o.field = acts.foldl (step g c.k bufs) fun i j => cis ((-w i j : ℚ) : ℝ) * (m i j : ℂ) := by
  have fin : ∀ o' : Out, (match Physical.makePhase g c source alts (some m) o' (scrns.getD (c.layerCoords.map fun _ => zero2 c.scrn)) with
        | .error e => .error e
        | .ok o => .ok { o with residual := o.phase }) = (Except.ok o : Except PyErr Out) →
      ∃ bufs acts, fill c.layerCoords (c.layerCoords.map fun _ => zero2 c.nOut) (scrns.getD (c.layerCoords.map fun _ => zero2 c.scrn)) = .ok bufs ∧
        physical true source alts bufs.length = .ok acts ∧ o.field = acts.foldl (step g c.k bufs) fun i j => o'.field i j * (m i j : ℂ) := by
    intro o' h
    unfold Physical.makePhase at h
    cases hf : fill c.layerCoords (c.layerCoords.map fun _ => zero2 c.nOut) (scrns.getD (c.layerCoords.map fun _ => zero2 c.scrn)) with
    | error e => simp only [hf, reduceCtorEq] at h
    | ok bufs =>
      simp only [hf, hup] at h
      cases hp : physical true source alts bufs.length with
      | error e => simp only [hp, reduceCtorEq] at h
      | ok acts =>
        simp only [hp, if_true, Except.ok.injEq] at h
        subst h
        exact ⟨bufs, acts, rfl, hp, rfl⟩
  unfold Physical.frame at h
  simp only [hup] at h
  cases corr with
  | none =>
    obtain ⟨bufs, acts, a, b, e⟩ := fin _ h
    exact ⟨bufs, acts, _, a, b, rfl, by rw [e]; simp [cis_zero']⟩
  | some cs =>
    dsimp only at h
    unfold correct at h
    cases hc : fill c.dmCoords (c.dmCoords.map fun _ => zero2 c.nOut) cs with
    | error e => simp only [hc, reduceCtorEq] at h
    | ok cb =>
      simp only [hc] at h
      obtain ⟨bufs, acts, a, b, e⟩ := fin _ h
      exact ⟨bufs, acts, fun i j => (sumImg c.nOut cb).px i j * c.k, a, b, by simp only [mirrorPhase, hc], by rw [e]; simp only [one_mul]⟩

private theorem frame_dn (g : Grid) (c : Cfg) (hup : c.up = false) (source : ℚ) (alts : List ℚ) (mask : Option (ℕ → ℕ → ℝ)) (scrns corr : Option (List Arr2)) (o : Out)
    (h : Physical.frame g c source alts mask scrns corr = .ok o) :
    ∃ bufs acts w, fill c.layerCoords (c.layerCoords.map fun _ => zero2 c.nOut) (scrns.getD (c.layerCoords.map fun _ => zero2 c.scrn)) = .ok bufs ∧
      physical false source alts bufs.length = .ok acts ∧ mirrorPhase c corr = .ok w ∧
      ∀ i j, o.field i j = (acts.foldl (step g c.k bufs) fun _ _ => 1) i j * cis ((-w i j : ℚ) : ℝ) := by
  unfold Physical.frame Physical.makePhase at h
  simp only [hup] at h
  cases hf : fill c.layerCoords (c.layerCoords.map fun _ => zero2 c.nOut) (scrns.getD (c.layerCoords.map fun _ => zero2 c.scrn)) with
  | error e => simp only [hf, reduceCtorEq] at h
  | ok bufs =>
    simp only [hf] at h
    cases hp : physical false source alts bufs.length with
    | error e => simp only [hp, reduceCtorEq] at h
    | ok acts =>
      simp only [hp, Bool.false_eq_true, if_false] at h
      cases corr with
      | none =>
        simp only [Except.ok.injEq] at h
        subst h
        exact ⟨bufs, acts, _, rfl, hp, rfl, fun i j => by simp [cis_zero']⟩
      | some corr =>
        simp only [correct] at h
        cases hc : fill c.dmCoords (c.dmCoords.map fun _ => zero2 c.nOut) corr with
        | error e => simp only [hc, reduceCtorEq] at h
        | ok cb =>
          simp only [hc, Except.ok.injEq] at h
          subst h
          exact ⟨bufs, acts, fun i j => (sumImg c.nOut cb).px i j * c.k, rfl, hp, by simp only [mirrorPhase, hc], fun i j => rfl⟩

private theorem mirrorPhase_up (c : Cfg) (u : Bool) (corr : Option (List Arr2)) : mirrorPhase { c with up := u } corr = mirrorPhase c corr := by
  cases corr <;> rfl

/-- **C150 (frames).** A line of sight in physical propagation, used upwards and downwards with the same coordinates, screens and mirrors, layers in ascending order: the light of the launched beam, summed at the source, is the light of
the star summed over the launch aperture.  The mirrors come first on the way up and last on the way down.  The source is at infinity, or the transform has the frequency zero. -/
theorem C150_reciprocal (g : Grid) (hb : Balanced g) (c : Cfg) (source : ℚ) (hs : source = 0 ∨ g.freq 0 = 0) (alts : List ℚ) (hlen : c.layerCoords.length = alts.length) (hasc : Ascending alts)
    (h0 : 0 ≤ alts.getD 0 0) (m : ℕ → ℕ → ℝ) (mask : Option (ℕ → ℕ → ℝ)) (scrns corr : Option (List Arr2)) (o o' : Out)
    (h : Physical.frame g { c with up := true } source alts (some m) scrns corr = .ok o)
    (h' : Physical.frame g { c with up := false } source alts mask scrns corr = .ok o') :
    ∑ i ∈ range g.n, ∑ j ∈ range g.n, o.field i j = ∑ i ∈ range g.n, ∑ j ∈ range g.n, (m i j : ℂ) * o'.field i j := by
  obtain ⟨bufs, acts, w, hf, hp, hw, e⟩ := frame_up g _ rfl source alts m scrns corr o h
  obtain ⟨bufs', acts', w', hf', hp', hw', e'⟩ := frame_dn g _ rfl source alts mask scrns corr o' h'
  rw [mirrorPhase_up] at hw hw'
  dsimp only at hf hf' e e'
  rw [hf] at hf'
  cases hf'
  rw [hw] at hw'
  cases hw'
  have hbl := (fill_spec _ _ _ _ hf).1
  rw [List.length_map, hlen] at hbl
  rw [steps_climb g c.k source alts bufs hbl hasc acts hp h0] at e
  have hdown : ∀ F, List.foldl (step g c.k bufs) F acts' = descend g c.k (alts.zip bufs).reverse F := steps_descend g c.k source alts bufs hbl hasc h0 acts' hp'
  have hone : ∀ E : Field, overlap g.n ((if source = 0 then id else angularSpectrum g ((|source| - alts.getD (alts.length - 1) 0 : ℚ) : ℝ)) E) (fun _ _ => 1) = overlap g.n E (fun _ _ => 1) := by
    intro E
    by_cases hz : source = 0
    · rw [if_pos hz]; rfl
    · rw [if_neg hz, overlap_propagate g hb]
      refine overlap_congr g.n (Same.refl _ _) ((plane_propagated g _ 1).trans ?_)
      intro i _ j _
      simp [quad, hs.resolve_left hz, cis_zero']
  have key := hone (climb g c.k 0 (alts.zip bufs) fun i j => cis ((-w i j : ℚ) : ℝ) * (m i j : ℂ))
  rw [← e] at key
  have lhs : ∑ i ∈ range g.n, ∑ j ∈ range g.n, o.field i j = overlap g.n o.field fun _ _ => 1 := by simp [overlap]
  rw [lhs, key, overlap, C150_fields g hb]
  refine sum_congr rfl fun i _ => sum_congr rfl fun j _ => ?_
  rw [e', hdown]
  ring

/-- **C150 (both or none).** With a mask for the launched beam a frame works upwards exactly if it works downwards. -/
theorem C150_both (g : Grid) (c : Cfg) (source : ℚ) (alts : List ℚ) (m : ℕ → ℕ → ℝ) (mask : Option (ℕ → ℕ → ℝ)) (scrns corr : Option (List Arr2)) :
    (∃ o, Physical.frame g { c with up := true } source alts (some m) scrns corr = .ok o) ↔ ∃ o, Physical.frame g { c with up := false } source alts mask scrns corr = .ok o := by
  have hphys : ∀ n u u' acts, physical u source alts n = .ok acts → ∃ acts', physical u' source alts n = .ok acts' := by
    intro n u u' acts h
    unfold physical at h ⊢
    by_cases hz : n = 0 ∨ alts.length < n
    · rw [if_pos hz] at h; cases h
    · rw [if_neg hz]; exact ⟨_, rfl⟩
  constructor
  · rintro ⟨o, h⟩
    obtain ⟨bufs, acts, w, hf, hp, hw, _⟩ := frame_up g _ rfl source alts m scrns corr o h
    obtain ⟨acts', hp'⟩ := hphys _ _ false _ hp
    dsimp only at hf
    unfold Physical.frame Physical.makePhase
    cases corr with
    | none => simp only [hf, hp', Bool.false_eq_true, if_false]; exact ⟨_, rfl⟩
    | some cs =>
      unfold mirrorPhase at hw
      cases hc : fill c.dmCoords (c.dmCoords.map fun _ => zero2 c.nOut) cs with
      | error e => simp only [hc, reduceCtorEq] at hw
      | ok cb => simp only [hf, hp', Bool.false_eq_true, if_false, correct, hc]; exact ⟨_, rfl⟩
  · rintro ⟨o, h⟩
    obtain ⟨bufs, acts, w, hf, hp, hw, _⟩ := frame_dn g _ rfl source alts mask scrns corr o h
    obtain ⟨acts', hp'⟩ := hphys _ _ true _ hp
    dsimp only at hf
    unfold Physical.frame Physical.makePhase
    cases corr with
    | none => simp only [hf, hp', if_true]; exact ⟨_, rfl⟩
    | some cs =>
      unfold mirrorPhase at hw
      cases hc : fill c.dmCoords (c.dmCoords.map fun _ => zero2 c.nOut) cs with
      | error e => simp only [hc, reduceCtorEq] at hw
      | ok cb => simp only [hf, hp', if_true, correct, hc]; exact ⟨_, rfl⟩

/-- The frequencies of a transform with `N` elements, in its order: 0, 1, …, then the negative ones. -/
noncomputable def usualFreq (N u : ℕ) : ℝ := if 2 * u < N then u else (u : ℝ) - N

/-- **C150 (grids).** With an even number of pixels the frequencies are balanced and zero is one of them. -/
theorem C150_grid (N : ℕ) (he : N % 2 = 0) (kappa : ℝ) : Balanced ⟨N, kappa, usualFreq N⟩ ∧ usualFreq N 0 = 0 := by
  refine ⟨fun u hu => ?_, by simp [usualFreq]⟩
  dsimp only at hu ⊢
  rcases Nat.eq_zero_or_pos u with rfl | h
  · simp
  · rw [Nat.mod_eq_of_lt (by omega)]
    unfold usualFreq
    rw [Nat.cast_sub hu.le]
    by_cases h1 : 2 * u < N
    · rw [if_neg (by omega), if_pos h1]; ring
    · by_cases h2 : 2 * (N - u) < N
      · rw [if_pos h2, if_neg h1]; ring
      · have : N = 2 * u := by omega
        rw [if_neg h2, if_neg h1, this]
        push_cast
        ring

private theorem toy_balanced : Balanced toyPhysGrid := by
  intro u hu
  change u < 2 at hu
  obtain rfl | rfl : u = 0 ∨ u = 1 := by omega
  all_goals simp [toyPhysGrid]

/-- A layer at 1000 m, a mirror, a source at 5000 m and an aperture of one pixel. -/
example : ∃ o o', Physical.frame toyPhysGrid { toyPhysCfg with up := true } 5000 [1000] (some fun i j => if i = 0 ∧ j = 0 then 1 else 0) (some [toyPhysScreen]) (some [toyPhysScreen]) = .ok o ∧
    Physical.frame toyPhysGrid { toyPhysCfg with up := false } 5000 [1000] none (some [toyPhysScreen]) (some [toyPhysScreen]) = .ok o' ∧
    o.field 0 0 + o.field 0 1 + (o.field 1 0 + o.field 1 1) = o'.field 0 0 := by
  have ex : ∃ o', Physical.frame toyPhysGrid { toyPhysCfg with up := false } 5000 [1000] none (some [toyPhysScreen]) (some [toyPhysScreen]) = .ok o' := by
    obtain ⟨o', h'⟩ := toy_frame 1000 (some [toyPhysScreen]) (Or.inr rfl)
    exact (C150_both toyPhysGrid toyPhysCfg 5000 [1000] (fun _ _ => 1) none _ _).1
      ((C150_both toyPhysGrid toyPhysCfg 5000 [1000] (fun _ _ => 1) none _ _).2 ⟨_, h'⟩)
  obtain ⟨o', h'⟩ := ex
  obtain ⟨o, h⟩ := (C150_both toyPhysGrid toyPhysCfg 5000 [1000] (fun i j => if i = 0 ∧ j = 0 then 1 else 0) none (some [toyPhysScreen]) (some [toyPhysScreen])).2 ⟨_, h'⟩
  refine ⟨o, o', h, h', ?_⟩
  have := C150_reciprocal toyPhysGrid toy_balanced toyPhysCfg 5000 (Or.inr (by simp [toyPhysGrid])) [1000] rfl (by intro i hi; simp at hi) (by simp) _ none _ _ o o' h h'
  simpa [toyPhysGrid, Finset.sum_range_succ] using this

/-! ### Mirrors at the ground -/

private theorem phase_same (n : ℕ) (k : ℚ) (b : Arr2) {E E' : Field} (h : Same n E E') : Same n (applyPhase k b E) (applyPhase k b E') := by
  intro i hi j hj; simp only [applyPhase, h i hi j hj]

private theorem climb_same (g : Grid) (k : ℚ) (l : List (ℚ × Arr2)) (a : ℚ) {E E' : Field} (h : Same g.n E E') : Same g.n (climb g k a l E) (climb g k a l E') := by
  induction l generalizing a E E' with
  | nil => exact h
  | cons x l ih => obtain ⟨h', b⟩ := x; exact ih _ (phase_same _ _ _ (propagate_congr g _ h))

private theorem sampled_zero (n : ℕ) (L : List ℚ × List ℚ) (r : Arr2) (h : sampled (zero2 n) L = .ok r) (i j : ℕ) (hi : i < L.1.length) (hj : j < L.2.length) : r.px i j = 0 := by
  obtain ⟨_, _, hpx⟩ := sampled_px _ _ _ h
  have := hpx i j _ _ (List.getElem?_eq_getElem hi) (List.getElem?_eq_getElem hj)
  unfold interpVal at this
  simp only [Bool.false_eq_true, if_false] at this
  unfold bilinAt readPx at this
  simp only [zero2] at this
  split at this
  · rename_i d10 d00 d11 d01 r1 r2 r3 r4
    have z : ∀ {a b : Except PyErr ℕ} {d : ℚ}, (match a, b with | .ok _, .ok _ => (Except.ok 0 : Except PyErr ℚ) | _, _ => .error .indexError) = .ok d → d = 0 := by
      intro a b d hh
      cases a <;> cases b <;> simp at hh
      exact hh.symm
    rw [z r1, z r2, z r3, z r4] at this
    simp at this
    exact this.symm
  · cases this

private theorem fill_cons (c : List ℚ × List ℚ) (cs : List (List ℚ × List ℚ)) (b : Arr2) (bs : List Arr2) (d : Arr2) (ds r : List Arr2) (h : fill (c :: cs) (b :: bs) (d :: ds) = .ok r) :
    ∃ s t, sampled d c = .ok s ∧ fill cs bs ds = .ok t ∧ r = s :: t := by
  rw [fill] at h
  cases h1 : sampled d c with
  | error e => simp only [h1, reduceCtorEq] at h
  | ok s =>
    simp only [h1] at h
    cases h2 : fill cs bs ds with
    | error e => simp only [h2, reduceCtorEq] at h
    | ok t =>
      simp only [h2, Except.ok.injEq] at h
      exact ⟨s, t, rfl, rfl, h.symm⟩

/-- **C150 (mirrors at the ground).** If a mirror sampled at the same places has the shape of the ground layer, the light arrives as if there were neither, whatever lies above: on the way up (a laser that is precompensated) to a source
at any height, and on the way down. -/
theorem C150_ground (g : Grid) (c : Cfg) (hn : g.n = c.nOut) (u : Bool) (L : List ℚ × List ℚ) (Ls Ds : List (List ℚ × List ℚ)) (hL : c.layerCoords = L :: Ls) (hD : c.dmCoords = L :: Ds)
    (hl : L.1.length = c.nOut ∧ L.2.length = c.nOut) (source : ℚ) (al : List ℚ) (hlen : Ls.length = al.length) (hasc : Ascending (0 :: al)) (m : ℕ → ℕ → ℝ) (a : Arr2) (scrns : List Arr2) (o o' : Out)
    (h : Physical.frame g { c with up := u } source (0 :: al) (some m) (some (a :: scrns)) (some [a]) = .ok o)
    (h' : Physical.frame g { c with up := u } source (0 :: al) (some m) (some (zero2 c.scrn :: scrns)) none = .ok o') :
    ∀ i < c.nOut, ∀ j < c.nOut, o.field i j = o'.field i j := by
  have core : ∀ bufs bufs' w w', fill c.layerCoords (c.layerCoords.map fun _ => zero2 c.nOut) (a :: scrns) = .ok bufs →
      fill c.layerCoords (c.layerCoords.map fun _ => zero2 c.nOut) (zero2 c.scrn :: scrns) = .ok bufs' → mirrorPhase c (some [a]) = .ok w → mirrorPhase c none = .ok w' →
      ∃ b b' t, bufs = b :: t ∧ bufs' = b' :: t ∧ t.length = al.length ∧ (∀ i < c.nOut, ∀ j < c.nOut, w i j = b.px i j * c.k) ∧ (∀ i < c.nOut, ∀ j < c.nOut, b'.px i j = 0) ∧ (∀ i j, w' i j = 0) := by
    intro bufs bufs' w w' hf hf' hw hw'
    rw [hL, List.map_cons] at hf hf'
    obtain ⟨b, t, hb, ht, rfl⟩ := fill_cons _ _ _ _ _ _ _ hf
    obtain ⟨b', t', hb', ht', rfl⟩ := fill_cons _ _ _ _ _ _ _ hf'
    rw [ht] at ht'
    cases ht'
    refine ⟨b, b', t, rfl, rfl, ?_, ?_, ?_, ?_⟩
    · rw [(fill_spec _ _ _ _ ht).1, List.length_map, hlen]
    · unfold mirrorPhase at hw
      cases hc : fill c.dmCoords (c.dmCoords.map fun _ => zero2 c.nOut) [a] with
      | error e => simp only [hc, reduceCtorEq] at hw
      | ok cb =>
        simp only [hc, Except.ok.injEq] at hw
        rw [hD, List.map_cons] at hc
        obtain ⟨s, r, hs, hr, rfl⟩ := fill_cons _ _ _ _ _ _ _ hc
        rw [hb] at hs
        cases hs
        simp only [fill, Except.ok.injEq] at hr
        intro i _ j _
        rw [← hw]
        dsimp only [sumImg]
        rw [← hr, List.map_cons, List.sum_cons, List.map_map]
        have : (List.map ((fun b => b.px i j) ∘ fun _ => zero2 c.nOut) Ds).sum = 0 := by
          apply List.sum_eq_zero
          intro x hx
          obtain ⟨_, _, rfl⟩ := List.mem_map.mp hx
          rfl
        rw [this, add_zero]
    · intro i hi j hj
      exact sampled_zero c.scrn L b' hb' i j (by omega) (by omega)
    · intro i j
      simp only [mirrorPhase, Except.ok.injEq] at hw'
      rw [← hw']
  cases u with
  | true =>
    obtain ⟨bufs, acts, w, hf, hp, hw, e⟩ := frame_up g _ rfl source _ m _ _ o h
    obtain ⟨bufs', acts', w', hf', hp', hw', e'⟩ := frame_up g _ rfl source _ m _ _ o' h'
    rw [mirrorPhase_up] at hw hw'
    dsimp only [Option.getD_some] at hf hf' e e'
    obtain ⟨b, b', t, rfl, rfl, htl, hw1, hb1, hw0⟩ := core bufs bufs' w w' hf hf' hw hw'
    rw [steps_climb g c.k source _ _ (by simp [htl]) hasc acts hp (by simp)] at e
    rw [steps_climb g c.k source _ _ (by simp [htl]) hasc acts' hp' (by simp)] at e'
    simp only [List.zip_cons_cons, climb, sub_self, Rat.cast_zero, angularSpectrum_zero] at e e'
    have hstart : Same g.n (applyPhase c.k b fun i j => cis ((-w i j : ℚ) : ℝ) * (m i j : ℂ)) (applyPhase c.k b' fun i j => cis ((-w' i j : ℚ) : ℝ) * (m i j : ℂ)) := by
      intro i hi j hj
      rw [hn] at hi hj
      simp only [applyPhase, hw1 i hi j hj, hb1 i hi j hj, hw0]
      rw [mul_right_comm, ← cis_add']
      simp [cis_zero']
    have hc := climb_same g c.k (al.zip t) 0 hstart
    intro i hi j hj
    rw [e, e']
    by_cases hz : source = 0
    · simp only [if_pos hz, id]; exact hc i (by omega) j (by omega)
    · simp only [if_neg hz]; exact propagate_congr g _ hc i (by omega) j (by omega)
  | false =>
    obtain ⟨bufs, acts, w, hf, hp, hw, e⟩ := frame_dn g _ rfl source _ _ _ _ o h
    obtain ⟨bufs', acts', w', hf', hp', hw', e'⟩ := frame_dn g _ rfl source _ _ _ _ o' h'
    rw [mirrorPhase_up] at hw hw'
    dsimp only [Option.getD_some] at hf hf' e e'
    obtain ⟨b, b', t, rfl, rfl, htl, hw1, hb1, hw0⟩ := core bufs bufs' w w' hf hf' hw hw'
    intro i hi j hj
    rw [e, e', steps_descend g c.k source _ _ (by simp [htl]) hasc (by simp) acts hp, steps_descend g c.k source _ _ (by simp [htl]) hasc (by simp) acts' hp']
    rw [List.zip_cons_cons, List.zip_cons_cons, List.reverse_cons, List.reverse_cons, ← descendTo_zero, ← descendTo_zero, descendTo_snoc, descendTo_snoc]
    simp only [sub_self, Rat.cast_zero, angularSpectrum_zero, applyPhase, hw1 i hi j hj, hb1 i hi j hj, hw0]
    rw [mul_assoc, ← cis_add']
    simp [cis_zero']

/-- A ground layer that the mirror has the shape of, upwards: nothing but the mask is left. -/
example : ∃ o, Physical.frame toyPhysGrid { toyPhysCfg with up := true } 0 [0] (some fun _ _ => 1) (some [toyPhysScreen]) (some [toyPhysScreen]) = .ok o := by
  obtain ⟨o', h'⟩ := toy_frame 0 (some [toyPhysScreen]) (Or.inr rfl)
  exact (C150_both toyPhysGrid toyPhysCfg 0 [0] (fun _ _ => 1) none _ _).2 ⟨_, h'⟩

/-! ### Geometric propagation -/

/-- **C150 (geometric).** In geometric propagation the phase is the same in both directions, in every pixel, for the same coordinates, screens and mirrors. -/
theorem C150_geometric (c : Cfg) (s s' t t' : State) (scrns : List Arr2) (corr : Option (List Arr2)) (hk : c.k ≠ 0)
    (hl : ∀ x ∈ c.layerCoords, x.1.length = c.nOut ∧ x.2.length = c.nOut) (hd : ∀ x ∈ c.dmCoords, x.1.length = c.nOut ∧ x.2.length = c.nOut)
    (h : Los.frame { c with up := true } s (some scrns) corr = .ok t) (h' : Los.frame { c with up := false } s' (some scrns) corr = .ok t') :
    ∀ i < c.nOut, ∀ j < c.nOut, t.phase.px i j = t'.phase.px i j ∧ t.efield.px i j = t'.efield.px i j := by
  intro i hi j hj
  obtain ⟨v, w, hv, hw, e1, e2⟩ := C31_additive { c with up := true } s t scrns corr hk hl hd h i j hi hj
  obtain ⟨v', w', hv', hw', e1', e2'⟩ := C31_additive { c with up := false } s' t' scrns corr hk hl hd h' i j hi hj
  rw [sumOfLayers_unique _ _ _ _ _ _ hv hv', sumOfLayers_unique _ _ _ _ _ _ hw hw'] at e1 e2
  exact ⟨e1.trans e1'.symm, e2.trans e2'.symm⟩

/-- **C150 (coordinates).** A beam launched from the middle of the telescope passes every layer and mirror at the same places as the light that comes down from its source. -/
theorem C150_coordinates (g : Geom) (hl : g.launch = (0, 0)) (h : ℚ) : metapupilCoords { g with up := true } h = metapupilCoords { g with up := false } h := by
  simp [metapupilCoords, altitudeCoords, edges, footprint, hl]

/-- **C150 is only for beams from the middle:** launched elsewhere they pass the layers elsewhere, except at the height of the source. -/
theorem C150_launch (g : Geom) (hs : g.source ≠ 0) (h : ℚ) (hl : g.launch.1 ≠ 0) (hsc : g.scale ≠ 0) :
    (altitudeCoords { g with up := true } h).1 = (altitudeCoords { g with up := false } h).1 ↔ h = g.source := by
  simp only [altitudeCoords, edges, footprint, if_true, Bool.false_eq_true, if_false, if_neg hs]
  constructor
  · intro e
    have e1 : g.launch.1 * (1 - h / g.source) = 0 := by
      field_simp at e ⊢
      linarith
    have e2 : 1 - h / g.source = 0 := (mul_eq_zero.mp e1).resolve_left hl
    have e3 : h / g.source = 1 := by linarith
    exact (div_eq_one_iff_eq hs).mp e3
  · rintro rfl
    rw [div_self hs]
    ring

example : (altitudeCoords ⟨true, (0, 0), (4, 0), 90000, 8, 1 / 8, 128, 64⟩ 0).1 = 64 ∧ (altitudeCoords ⟨false, (0, 0), (4, 0), 90000, 8, 1 / 8, 128, 64⟩ 0).1 = 32 := by decide +kernel

end Soapy.Props
