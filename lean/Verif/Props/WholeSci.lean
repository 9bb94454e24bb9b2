/-
Property theorems C155: what the science cameras of a whole simulation see.
-/
import Verif.Props.WholeNoise
import Verif.Props.Report
import Verif.Props.Plate
import Verif.Props.Science

namespace Soapy.Props

open Soapy.Mirror Soapy.Interp Soapy.Los Soapy.Whole Soapy.Loop Soapy.Control Soapy.Vec

/-! ### What a camera sees -/

private theorem axisIdx_lt (S : ℕ) (i : ℤ) (r : ℕ) (h : axisIdx S i = .ok r) : r < S := by
  unfold axisIdx at h
  split_ifs at h with h1 h2
  · simp only [Except.ok.injEq] at h; omega
  · simp only [Except.ok.injEq] at h; omega

private theorem readPx_congr (S : ℕ) (f g : ℕ → ℕ → ℚ) (h : ∀ i j, i < S → j < S → f i j = g i j) (x y : ℤ) : readPx ⟨S, S, f⟩ x y = readPx ⟨S, S, g⟩ x y := by
  unfold readPx
  dsimp only
  cases e1 : axisIdx S x with
  | error e => rfl
  | ok r =>
    cases e2 : axisIdx S y with
    | error e => rfl
    | ok q => dsimp only; rw [h r q (axisIdx_lt S x r e1) (axisIdx_lt S y q e2)]

/-- An interpolated value depends on the pixels of the screen only. -/
theorem bil_congr (S : ℕ) (c : List ℚ × List ℚ) (f g : ℕ → ℕ → ℚ) (h : ∀ i j, i < S → j < S → f i j = g i j) (i j : ℕ) : bil S c f i j = bil S c g i j := by
  unfold bil layerVal
  have e : ∀ x y, interpVal false ⟨S, S, f⟩ x y = interpVal false ⟨S, S, g⟩ x y := by
    intro x y
    simp only [interpVal, Bool.false_eq_true, if_false, bilinAt, readPx_congr S f g h]
  cases c.1[i]? <;> cases c.2[j]? <;> simp [e]

private theorem bil_zero (S : ℕ) (c : List ℚ × List ℚ) (i j : ℕ) : bil S c (fun _ _ => 0) i j = 0 := by
  have := bil_lin S c 1 (fun _ _ => 0) (fun _ _ => 0) i j
  simp only [one_mul, add_zero] at this
  linarith

private theorem bil_sum {ι : Type} (S : ℕ) (c : List ℚ × List ℚ) (s : Finset ι) (f : ι → ℕ → ℕ → ℚ) (i j : ℕ) : bil S c (fun x y => ∑ k ∈ s, f k x y) i j = ∑ k ∈ s, bil S c (f k) i j := by
  classical
  induction s using Finset.induction_on with
  | empty => simp [bil_zero]
  | insert a s ha ih =>
    have := bil_lin S c 1 (f a) (fun x y => ∑ k ∈ s, f k x y) i j
    simp only [one_mul] at this
    simp only [Finset.sum_insert ha]
    rw [this, ih]

private theorem frame_size (c : Cfg) (s t : Los.State) (x y : Option (List Arr2)) (h : Los.frame c s x y = .ok t) : t.phase.rows = c.nOut ∧ t.phase.cols = c.nOut := by
  have h1 : ∀ (s t : Los.State) z, makePhase c s z = .ok t → t.phase.rows = c.nOut ∧ t.phase.cols = c.nOut := by
    intro s t z h
    unfold makePhase at h
    split at h <;> cases h
    exact ⟨rfl, rfl⟩
  have h2 : ∀ (s t : Los.State) z, performCorrection c s z = .ok t → t.phase.rows = c.nOut ∧ t.phase.cols = c.nOut := by
    intro s t z h
    unfold performCorrection at h
    split at h <;> cases h
    exact ⟨rfl, rfl⟩
  unfold Los.frame at h
  dsimp only at h
  split at h
  · cases h
  · split at h
    · cases h
    · rename_i e
      split at h
      · exact h2 _ _ _ h
      · cases h
        have := h1 _ _ _ e
        exact this

/-- What a camera sees: `view` of the screens minus the corrections, whether it looks up or down. -/
theorem look_eq (o : Optics) (hS : 2 ≤ o.scrn) (g : Geom) (hg : g.scrn = o.scrn) (k : ℚ) (hk : k ≠ 0) (t : ℕ → ℕ → ℕ → ℚ) (corr : List Stack) (w : LinWfs) (hw1 : w.geom = g) (hw2 : w.k = k) :
    ∃ st, o.look g k t corr = .ok st ∧ st.phase.rows = g.nOut ∧ st.phase.cols = g.nOut ∧ ∀ i j, i < g.nOut → j < g.nOut → st.phase.px i j = view o w ((t, 0) - corr.sum) i j := by
  unfold Optics.look
  set c : Cfg := ⟨g.up, g.nOut, o.layerAlts.map (metapupilCoords g), o.dmAlts.map (metapupilCoords g), k, g.scrn⟩ with hc
  set t' := t - corr.sum.1 with ht'
  set m := corr.sum.2 with hm
  obtain ⟨s, hs⟩ := C30_frames_complete c g o.layerAlts o.dmAlts (by omega) rfl rfl rfl blank (some (layers o.scrn o.layerAlts.length t')) (some (layers o.scrn o.dmAlts.length m))
    (by intro x hx; cases hx; exact ⟨by simp [layers], by rw [hg]; exact layers_size _ _ _⟩) (by intro x hx; cases hx; exact ⟨by simp [layers], by rw [hg]; exact layers_size _ _ _⟩)
  have hlen : ∀ alts : List ℚ, ∀ x ∈ alts.map (metapupilCoords g), x.1.length = g.nOut ∧ x.2.length = g.nOut := by
    intro alts x hx
    obtain ⟨h, _, rfl⟩ := List.mem_map.mp hx
    simp [metapupilCoords, linspace]
  refine ⟨s, hs, ?_⟩
  have hsize : s.phase.rows = g.nOut ∧ s.phase.cols = g.nOut := frame_size c _ _ _ _ hs
  refine ⟨hsize.1, hsize.2, fun i j hi hj => ?_⟩
  obtain ⟨v, u, h1, h2, h3, _⟩ := C31_additive c blank s (layers o.scrn o.layerAlts.length t') (some (layers o.scrn o.dmAlts.length m)) hk (hlen o.layerAlts) (hlen o.dmAlts) hs i j hi hj
  rw [h3]
  have e1 := sumOfLayers_eq o.scrn _ g o.layerAlts t' rfl i j v h1
  have e2 := sumOfLayers_eq o.scrn _ g o.dmAlts m rfl i j u h2
  unfold view
  rw [hw1, hw2]
  change k * (v - u) = _
  rw [e1, e2, sub_eq_add_neg, ← Finset.sum_neg_distrib]
  congr 2
  refine Finset.sum_congr rfl fun l _ => ?_
  have := bil_lin o.scrn (metapupilCoords g (o.dmAlts.getD l 0)) (-1) (m l) (fun _ _ => 0) i j
  rw [bil_zero, add_zero, neg_one_mul] at this
  rw [← this]
  congr 1
  funext x y
  simp [hm]

/-! ### Turbulence that the mirrors can make -/

/-- Every mirror is conjugated to a layer, mirror `k` to layer `lam k`: they are at the same altitude.  (Several mirrors may be conjugated to one layer.) -/
def Conjugate (o : Optics) (n : ℕ) (lam : ℕ → ℕ) : Prop :=
  ∀ k < n, k < o.dmAlts.length ∧ lam k < o.layerAlts.length ∧ o.layerAlts.getD (lam k) 0 = o.dmAlts.getD k 0

/-- The mirrors, with the commands `c`, make what the layers show: each layer shows the sum of the surfaces (`dmFrame`) of the mirrors conjugated to it, and layers without a mirror show nothing. -/
def Makes (o : Optics) (dms : List Persist.Dm) (lam : ℕ → ℕ) (c : List ℚ) (t : ℕ → ℕ → ℕ → ℚ) : Prop :=
  c.length = (dms.map fun d => d.shapes.length).sum ∧ ∃ a : ℕ → Arr2,
    (∀ k d, dms[k]? = some d → dmFrame o.scrn d.nElem 0 d.shapes (zero2 o.scrn) (slice c ((dms.take k).map fun d => d.shapes.length).sum (((dms.take k).map fun d => d.shapes.length).sum + d.shapes.length)) = .ok (a k)) ∧
    ∀ l i j, l < o.layerAlts.length → i < o.scrn → j < o.scrn → t l i j = ∑ k ∈ (Finset.range dms.length).filter fun k => lam k = l, (a k).px i j

private theorem take_sum_le (dms : List Persist.Dm) (k : ℕ) (d : Persist.Dm) (h : dms[k]? = some d) :
    ((dms.take k).map fun d => d.shapes.length).sum + d.shapes.length ≤ (dms.map fun d => d.shapes.length).sum := by
  obtain ⟨hk, rfl⟩ := List.getElem?_eq_some_iff.mp h
  conv_rhs => rw [← List.take_append_drop k dms, List.map_append, List.sum_append, List.drop_eq_getElem_cons hk, List.map_cons, List.sum_cons]
  omega

private theorem makes_sum (o : Optics) (dms : List Persist.Dm) (heven : ∀ (k : ℕ) (d : Persist.Dm), dms[k]? = some d → (o.scrn + d.nElem) % 2 = 0) (hkept : ∀ d ∈ dms, d.shapes ≠ []) (c : List ℚ)
    (hc : c.length = (dms.map fun d => d.shapes.length).sum) (a : ℕ → Arr2)
    (ha : ∀ k d, dms[k]? = some d → dmFrame o.scrn d.nElem 0 d.shapes (zero2 o.scrn) (slice c ((dms.take k).map fun d => d.shapes.length).sum (((dms.take k).map fun d => d.shapes.length).sum + d.shapes.length)) = .ok (a k)) :
    ∑ p ∈ Finset.range (dms.map fun d => d.shapes.length).sum, c.getD p 0 • shapeAt o 0 dms p = ∑ k ∈ Finset.range dms.length, slot o.scrn k (a k) := by
  have hg : (List.replicate dms.length (0 : ℚ)).length = dms.length := by simp
  have hval := controls_valid dms (List.replicate dms.length 0) hg
  have hfirst : ∀ k, firstCommand (controls dms (List.replicate dms.length 0)) k = ((dms.take k).map fun d => d.shapes.length).sum := by
    intro k
    rw [firstCommand, List.map_take, List.map_take, hval]
  have hlen : (controls dms (List.replicate dms.length (0 : ℚ))).length = dms.length := by simp [controls]
  have key := sum_blocks_shape (shapeAt o 0 dms) c (controls dms (List.replicate dms.length 0)) 0 ((List.range dms.length).map fun k => slot o.scrn k (a k)) (by simp [hlen]) (by
    intro k m hk
    obtain ⟨d, hd, hv, _, _⟩ := controls_get dms _ hg k m hk
    have hkl : k < dms.length := (List.getElem?_eq_some_iff.mp hd).1
    rw [List.getElem?_map, List.getElem?_range hkl, Option.map_some, Option.some.injEq]
    have hle := take_sum_le dms k d hd
    obtain ⟨x, x1, x2⟩ := surface_ok o k d (heven k d hd) (hkept d (List.mem_of_getElem? hd)) (slice c ((dms.take k).map fun d => d.shapes.length).sum (((dms.take k).map fun d => d.shapes.length).sum + d.shapes.length))
      (by unfold slice; rw [List.length_drop, List.length_take]; omega)
    rw [ha k d hd, Except.ok.injEq] at x1
    rw [x1, x2, hv]
    refine Finset.sum_congr rfl fun j hj => ?_
    rw [Finset.mem_range] at hj
    rw [Nat.zero_add, hfirst, shapeAt_get o dms 0 k d j hd hj, Nat.zero_add]
    congr 1
    unfold slice
    rw [List.getD_eq_getElem?_getD, List.getElem?_drop, List.getElem?_take, if_pos (by omega), List.getD_eq_getElem?_getD])
  simp only [Nat.zero_add] at key
  rw [show nCommands (controls dms (List.replicate dms.length 0)) = (dms.map fun d => d.shapes.length).sum by rw [nCommands, hval]] at key
  rw [← key]
  rfl

/-- For all commands there is turbulence that the mirrors make with them. -/
theorem Makes.exists (o : Optics) (dms : List Persist.Dm) (heven : ∀ (k : ℕ) (d : Persist.Dm), dms[k]? = some d → (o.scrn + d.nElem) % 2 = 0) (hkept : ∀ d ∈ dms, d.shapes ≠ []) (lam : ℕ → ℕ) (c : List ℚ)
    (hc : c.length = (dms.map fun d => d.shapes.length).sum) : ∃ t, Makes o dms lam c t := by
  have : ∀ k, ∃ a, ∀ d, dms[k]? = some d → dmFrame o.scrn d.nElem 0 d.shapes (zero2 o.scrn) (slice c ((dms.take k).map fun d => d.shapes.length).sum (((dms.take k).map fun d => d.shapes.length).sum + d.shapes.length)) = .ok a := by
    intro k
    cases h : dms[k]? with
    | none => exact ⟨zero2 0, by simp⟩
    | some d =>
      have hle := take_sum_le dms k d h
      obtain ⟨a, ha, _⟩ := surface_ok o k d (heven k d h) (hkept d (List.mem_of_getElem? h)) (slice c ((dms.take k).map fun d => d.shapes.length).sum (((dms.take k).map fun d => d.shapes.length).sum + d.shapes.length))
        (by unfold slice; rw [List.length_drop, List.length_take]; omega)
      exact ⟨a, fun d' hd' => by cases hd'; exact ha⟩
  choose a ha using this
  exact ⟨fun l i j => ∑ k ∈ (Finset.range dms.length).filter fun k => lam k = l, (a k).px i j, hc, a, ha, fun _ _ _ _ _ _ => rfl⟩

theorem view_sum (o : Optics) (w : LinWfs) {ι : Type} (s : Finset ι) (f : ι → Stack) (i j : ℕ) : view o w (∑ k ∈ s, f k) i j = ∑ k ∈ s, view o w (f k) i j := by
  classical
  induction s using Finset.induction_on with
  | empty =>
    rw [Finset.sum_empty, Finset.sum_empty]
    have := view_lin o w 1 0 0 i j
    simp only [smul_zero, add_zero, one_mul] at this
    linarith
  | insert a s ha ih =>
    have := view_lin o w 1 (f a) (∑ k ∈ s, f k) i j
    rw [one_smul, one_mul] at this
    rw [Finset.sum_insert ha, Finset.sum_insert ha, this, ih]

/-- Nothing is left of what the mirrors make, in any direction. -/
theorem makes_view (o : Optics) (dms : List Persist.Dm) (heven : ∀ (k : ℕ) (d : Persist.Dm), dms[k]? = some d → (o.scrn + d.nElem) % 2 = 0) (hkept : ∀ d ∈ dms, d.shapes ≠ []) (lam : ℕ → ℕ) (hconj : Conjugate o dms.length lam) (c : List ℚ)
    (t : ℕ → ℕ → ℕ → ℚ) (hm : Makes o dms lam c t) (w : LinWfs) (i j : ℕ) :
    view o w (t, 0) i j = ∑ p ∈ Finset.range (dms.map fun d => d.shapes.length).sum, c.getD p 0 * view o w (shapeAt o 0 dms p) i j := by
  obtain ⟨hc, a, ha, ht⟩ := hm
  have e : ∑ p ∈ Finset.range (dms.map fun d => d.shapes.length).sum, c.getD p 0 * view o w (shapeAt o 0 dms p) i j = ∑ k ∈ Finset.range dms.length, view o w (slot o.scrn k (a k)) i j := by
    rw [← view_sum o w (Finset.range dms.length) (fun k => slot o.scrn k (a k)), ← makes_sum o dms heven hkept c hc a ha, view_sum]
    refine Finset.sum_congr rfl fun p _ => ?_
    have := view_lin o w (c.getD p 0) (shapeAt o 0 dms p) 0 i j
    have z := view_lin o w 1 0 0 i j
    simp only [smul_zero, add_zero, one_mul] at z this
    linarith
  rw [e]
  -- a mirror alone
  have one : ∀ k ∈ Finset.range dms.length, view o w (slot o.scrn k (a k)) i j = w.k * bil o.scrn (metapupilCoords w.geom (o.layerAlts.getD (lam k) 0)) (a k).px i j := by
    intro k hk
    obtain ⟨k1, k2, k3⟩ := hconj k (Finset.mem_range.mp hk)
    unfold view
    congr 1
    rw [Finset.sum_eq_zero fun l _ => show bil o.scrn (metapupilCoords w.geom (o.layerAlts.getD l 0)) ((slot o.scrn k (a k)).1 l) i j = 0 from bil_zero _ _ _ _, zero_add,
      Finset.sum_eq_single k (fun l _ hl => ?_) (fun h => absurd (Finset.mem_range.mpr k1) h), k3]
    · refine bil_congr _ _ _ _ (fun x y hx hy => ?_) i j
      simp [slot, hx, hy]
    · have : (slot o.scrn k (a k)).2 l = fun _ _ => 0 := by
        funext x y
        simp [slot, hl]
      rw [this, bil_zero]
  rw [Finset.sum_congr rfl one, ← Finset.mul_sum]
  unfold view
  congr 1
  rw [Finset.sum_eq_zero (s := Finset.range o.dmAlts.length) fun l _ => show bil o.scrn (metapupilCoords w.geom (o.dmAlts.getD l 0)) ((0 : ℕ → ℕ → ℕ → ℚ) l) i j = 0 from bil_zero _ _ _ _, add_zero]
  rw [← Finset.sum_fiberwise_of_maps_to (s := Finset.range dms.length) (t := Finset.range o.layerAlts.length) (g := lam) fun k hk => Finset.mem_range.mpr (hconj k (Finset.mem_range.mp hk)).2.1]
  refine Finset.sum_congr rfl fun l hl => ?_
  rw [Finset.mem_range] at hl
  rw [bil_congr o.scrn _ (t l) (fun x y => ∑ k ∈ (Finset.range dms.length).filter fun k => lam k = l, (a k).px x y) (fun x y hx hy => ht l x y hl hx hy), bil_sum]
  refine Finset.sum_congr rfl fun k hk => ?_
  rw [(Finset.mem_filter.mp hk).2]

theorem makes_measAt (o : Optics) (dms : List Persist.Dm) (heven : ∀ (k : ℕ) (d : Persist.Dm), dms[k]? = some d → (o.scrn + d.nElem) % 2 = 0) (hkept : ∀ d ∈ dms, d.shapes ≠ []) (lam : ℕ → ℕ) (hconj : Conjugate o dms.length lam) (c : List ℚ)
    (t : ℕ → ℕ → ℕ → ℚ) (hm : Makes o dms lam c t) (ws : List LinWfs) (m : ℕ) :
    measAt o ws (t, 0) m = ∑ p ∈ Finset.range (dms.map fun d => d.shapes.length).sum, c.getD p 0 * measAt o ws (shapeAt o 0 dms p) m := by
  induction ws generalizing m with
  | nil => simp [measAt]
  | cons w ws ih =>
    simp only [measAt]
    split_ifs
    · unfold seen
      simp only [makes_view o dms heven hkept lam hconj c t hm w, Finset.mul_sum]
      rw [Finset.sum_congr rfl fun i _ => Finset.sum_comm, Finset.sum_comm]
      exact Finset.sum_congr rfl fun p _ => Finset.sum_congr rfl fun i _ => Finset.sum_congr rfl fun j _ => by ring
    · exact ih _

/-! ### Small phases in the reports of a camera -/

theorem gridWfe_small (n : ℕ) (m phi : ℕ → ℕ → ℝ) (ρ b : ℝ) (hb : 0 ≤ b) (h01 : ∀ j k, m j k = 0 ∨ m j k = 1) (hpos : 0 < ∑ j ∈ Finset.range n, ∑ k ∈ Finset.range n, m j k) (hρ : ρ ≠ 0)
    (h : ∀ j k, j < n → k < n → |phi j k| ≤ b) : Report.gridWfe n m phi ρ ≤ b / |ρ| := by
  have e : ∑ p : Fin n × Fin n, m p.1 p.2 = ∑ j ∈ Finset.range n, ∑ k ∈ Finset.range n, m j k := by
    rw [Fintype.sum_prod_type, Finset.sum_range]
    exact Finset.sum_congr rfl fun j _ => (Finset.sum_range fun k => m j k).symm
  have hM : 0 < ∑ p : Fin n × Fin n, m p.1 p.2 := by rw [e]; exact hpos
  refine le_trans (C46_least_squares (fun p : Fin n × Fin n => m p.1 p.2) (fun p => phi p.1 p.2) ρ 0 (fun _ => h01 _ _) hM) ?_
  refine Real.sqrt_le_iff.mpr ⟨by positivity, ?_⟩
  rw [div_le_iff₀ hM, Finset.mul_sum]
  refine Finset.sum_le_sum fun p _ => ?_
  have h0 : 0 ≤ m p.1 p.2 := by rcases h01 p.1 p.2 with h | h <;> rw [h]; exact zero_le_one
  have : (phi p.1 p.2 / ρ - 0) ^ 2 ≤ (b / |ρ|) ^ 2 := by
    rw [sub_zero, ← sq_abs (phi p.1 p.2 / ρ), abs_div]
    exact pow_le_pow_left₀ (by positivity) (div_le_div_of_nonneg_right (h p.1 p.2 p.1.2 p.2.2) (abs_nonneg _)) 2
  rw [mul_comm]
  exact mul_le_mul_of_nonneg_right this h0

theorem interpPhase_small (a : Arr2) (P pad F : ℕ) (e : ℚ) (he : 0 ≤ e) (hr : 2 ≤ a.rows) (hc : a.cols = a.rows) (h : ∀ i j, i < a.rows → j < a.cols → |a.px i j| ≤ e) :
    ∃ waves, Plate.interpPhase a P pad F = .ok waves ∧ ∀ i j, |(waves.getD i []).getD j 0| ≤ e := by
  have hr' : (2 : ℚ) ≤ a.rows := by exact_mod_cast hr
  have hco : ∀ x ∈ Plate.interpCoords P pad a.rows F, 0 ≤ x ∧ x < (a.rows : ℚ) - 1 := by
    intro x hx
    obtain ⟨y, _, rfl⟩ := List.mem_map.mp hx
    unfold clip
    exact ⟨le_min (le_max_right _ _) (by linarith), lt_of_le_of_lt (min_le_right _ _) (by linarith)⟩
  have one : ∀ x y, ∃ v, x ∈ Plate.interpCoords P pad a.rows F → y ∈ Plate.interpCoords P pad a.rows F → interpVal false a x y = .ok v ∧ |v| ≤ e := by
    intro x y
    by_cases hx : x ∈ Plate.interpCoords P pad a.rows F
    · by_cases hy : y ∈ Plate.interpCoords P pad a.rows F
      · obtain ⟨v, i, j, h1, hi, hj, _, _, _, _, h2, h3⟩ := C29_safe false a x y (hco x hx) (by rw [hc]; exact hco y hy)
        refine ⟨v, fun _ _ => ⟨h1, abs_le.mpr ⟨le_trans ?_ h2, le_trans h3 ?_⟩⟩⟩
        · exact le_min (le_min (abs_le.mp (h _ _ (by omega) (by omega))).1 (abs_le.mp (h _ _ (by omega) (by omega))).1) (le_min (abs_le.mp (h _ _ (by omega) (by omega))).1 (abs_le.mp (h _ _ (by omega) (by omega))).1)
        · exact max_le (max_le (abs_le.mp (h _ _ (by omega) (by omega))).2 (abs_le.mp (h _ _ (by omega) (by omega))).2) (max_le (abs_le.mp (h _ _ (by omega) (by omega))).2 (abs_le.mp (h _ _ (by omega) (by omega))).2)
      · exact ⟨0, fun _ h => absurd h hy⟩
    · exact ⟨0, fun h => absurd h hx⟩
  choose v hv using one
  refine ⟨(Plate.interpCoords P pad a.rows F).map fun x => (Plate.interpCoords P pad a.rows F).map fun y => v x y, ?_, fun i j => ?_⟩
  · unfold Plate.interpPhase interp
    exact mapM_ok _ _ _ fun x hx => mapM_ok _ _ _ fun y hy => (hv x y hx hy).1
  · rw [List.getD_eq_getElem?_getD, List.getD_eq_getElem?_getD, List.getElem?_map]
    cases hi : (Plate.interpCoords P pad a.rows F)[i]? with
    | none => simpa using he
    | some x =>
      rw [Option.map_some, Option.getD_some, List.getElem?_map]
      cases hj : (Plate.interpCoords P pad a.rows F)[j]? with
      | none => simpa using he
      | some y => exact (hv x y (List.mem_of_getElem? hi) (List.mem_of_getElem? hj)).2

/-! ### The whole simulation -/

theorem noisy_zero (o : Optics) (turb : ℕ → ℕ → ℕ → ℕ → ℚ) : o.noisyPlant turb (fun _ _ => 0) = o.plant turb := by
  unfold Optics.noisyPlant
  congr 1
  funext s i corr
  cases h : (o.plant turb).sense () i corr with
  | error e => exact h.symm
  | ok r =>
    simp only [add_zero]
    have : r.2.mapIdx (fun _ x => x) = r.2 := by
      refine List.ext_getElem (by simp) fun q h1 h2 => ?_
      simp
    rw [this]
    exact h.symm

theorem lag_combo (d n : ℕ) (gn : ℕ → ℚ) (hgn : ∀ p, p < n → StableGain d (gn p)) (N : ℕ) (R : ℕ → ℕ → ℕ → ℚ) : ∃ K : ℚ, ∀ (a : ℕ → ℕ → ℚ) (δ : ℚ), 0 < δ → (∀ p, p < n → |a p 0| ≤ δ) →
    (∀ p i, p < n → |a p (i + 1) - a p i| ≤ δ) → ∀ i x y, x < N → y < N → |∑ p ∈ Finset.range n, lag d (gn p) (a p) (fun _ => 0) i * R p x y| ≤ K * δ := by
  have hb : ∀ p, ∃ K, p < n → StaysBelow d (gn p) K := by
    intro p
    by_cases hp : p < n
    · obtain ⟨K, hK⟩ := (C110_exact d (gn p)).mpr (hgn p hp)
      exact ⟨K, fun _ => hK⟩
    · exact ⟨0, fun h => absurd h hp⟩
  choose B hB using hb
  refine ⟨∑ p ∈ Finset.range n, B p * ∑ x ∈ Finset.range N, ∑ y ∈ Finset.range N, |R p x y|, fun a δ hδ h0 hch i x y hx hy => ?_⟩
  rw [Finset.sum_mul]
  refine le_trans (Finset.abs_sum_le_sum_abs _ _) (Finset.sum_le_sum fun p hp => ?_)
  rw [Finset.mem_range] at hp
  rw [abs_mul]
  have e1 : |lag d (gn p) (a p) (fun _ => 0) i| ≤ B p * δ := StaysBelow.scaled (hB p hp) δ hδ (a p) (fun _ => 0) (h0 p hp) (fun q => hch p q hp) (fun _ => by simpa using le_of_lt hδ) i
  have e0 : 0 ≤ B p * δ := le_trans (abs_nonneg _) e1
  have e2 : |R p x y| ≤ ∑ x ∈ Finset.range N, ∑ y ∈ Finset.range N, |R p x y| :=
    le_trans (Finset.single_le_sum (f := fun y => |R p x y|) (fun y _ => abs_nonneg _) (Finset.mem_range.mpr hy))
      (Finset.single_le_sum (f := fun x => ∑ y ∈ Finset.range N, |R p x y|) (fun x _ => Finset.sum_nonneg fun y _ => abs_nonneg _) (Finset.mem_range.mpr hx))
  have := mul_le_mul e1 e2 (abs_nonneg _) e0
  linarith [mul_right_comm (B p) δ (∑ x ∈ Finset.range N, ∑ y ∈ Finset.range N, |R p x y|)]

theorem leftOver_zero_start (d : ℕ) (g : ℚ) (m : ℕ) : leftOver d g 0 m = 0 := by
  induction m using Nat.strong_induction_on with
  | _ m ih =>
    cases m with
    | zero => rw [leftOver]
    | succ n =>
      rw [leftOver, ih n (by omega), ih (n - d) (by omega)]
      simp

variable (o : Optics) (ho : Optics.Sound o) (totalActs : ℕ) (dms dms' : List Persist.Dm) (M : List (List ℚ)) (hcal : o.calibrate totalActs dms = .ok (dms', M))
    (hne : dms ≠ []) (hdms : ∀ d ∈ dms, d.shapes.length = d.nActs ∧ (o.scrn + d.nElem) % 2 = 0) (hkept : ∀ d ∈ dms', d.shapes ≠ [])
    (P : List (List ℚ)) (hrows : P.length = o.totalMeas) (hcols : ∀ r ∈ P, r.length = M.length) (hinv : Undoes P M)
    (gains : List ℚ) (hg : gains.length = dms.length) (d nIters nActs : ℕ) (hN : 1 ≤ nIters) (saveSlopes saveDm : Bool) (hstore : saveDm = true → nActs = M.length)

include ho hcal hne hdms hkept hrows hcols hinv hg hN hstore

omit hne hcols hN hstore in
/-- **C155 (the control matrix finds the commands).** If the mirrors could make what the layers show with the commands `c`, the control matrix reconstructs `c` from the measurements without mirrors. -/
theorem C155_finds (lam : ℕ → ℕ) (hconj : Conjugate o dms'.length lam) (c : List ℚ) (t : ℕ → ℕ → ℕ → ℚ) (hm : Makes o dms' lam c t) (p : ℕ) (hp : p < M.length) :
    reconstructed P (o.uncorrected t) p = c.getD p 0 ∧ ∀ m, m < o.totalMeas → (o.uncorrected t).getD m 0 = ∑ p ∈ Finset.range M.length, c.getD p 0 * (M.getD p []).getD m 0 := by
  obtain ⟨hl, hML, hrow⟩ := calibrate_rows o ho totalActs dms dms' M hcal hdms
  have hg' : gains.length = dms'.length := by omega
  have hval := controls_valid dms' gains hg'
  have hnC : nCommands (controls dms' gains) = M.length := by rw [nCommands, hval, hML]
  have hfirst : ∀ k, firstCommand (controls dms' gains) k = ((dms'.take k).map fun d => d.shapes.length).sum := by
    intro k
    rw [firstCommand, List.map_take, List.map_take, hval]
  have hsh : ∀ p, p < M.length → ∀ m, m < o.totalMeas → senses o (shapeAt o 0 dms' p) m = (M.getD p []).getD m 0 := by
    intro p hp m hm
    obtain ⟨⟨k, j⟩, ⟨c, hk, hj, hpe⟩, _⟩ := C11_blocks_partition (controls dms' gains) p (by omega)
    dsimp only at hk hj hpe
    obtain ⟨d', hd', hv, _, _⟩ := controls_get dms' gains hg' k c hk
    rw [hpe, hfirst, shapeAt_get o dms' 0 k d' j hd' (by omega), (hrow k d' hd').2 j (by omega) m hm, Nat.zero_add]
  have hunc : ∀ m, m < o.totalMeas → (o.uncorrected t).getD m 0 = ∑ p ∈ Finset.range M.length, c.getD p 0 * (M.getD p []).getD m 0 := by
    intro m hm'
    rw [uncorrected_get o ho, List.getD_eq_getElem?_getD, List.getElem?_map, List.getElem?_range hm', Option.map_some, Option.getD_some, senses_apply,
      makes_measAt o dms' (fun k d h => (hrow k d h).1) hkept lam hconj c t hm, hML]
    refine Finset.sum_congr rfl fun p hp => ?_
    rw [Finset.mem_range, ← hML] at hp
    rw [← senses_apply, hsh p hp m hm']
  refine ⟨?_, hunc⟩
  rw [reconstructed, hrows, Finset.sum_congr rfl fun m hm => by rw [hunc m (Finset.mem_range.mp hm), Finset.mul_sum], Finset.sum_comm]
  have : ∀ q ∈ Finset.range M.length, ∑ m ∈ Finset.range o.totalMeas, (P.getD m []).getD p 0 * (c.getD q 0 * (M.getD q []).getD m 0) = if q = p then c.getD p 0 else 0 := by
    intro q hq
    have := hinv q p (Finset.mem_range.mp hq) hp
    rw [hrows] at this
    rw [Finset.sum_congr rfl fun m _ => show (P.getD m []).getD p 0 * (c.getD q 0 * (M.getD q []).getD m 0) = c.getD q 0 * ((M.getD q []).getD m 0 * (P.getD m []).getD p 0) by ring, ← Finset.mul_sum, this]
    split_ifs with h
    · rw [h, mul_one]
    · rw [mul_zero]
  rw [Finset.sum_congr rfl this, Finset.sum_ite_eq' (Finset.range M.length) p, if_pos (Finset.mem_range.mpr hp)]

/-- **C155 (what is left).** For every camera there are numbers, one for every actuator and pixel: in every run with turbulence that the mirrors could make, with any noise in the measurements, the camera's frame completes, and what it sees in a pixel is the sum over the
actuators of the lag of its command times its number. The lag is that of C110: it depends on the course of the command that is wanted, on delay and gain, and on the noise. -/
theorem C155_left (lam : ℕ → ℕ) (hconj : Conjugate o dms'.length lam) (g : Geom) (hgs : g.scrn = o.scrn) (k : ℚ) (hk : k ≠ 0) :
    ∃ R : ℕ → ℕ → ℕ → ℚ, ∀ (n : ℕ) (turb : ℕ → ℕ → ℕ → ℕ → ℚ) (c : ℕ → List ℚ) (err : ℕ → ℕ → ℚ), (∀ i, Makes o dms' lam (c i) (turb i)) →
    ∃ s' ts, runLoop (o.sys dms' P d nIters saveSlopes saveDm) (o.noisyPlant turb err) (initial (o.sys dms' P d nIters saveSlopes saveDm) (controls dms' gains) o.totalMeas nActs ()) (List.replicate n (controls dms' gains)) = .ok (s', ts) ∧
      ts.length = n ∧ ∀ (i : ℕ) (t : Trace Stack), ts[i]? = some t → ∃ st, o.look g k (turb i) t.seenBySci = .ok st ∧ st.phase.rows = g.nOut ∧ st.phase.cols = g.nOut ∧
        ∀ x y, x < g.nOut → y < g.nOut → st.phase.px x y =
          ∑ p ∈ Finset.range M.length, lag d (gainOf (controls dms' gains) p) (fun q => (c q).getD p 0) (fun q => ∑ m ∈ Finset.range o.totalMeas, (P.getD m []).getD p 0 * err q m) i * R p x y := by
  set w : LinWfs := ⟨g, k, 0, fun _ _ _ => 0⟩ with hw
  obtain ⟨hl, hML, hrow⟩ := calibrate_rows o ho totalActs dms dms' M hcal hdms
  refine ⟨fun p x y => view o w (shapeAt o 0 dms' p) x y, fun n turb c err hm => ?_⟩
  obtain ⟨s', ts, h1, h2, h3⟩ := whole_any o ho totalActs dms dms' M hcal hne hdms hkept P hrows hcols hinv gains hg d nIters nActs n hN saveSlopes saveDm hstore turb (o.noisyPlant turb err) err (noisy_sense o ho turb err)
  refine ⟨s', ts, h1, h2, fun i t ht => ?_⟩
  obtain ⟨a1, _, a3, a4⟩ := h3 i t ht
  obtain ⟨st, b1, b2, b3, b4⟩ := look_eq o ho.1 g hgs k hk (turb i) t.seenBySci w rfl rfl
  refine ⟨st, b1, b2, b3, fun x y hx hy => ?_⟩
  have hrec : ∀ q p, p < M.length → reconstructed P (o.uncorrected (turb q)) p = (c q).getD p 0 := fun q p hp =>
    (C155_finds o ho totalActs dms dms' M hcal hdms hkept P hrows hinv gains hg lam hconj (c q) (turb q) (hm q) p hp).1
  have hv : view o w ((turb i, 0) - t.seenBySci.sum) x y = view o w (turb i, 0) x y - view o w t.seenBySci.sum x y := by
    have := view_lin o w (-1) t.seenBySci.sum (turb i, 0) x y
    rw [neg_one_smul, neg_one_mul, neg_add_eq_sub, neg_add_eq_sub] at this
    exact this
  rw [b4 x y hx hy, hv, a4, a3, view_sum, makes_view o dms' (fun k d h => (hrow k d h).1) hkept lam hconj (c i) (turb i) (hm i) w, ← hML, ← Finset.sum_sub_distrib]
  refine Finset.sum_congr rfl fun p hp => ?_
  rw [Finset.mem_range] at hp
  have e := view_lin o w (t.cmds.getD p 0) (shapeAt o 0 dms' p) 0 x y
  have z := view_lin o w 1 0 0 x y
  simp only [smul_zero, add_zero, one_mul] at z e
  have z' : view o w 0 x y = 0 := by linarith
  rw [z', add_zero] at e
  rw [e, show t.cmds.getD p 0 = _ by rw [List.getD_eq_getElem?_getD, a1 p hp, Option.getD_some], hrec i p hp, show (fun q => reconstructed P (o.uncorrected (turb q)) p) = fun q => (c q).getD p 0 from funext fun q => hrec q p hp]
  ring

/-- **C155 (nulls).** If the layers stand still and show what the mirrors could make, what a camera sees in any direction comes and stays as close to zero as one likes, for all gains for which the loop is stable. -/
theorem C155_nulls (hgains : ∀ g ∈ gains, StableGain d g) (lam : ℕ → ℕ) (hconj : Conjugate o dms'.length lam) (c : List ℚ) (still : ℕ → ℕ → ℕ → ℚ) (hm : Makes o dms' lam c still) (g : Geom) (hgs : g.scrn = o.scrn) (k : ℚ) (hk : k ≠ 0)
    (ε : ℚ) (hε : 0 < ε) :
    ∃ K, ∀ n, ∃ s' ts, runLoop (o.sys dms' P d nIters saveSlopes saveDm) (o.plant fun _ => still) (initial (o.sys dms' P d nIters saveSlopes saveDm) (controls dms' gains) o.totalMeas nActs ()) (List.replicate n (controls dms' gains)) = .ok (s', ts) ∧
      ts.length = n ∧ ∀ (i : ℕ) (t : Trace Stack), K ≤ i → ts[i]? = some t → ∃ st, o.look g k still t.seenBySci = .ok st ∧ st.phase.rows = g.nOut ∧ st.phase.cols = g.nOut ∧
        ∀ x y, x < g.nOut → y < g.nOut → |st.phase.px x y| < ε := by
  obtain ⟨R, hR⟩ := C155_left o ho totalActs dms dms' M hcal hne hdms hkept P hrows hcols hinv gains hg d nIters nActs hN saveSlopes saveDm hstore lam hconj g hgs k hk
  have hset : ∀ p, p < M.length → Settles (leftOver d (gainOf (controls dms' gains) p) (c.getD p 0)) := fun p hp => by
    by_cases h0 : c.getD p 0 = 0
    · rw [h0]
      intro ε hε
      refine ⟨0, fun n _ => ?_⟩
      rw [leftOver_zero_start, abs_zero]
      exact hε
    · exact (C79_exact d _ _ h0).mpr (hgains _ (gainOf_mem o ho totalActs dms dms' M hcal hdms gains hg p hp))
  obtain ⟨K, hK⟩ := settles_all (g.nOut * g.nOut) (fun q i => ∑ p ∈ Finset.range M.length, leftOver d (gainOf (controls dms' gains) p) (c.getD p 0) i * R p (q / g.nOut) (q % g.nOut))
    (fun q _ => settles_sum M.length (fun p => leftOver d (gainOf (controls dms' gains) p) (c.getD p 0)) (fun p => R p (q / g.nOut) (q % g.nOut)) hset) ε hε
  refine ⟨K, fun n => ?_⟩
  obtain ⟨s', ts, h1, h2, h3⟩ := hR n (fun _ => still) (fun _ => c) (fun _ _ => 0) fun _ => hm
  rw [noisy_zero] at h1
  refine ⟨s', ts, h1, h2, fun i t hi ht => ?_⟩
  obtain ⟨st, b1, b2, b3, b4⟩ := h3 i t ht
  refine ⟨st, b1, b2, b3, fun x y hx hy => ?_⟩
  rw [b4 x y hx hy]
  have hq : x * g.nOut + y < g.nOut * g.nOut := by nlinarith
  have := hK i hi (x * g.nOut + y) hq
  have hpos : 0 < g.nOut := by omega
  rw [Nat.mul_comm x, Nat.mul_add_div hpos, Nat.div_eq_of_lt hy, Nat.mul_add_mod, Nat.mod_eq_of_lt hy, Nat.add_zero] at this
  simp only [mul_zero, Finset.sum_const_zero, lag_static]
  exact this

/-- **C155 (follows).** If the layers move, in every frame showing what the mirrors could make, and the commands that would be needed start within `δ` and change by at most `δ` per frame, what a camera sees stays below a constant times `δ` in all frames;
the constant does not depend on the turbulence or the length of the run. -/
theorem C155_follows (hgains : ∀ g ∈ gains, StableGain d g) (lam : ℕ → ℕ) (hconj : Conjugate o dms'.length lam) (g : Geom) (hgs : g.scrn = o.scrn) (k : ℚ) (hk : k ≠ 0) :
    ∃ K : ℚ, ∀ (turb : ℕ → ℕ → ℕ → ℕ → ℚ) (c : ℕ → List ℚ) (δ : ℚ), 0 < δ → (∀ i, Makes o dms' lam (c i) (turb i)) → (∀ p, p < M.length → |(c 0).getD p 0| ≤ δ) → (∀ p i, p < M.length → |(c (i + 1)).getD p 0 - (c i).getD p 0| ≤ δ) → ∀ n,
    ∃ s' ts, runLoop (o.sys dms' P d nIters saveSlopes saveDm) (o.plant turb) (initial (o.sys dms' P d nIters saveSlopes saveDm) (controls dms' gains) o.totalMeas nActs ()) (List.replicate n (controls dms' gains)) = .ok (s', ts) ∧
      ts.length = n ∧ ∀ (i : ℕ) (t : Trace Stack), ts[i]? = some t → ∃ st, o.look g k (turb i) t.seenBySci = .ok st ∧ ∀ x y, x < g.nOut → y < g.nOut → |st.phase.px x y| ≤ K * δ := by
  obtain ⟨R, hR⟩ := C155_left o ho totalActs dms dms' M hcal hne hdms hkept P hrows hcols hinv gains hg d nIters nActs hN saveSlopes saveDm hstore lam hconj g hgs k hk
  obtain ⟨K, hK⟩ := lag_combo d M.length (gainOf (controls dms' gains)) (fun p hp => hgains _ (gainOf_mem o ho totalActs dms dms' M hcal hdms gains hg p hp)) g.nOut R
  refine ⟨K, fun turb c δ hδ hm h0 hch n => ?_⟩
  obtain ⟨s', ts, h1, h2, h3⟩ := hR n turb c (fun _ _ => 0) hm
  rw [noisy_zero] at h1
  refine ⟨s', ts, h1, h2, fun i t ht => ?_⟩
  obtain ⟨st, b1, _, _, b4⟩ := h3 i t ht
  refine ⟨st, b1, fun x y hx hy => ?_⟩
  have := hK (fun p q => (c q).getD p 0) δ hδ h0 hch i x y hx hy
  rw [b4 x y hx hy]
  simp only [mul_zero, Finset.sum_const_zero]
  exact this

/-- **C155 (reported).** Then the wavefront error the camera reports comes and stays as close to zero, and its Strehl ratio (with tip-tilt, and so also without) as close to one, as one likes. `m` and `m'` are the mask and the mask zoomed to the `F` elements of the camera, `k` in waves per nm,
`ρ` is `phs2Rad`; the camera has as many pixels as its transform (C119 has other sizes). -/
theorem C155_reports (hgains : ∀ g ∈ gains, StableGain d g) (lam : ℕ → ℕ) (hconj : Conjugate o dms'.length lam) (c : List ℚ) (still : ℕ → ℕ → ℕ → ℚ) (hm : Makes o dms' lam c still) (g : Geom) (hgs : g.scrn = o.scrn) (hn : 2 ≤ g.nOut) (k : ℚ) (hk : k ≠ 0)
    (Pn pad F px : ℕ) (hpx : 0 < px) (hF : F ≤ px) (m m' : ℕ → ℕ → ℝ) (h01 : ∀ i j, m i j = 0 ∨ m i j = 1) (h01' : ∀ i j, m' i j = 0 ∨ m' i j = 1)
    (hpos : 0 < ∑ i ∈ Finset.range g.nOut, ∑ j ∈ Finset.range g.nOut, m i j) (hpos' : 0 < ∑ i ∈ Finset.range F, ∑ j ∈ Finset.range F, m' i j) (ρ : ℝ) (hρ : ρ ≠ 0) (ε : ℝ) (hε : 0 < ε) :
    ∃ K, ∀ n, ∃ s' ts, runLoop (o.sys dms' P d nIters saveSlopes saveDm) (o.plant fun _ => still) (initial (o.sys dms' P d nIters saveSlopes saveDm) (controls dms' gains) o.totalMeas nActs ()) (List.replicate n (controls dms' gains)) = .ok (s', ts) ∧
      ts.length = n ∧ ∀ (i : ℕ) (t : Trace Stack), K ≤ i → ts[i]? = some t → ∃ st waves, o.look g k still t.seenBySci = .ok st ∧ Plate.interpPhase st.phase Pn pad F = .ok waves ∧
        Report.gridWfe g.nOut m (fun i j => 2 * Real.pi * (st.phase.px i j : ℝ)) ρ < ε ∧ 1 - ε < Psf.instStrehlTT px F 0 1 px hpx m' (fun i j => 2 * Real.pi * (((waves.getD i []).getD j 0 : ℚ) : ℝ)) ∧
        Psf.instStrehlTT px F 0 1 px hpx m' (fun i j => 2 * Real.pi * (((waves.getD i []).getD j 0 : ℚ) : ℝ)) ≤ Psf.instStrehl px F 0 1 px hpx m' (fun i j => 2 * Real.pi * (((waves.getD i []).getD j 0 : ℚ) : ℝ)) := by
  have hπ := Real.pi_pos
  obtain ⟨e, he0, he⟩ : ∃ e : ℚ, 0 < e ∧ (e : ℝ) < min (ε * |ρ| / (2 * Real.pi)) (min 1 ε / (2 * Real.pi)) := by
    obtain ⟨e, h1, h2⟩ := exists_rat_btwn (show (0 : ℝ) < min (ε * |ρ| / (2 * Real.pi)) (min 1 ε / (2 * Real.pi)) by
      have := abs_pos.mpr hρ
      have : 0 < min 1 ε := lt_min one_pos hε
      exact lt_min (by positivity) (by positivity))
    exact ⟨e, by exact_mod_cast h1, h2⟩
  obtain ⟨he1, he2⟩ := lt_min_iff.mp he
  rw [lt_div_iff₀ (by positivity)] at he1 he2
  obtain ⟨K, hK⟩ := C155_nulls o ho totalActs dms dms' M hcal hne hdms hkept P hrows hcols hinv gains hg d nIters nActs hN saveSlopes saveDm hstore hgains lam hconj c still hm g hgs k hk e he0
  refine ⟨K, fun n => ?_⟩
  obtain ⟨s', ts, h1, h2, h3⟩ := hK n
  refine ⟨s', ts, h1, h2, fun i t hi ht => ?_⟩
  obtain ⟨st, b1, b2, b3, b4⟩ := h3 i t hi ht
  obtain ⟨waves, w1, w2⟩ := interpPhase_small st.phase Pn pad F e he0.le (by omega) (by omega) fun x y hx hy => (b4 x y (by omega) (by omega)).le
  have he0' : (0 : ℝ) < e := by exact_mod_cast he0
  refine ⟨st, waves, b1, w1, ?_, ?_⟩
  · refine lt_of_le_of_lt (gridWfe_small g.nOut m _ ρ (2 * Real.pi * e) (by positivity) h01 hpos hρ fun x y hx hy => ?_) ((div_lt_iff₀ (abs_pos.mpr hρ)).mpr (by linarith))
    rw [abs_mul, abs_of_pos (by positivity : 0 < 2 * Real.pi)]
    refine mul_le_mul_of_nonneg_left ?_ (by positivity)
    have := (b4 x y hx hy).le
    have h : ((|st.phase.px x y| : ℚ) : ℝ) ≤ e := by exact_mod_cast this
    rwa [Rat.cast_abs] at h
  · obtain ⟨l1, l2⟩ := C119_lower_partial F px hpx hF m' (fun i j => 2 * Real.pi * (((waves.getD i []).getD j 0 : ℚ) : ℝ)) h01' hpos' 1 one_ne_zero
    refine ⟨lt_of_lt_of_le ?_ l1, l2⟩
    have hw := gridWfe_small F m' (fun i j => 2 * Real.pi * (((waves.getD i []).getD j 0 : ℚ) : ℝ)) 1 (2 * Real.pi * e) (by positivity) h01' hpos' one_ne_zero fun x y _ _ => by
      rw [abs_mul, abs_of_pos (by positivity : 0 < 2 * Real.pi)]
      refine mul_le_mul_of_nonneg_left ?_ (by positivity)
      have h : ((|(waves.getD x []).getD y 0| : ℚ) : ℝ) ≤ e := by exact_mod_cast w2 x y
      rwa [Rat.cast_abs] at h
    rw [abs_one, div_one] at hw
    have h0 : 0 ≤ Report.gridWfe F m' (fun i j => 2 * Real.pi * (((waves.getD i []).getD j 0 : ℚ) : ℝ)) 1 := Real.sqrt_nonneg _
    have hm1 := min_le_left 1 ε
    have hm2 := min_le_right 1 ε
    rw [one_mul]
    nlinarith

omit ho hcal hne hdms hkept hrows hcols hinv hg hN hstore

theorem camera_default : ∀ g ∈ [(3 / 5 : ℚ), 3 / 5], StableGain 2 g := by
  intro g hg
  have : g = 3 / 5 := by simpa using hg
  subst this
  exact (C79_exact 2 (3 / 5) 1 one_ne_zero).mp ((C79_default_gain 2 1 one_ne_zero).mpr (le_refl 2))

/-- Two mirrors, at the ground and at 1000 m, with two sensors: for all commands of the three actuators that are kept there is turbulence that the mirrors make, and a camera off the axes of the sensors ends up seeing none of it. -/
example (c : List ℚ) (hc : c.length = 3) (ε : ℚ) (hε : 0 < ε) : ∃ dms' still, wholeOptics.calibrate 4 wholeDms = .ok (dms', wholeImat) ∧ Makes wholeOptics dms' id c still ∧ ∃ K, ∀ n, ∃ s' ts,
    runLoop (wholeOptics.sys dms' wholeCmat 2 100 true false) (wholeOptics.plant fun _ => still) (initial (wholeOptics.sys dms' wholeCmat 2 100 true false) (controls dms' [3 / 5, 3 / 5]) 4 4 ())
      (List.replicate n (controls dms' [3 / 5, 3 / 5])) = .ok (s', ts) ∧ ts.length = n ∧ ∀ (i : ℕ) (t : Trace Stack), K ≤ i → ts[i]? = some t → ∃ st, wholeOptics.look (wholeWfs (1 / 5000)).geom 2 still t.seenBySci = .ok st ∧ ∀ x y, x < 2 → y < 2 → |st.phase.px x y| < ε := by
  obtain ⟨dms', h1, h2⟩ := whole_ok
  have hd : ∀ d ∈ wholeDms, d.shapes.length = d.nActs ∧ (wholeOptics.scrn + d.nElem) % 2 = 0 := by
    intro d hd; simp only [wholeDms, List.mem_cons, List.not_mem_nil, or_false] at hd; rcases hd with rfl | rfl <;> exact ⟨rfl, rfl⟩
  obtain ⟨hl, hML, hrow⟩ := calibrate_rows wholeOptics whole_sound 4 wholeDms dms' wholeImat h1 hd
  have hl2 : dms'.length = 2 := hl
  obtain ⟨still, hstill⟩ := Makes.exists wholeOptics dms' (fun k d h => (hrow k d h).1) h2 id c (by rw [hc, ← hML]; rfl)
  have hconj : Conjugate wholeOptics dms'.length id := by
    intro k hk
    rw [hl2] at hk
    interval_cases k <;> exact ⟨by decide, by decide, rfl⟩
  obtain ⟨K, hK⟩ := C155_nulls wholeOptics whole_sound 4 wholeDms dms' wholeImat h1 (by simp [wholeDms]) hd h2 wholeCmat rfl (by decide) whole_undoes
    [3 / 5, 3 / 5] rfl 2 100 4 (by norm_num) true false (fun h => nomatch h) camera_default id hconj c still hstill (wholeWfs (1 / 5000)).geom rfl 2 two_ne_zero ε hε
  refine ⟨dms', still, h1, hstill, K, fun n => ?_⟩
  obtain ⟨s', ts, r1, r2, r3⟩ := hK n
  refine ⟨s', ts, r1, r2, fun i t hi ht => ?_⟩
  obtain ⟨st, b1, _, _, b4⟩ := r3 i t hi ht
  exact ⟨st, b1, b4⟩

end Soapy.Props
