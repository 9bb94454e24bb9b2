/-
Property theorems C68–C70: restarting Learn & Apply, its control law, laser tomography.
-/
import Verif.Props.Separate

namespace Soapy.Props

open Soapy.Mirror Soapy.Vec Soapy.Control Soapy.Sep

/-! ### Products -/

theorem foldl_zipAdd (n : ℕ) (rows : List (List ℚ)) (acc : List ℚ) (ha : acc.length = n)
    (hr : ∀ r ∈ rows, r.length = n) :
    (rows.foldl (List.zipWith (· + ·)) acc).length = n ∧
    ∀ p, p < n → (rows.foldl (List.zipWith (· + ·)) acc).getD p 0 =
      acc.getD p 0 + (rows.map fun r => r.getD p 0).sum := by
  induction rows generalizing acc with
  | nil => simp [ha]
  | cons r rs ih =>
    have hrl : r.length = n := hr r (by simp)
    obtain ⟨i1, i2⟩ := ih (List.zipWith (· + ·) acc r) (by simp [ha, hrl]) fun x hx => hr x (by simp [hx])
    refine ⟨i1, fun p hp => ?_⟩
    rw [List.foldl_cons, i2 p hp, List.map_cons, List.sum_cons, ← add_assoc]
    congr 1
    simp only [List.getD_eq_getElem?_getD]
    rw [List.getElem?_eq_getElem (by simp [ha, hrl]; omega), List.getElem?_eq_getElem (by omega),
      List.getElem?_eq_getElem (by omega)]
    simp

/-- The product with a control matrix exists if there is one row per measurement, has one entry per column, and each entry is the usual sum. -/
theorem tdot_get (n : ℕ) (cmat : List (List ℚ)) (s : List ℚ) (hl : cmat.length = s.length)
    (hr : ∀ r ∈ cmat, r.length = n) :
    ∃ c, tdot n cmat s = .ok c ∧ c.length = n ∧ ∀ p, p < n →
      c.getD p 0 = ∑ i ∈ Finset.range cmat.length, (cmat.getD i []).getD p 0 * s.getD i 0 := by
  have hrows : ∀ r ∈ List.zipWith (fun row x => row.map (x * ·)) cmat s, r.length = n := by
    intro r hmem
    obtain ⟨k, hk, rfl⟩ := List.mem_iff_getElem.mp hmem
    simp only [List.length_zipWith] at hk
    rw [List.getElem_zipWith, List.length_map]
    exact hr _ (List.getElem_mem _)
  obtain ⟨h1, h2⟩ := foldl_zipAdd n _ (zeros n) (by simp [zeros]) hrows
  refine ⟨_, by unfold tdot; rw [if_pos hl], h1, fun p hp => ?_⟩
  rw [h2 p hp]
  have h0 : (zeros n).getD p 0 = 0 := by
    unfold zeros
    rw [List.getD_eq_getElem?_getD, List.getElem?_replicate, if_pos hp]; rfl
  rw [h0, zero_add]
  have e : (List.zipWith (fun row x => row.map (x * ·)) cmat s).map (fun r => r.getD p 0) =
      (List.range cmat.length).map fun i => (cmat.getD i []).getD p 0 * s.getD i 0 := by
    apply List.ext_getElem (by simp [hl])
    intro k hk1 hk2
    simp only [List.length_map, List.length_zipWith] at hk1
    simp only [List.getElem_map, List.getElem_zipWith, List.getElem_range, List.getD_eq_getElem?_getD]
    have hlen := hr _ (List.getElem_mem (show k < cmat.length by omega))
    rw [List.getElem?_eq_getElem (show k < cmat.length by omega), List.getElem?_eq_getElem (show k < s.length by omega)]
    simp only [Option.getD_some]
    rw [List.getElem?_eq_getElem (by rw [List.length_map, hlen]; exact hp), List.getElem?_eq_getElem (by omega)]
    simp only [Option.getD_some, List.getElem_map]
    exact mul_comm _ _
  rw [e]
  rfl

/-! ### C68: restarting -/

theorem la_load_fails (cfg : Persist.Cfg) (sense : ℕ → Arr2 → List ℚ) (dms dms' : List Persist.Dm) (m m' : List (List ℚ))
    (h : Persist.makeIMat cfg sense 0 dms = .ok (dms', m)) (cols : ℕ) (hc : cols ≠ cfg.totalMeas)
    (dir : Persist.Dir) (hs : ∀ i s, dir.shapes i ≠ .whole s) :
    Persist.load cfg (Persist.runSteps (Persist.saveSteps (cfg.totalActs, cfg.totalMeas) cols m'
      (dms'.map Persist.Dm.valid)) dir) dms = (dms', .error .ioError) := by
  obtain ⟨hf, _⟩ := Persist.makeIMat_filtered cfg sense 0 dms dms' m h
  set F : Persist.ImatFile := ⟨some (cfg.totalActs, cfg.totalMeas), cols, m'⟩
  have h3 : Persist.runSteps (Persist.writeSteps Persist.putImat F) dir =
      Persist.putImat (.whole F) (Persist.putImat .torn (Persist.putImat .absent dir)) := rfl
  obtain ⟨g1, g2, g3, _⟩ := Persist.runSteps_saveActs (dms'.map Persist.Dm.valid) 0
    (Persist.runSteps (Persist.writeSteps Persist.putImat F) dir)
  unfold Persist.saveSteps
  rw [Persist.runSteps_append]
  have hl := Persist.loadDms_whole _ dms dms' 0 hf (fun i d hd => g3 i d.valid (by simp [hd]))
    (fun i s => by rw [g2, h3]; exact hs i s)
  unfold Persist.load
  rw [g1, h3]
  simp only [Persist.putImat, Persist.File.read]
  rw [h3] at hl
  simp only [Persist.putImat] at hl
  rw [hl]
  simp [F, hc]

/-- **C68 (partial: nothing dropped), and its failure otherwise.** Start Learn & Apply with more than one sensor in a directory from which nothing can be loaded, so that the interaction matrix is made, cut to the truth sensor and saved; then start it again in that directory with fresh mirrors.
The saved matrix is always rejected.  If no actuator had been dropped, the second start measures everything again and ends with the same matrix and mirrors; if one had, the second start raises an exception.
Missing: any second start that uses the saved matrix. -/
theorem C68_restart_partial (cfg : Persist.Cfg) (n0 : ℕ) (hn : 2 * n0 < cfg.totalMeas) (sense : ℕ → Arr2 → List ℚ)
    (dir : Persist.Dir) (hs : ∀ i s, dir.shapes i ≠ .whole s) (dms dms' : List Persist.Dm) (m : List (List ℚ)) (dir' : Persist.Dir)
    (hwf : ∀ d ∈ dms, d.shapes.length = d.nActs) (hload : ∃ e, Persist.load cfg dir dms = (dms, .error e))
    (h : laEnsure cfg n0 sense dir dms = .ok (dms', m, dir')) :
    (∃ ds, Persist.load cfg dir' dms = (ds, .error .ioError)) ∧
    ((∀ d ∈ dms', false ∉ d.valid) → ∃ dir'', laEnsure cfg n0 sense dir' dms = .ok (dms', m, dir'')) ∧
    ((∃ d ∈ dms', false ∈ d.valid) → ∃ e, laEnsure cfg n0 sense dir' dms = .error e) := by
  obtain ⟨e, he⟩ := hload
  unfold laEnsure at h
  rw [he] at h
  dsimp only at h
  cases hm : Persist.makeIMat cfg sense 0 dms with
  | error e' => rw [hm] at h; cases h
  | ok r =>
    obtain ⟨ds, full⟩ := r
    rw [hm] at h
    simp only [Except.bind, Except.ok.injEq, Prod.mk.injEq] at h
    obtain ⟨rfl, hmm, hdir⟩ := h
    have hmin : min cfg.totalMeas (2 * n0) = 2 * n0 := by omega
    have hlf := la_load_fails cfg sense dms ds full (laTruncate n0 full) hm (min cfg.totalMeas (2 * n0))
      (by rw [hmin]; omega) dir hs
    rw [hdir] at hlf
    obtain ⟨a1, a2⟩ := C65_again_partial cfg sense dms ds full hwf hm
    refine ⟨⟨ds, hlf⟩, fun hall => ?_, fun hex => ?_⟩
    · unfold laEnsure
      rw [hlf]
      dsimp only
      rw [a1 hall]
      simp only [Except.bind]
      exact ⟨_, by rw [hmm]⟩
    · obtain ⟨e', he'⟩ := a2 hex
      refine ⟨e', ?_⟩
      unfold laEnsure
      rw [hlf]
      dsimp only
      rw [he']
      rfl

/-- **C68 (truth sensor).** The interaction matrix that a first start of Learn & Apply ends with has a row for every actuator kept, and each holds exactly the responses of the
`2 * n0` slopes of the truth sensor. -/
theorem C68_truth_columns (cfg : Persist.Cfg) (n0 : ℕ) (sense : ℕ → Arr2 → List ℚ) (dir dir' : Persist.Dir)
    (dms dms' : List Persist.Dm) (m : List (List ℚ)) (hload : ∃ e, Persist.load cfg dir dms = (dms, .error e))
    (h : laEnsure cfg n0 sense dir dms = .ok (dms', m, dir')) :
    ∃ full, Persist.makeIMat cfg sense 0 dms = .ok (dms', full) ∧ m.length = full.length ∧
      ∀ (k : ℕ) (row : List ℚ), full[k]? = some row → ∃ r : List ℚ, m[k]? = some r ∧ r.length = min (2 * n0) row.length ∧
        ∀ j : ℕ, j < 2 * n0 → r[j]? = row[j]? := by
  obtain ⟨e, he⟩ := hload
  unfold laEnsure at h
  rw [he] at h
  dsimp only at h
  cases hm : Persist.makeIMat cfg sense 0 dms with
  | error e' => rw [hm] at h; cases h
  | ok r =>
    obtain ⟨ds, full⟩ := r
    rw [hm] at h
    simp only [Except.bind, Except.ok.injEq, Prod.mk.injEq] at h
    obtain ⟨rfl, rfl, -⟩ := h
    refine ⟨full, rfl, by simp [laTruncate], fun k row hk => ⟨row.take (2 * n0), by simp [laTruncate, hk], by simp, fun j hj => ?_⟩⟩
    rw [List.getElem?_take, if_pos hj]

/-- The toy mirror loses an actuator; the second start fails. -/
theorem C68_violated :
    ((laEnsure ⟨3, 2, 2⟩ 0 toySense Persist.emptyDir [toyDm]).bind fun r =>
      (laEnsure ⟨3, 2, 2⟩ 0 toySense r.2.2 [toyDm]).map fun _ => ()) = .error .valueError ∧
    ((laEnsure ⟨3, 2, 2⟩ 0 toySense Persist.emptyDir [toyDm]).map fun _ => ()) = .ok () := by decide +kernel

/-- **C68 (control matrix).** The control matrix that Learn & Apply computes has one row per slope of the truth sensor; with more than one sensor a saved one is rejected whatever its content. -/
theorem C68_control_matrix (totalMeas totalActs n0 : ℕ) (hn : 2 * n0 < totalMeas) (conds : List ℚ) (f : Persist.CmatFile)
    (hf : f.rows = 2 * n0) : ∃ e, Persist.loadCMat (totalMeas, totalActs) conds (.whole f) = .error e := by
  unfold Persist.loadCMat
  simp only [Persist.File.read]
  split
  · exact ⟨_, rfl⟩
  · rw [if_pos (by rw [hf]; simp; omega)]
    exact ⟨_, rfl⟩

/-- With one sensor (which then is the truth sensor) a saved control matrix of the right size is accepted. -/
example : (Persist.loadCMat (2, 2) [] (.whole ⟨none, 2, 2, [[1, 0], [0, 1]]⟩)) = .ok [[1, 0], [0, 1]] := by decide +kernel

/-! ### C69: the control law of Learn & Apply -/

/-- **C69 (truth sensor).** The commands do not depend on the measurements of the truth sensor. -/
theorem C69_truth_unused (t : Tomo) (tt : Bool) (dms : List DmCtl) (totalActs : ℕ) (r : Recon) (a b off : List ℚ)
    (ha : a.length = 2 * t.n0) (hb : b.length = 2 * t.n0) :
    laReconstruct t tt dms totalActs r (a ++ off) = laReconstruct t tt dms totalActs r (b ++ off) := by
  unfold laReconstruct
  rw [List.drop_left' ha, List.drop_left' hb]

/-- **C69 (partial: no tip-tilt mirror in front).** Each command follows the control law of its mirror – gain, mode and previous command – with the update obtained from the on-axis slopes that the tomographic matrix predicts from the other sensors.
Missing: systems whose first mirror is a tip-tilt mirror (`C69_gain_violated`). -/
theorem C69_control_law_partial (t : Tomo) (dms : List DmCtl) (act off truth : List ℚ) (ht : truth.length = 2 * t.n0)
    (hoff : off.length = t.tomoCols) (htomo : t.tomo.length = t.cmat.length)
    (hcols : t.cols = nCommands dms) (hrows : ∀ r ∈ t.cmat, r.length = t.cols) (hact : act.length = nCommands dms) :
    ∃ c, laReconstruct t false dms (nCommands dms) ⟨some act⟩ (truth ++ off) = .ok (⟨some c⟩, c) ∧
      ∀ k d, dms[k]? = some d → ∀ j, j < d.nValid →
        let p := firstCommand dms k + j
        let on := fun i => (List.zipWith (· * ·) (t.tomo.getD i []) off).sum
        let y := ∑ i ∈ Finset.range t.cmat.length, (t.cmat.getD i []).getD p 0 * on i
        c.getD p 0 = if d.closed then act.getD p 0 + d.gain * y else d.gain * y + (1 - d.gain) * act.getD p 0 := by
  set s := t.tomo.map fun r => (List.zipWith (· * ·) r off).sum with hs
  have hmv : matVec t.tomoCols t.tomo ((truth ++ off).drop (2 * t.n0)) = .ok s := by
    rw [List.drop_left' ht]
    unfold matVec
    rw [if_pos hoff.symm]
  obtain ⟨new, hn1, hn2, hn3⟩ := tdot_get t.cols t.cmat s (by simp [hs, htomo]) hrows
  obtain ⟨c, hc1, hc2, hc3⟩ := C11_gain_per_mirror dms act new hact (by rw [hn2, hcols])
  refine ⟨c, ?_, ?_⟩
  · unfold laReconstruct
    rw [hmv]
    simp only [Except.bind, Bool.false_eq_true, if_false]
    unfold reconstruct
    simp only [hn1, hc1]
  · intro k d hk j hj p on y
    obtain ⟨x, y', hx, hy, hcv⟩ := hc3 k d hk j hj
    have hp : p < t.cols := by
      rw [hcols, ← hact]
      by_contra hcon
      rw [List.getElem?_eq_none (by omega)] at hx; cases hx
    have hyy : y' = y := by
      have := hn3 p hp
      rw [List.getD_eq_getElem?_getD, hy] at this
      simp only [Option.getD_some] at this
      rw [this]
      refine Finset.sum_congr rfl fun i hi => ?_
      congr 1
      rw [Finset.mem_range] at hi
      simp only [hs, on, List.getD_eq_getElem?_getD, List.getElem?_map]
      rw [List.getElem?_eq_getElem (show i < t.tomo.length by omega)]
      simp
    rw [List.getD_eq_getElem?_getD, hcv, List.getD_eq_getElem?_getD, hx, hyy]
    simp

/-- Two on-axis slopes predicted from two off-axis slopes; one closed mirror with gain 1/2. -/
example : (laReconstruct ⟨1, 2, [[1, 1], [0, 2]], 1, [[1], [10]]⟩ false [⟨1, true, 1 / 2⟩] 1 ⟨some [100]⟩ [7, 7, 3, 4]).map (·.2) =
    .ok [100 + 1 / 2 * (7 + 80)] := by decide +kernel

theorem meanOf_shift (v : List ℚ) (a : ℚ) (h : v ≠ []) : meanOf (v.map (· + a)) = meanOf v + a := by
  unfold meanOf
  have hl : (v.length : ℚ) ≠ 0 := by
    rw [Nat.cast_ne_zero]
    exact fun h0 => h (List.length_eq_zero_iff.mp h0)
  have hsum : (v.map (· + a)).sum = v.sum + v.length * a := by
    clear h hl
    induction v with
    | nil => simp
    | cons x xs ih => simp only [List.map_cons, List.sum_cons, ih, List.length_cons]; push_cast; ring
  rw [hsum, List.length_map, add_div, mul_div_cancel_left₀ a hl]

theorem centre_shift (v : List ℚ) (a : ℚ) :
    (v.map (· + a)).map (· - meanOf (v.map (· + a))) = v.map (· - meanOf v) := by
  by_cases h : v = []
  · subst h; rfl
  · rw [meanOf_shift v a h, List.map_map]
    congr 1
    funext x
    simp

/-- **C69 (tip-tilt is left to the tip-tilt mirror).** With a tip-tilt mirror in front, adding a common tilt `a` to all x slopes and `b` to all y slopes on axis changes only the first two commands. -/
theorem C69_tilt (t : Tomo) (x y : List ℚ) (hx : x.length = t.n0) (hy : y.length = t.n0) (a b : ℚ)
    (hcm : t.cmat.length = 2 * t.n0) (h2 : 2 ≤ t.cols) (hrows : ∀ r ∈ t.cmat, r.length = t.cols) :
    ∃ tt tt' d, laTT t (x ++ y) = .ok (tt ++ d) ∧ laTT t (x.map (· + a) ++ y.map (· + b)) = .ok (tt' ++ d) ∧
      tt.length = 2 ∧ tt'.length = 2 ∧ d.length = t.cols - 2 := by
  have htake : ∀ r ∈ t.cmat.map fun r => r.take 2, r.length = min 2 t.cols := by
    intro r hr
    obtain ⟨q, hq, rfl⟩ := List.mem_map.mp hr
    rw [List.length_take, hrows q hq]
  have hdrop : ∀ r ∈ t.cmat.map fun r => r.drop 2, r.length = t.cols - 2 := by
    intro r hr
    obtain ⟨q, hq, rfl⟩ := List.mem_map.mp hr
    rw [List.length_drop, hrows q hq]
  have hc : (x.map (· - meanOf x) ++ y.map (· - meanOf y)).length = 2 * t.n0 := by simp [hx, hy]; omega
  obtain ⟨tt, h1, h1l, _⟩ := tdot_get (min 2 t.cols) (t.cmat.map fun r => r.take 2) (x ++ y)
    (by simp [hx, hy, hcm]; omega) htake
  obtain ⟨tt', h1', h1l', _⟩ := tdot_get (min 2 t.cols) (t.cmat.map fun r => r.take 2) (x.map (· + a) ++ y.map (· + b))
    (by simp [hx, hy, hcm]; omega) htake
  obtain ⟨d, h3, h3l, _⟩ := tdot_get (t.cols - 2) (t.cmat.map fun r => r.drop 2)
    (x.map (· - meanOf x) ++ y.map (· - meanOf y)) (by rw [hc]; simp [hcm]) hdrop
  refine ⟨tt, tt', d, ?_, ?_, by omega, by omega, h3l⟩
  · unfold laTT
    rw [if_neg (by simp [hx, hy]; omega)]
    simp only [List.take_left' hx, List.drop_left' hx, h1, h3, Except.bind]
  · unfold laTT
    rw [if_neg (by simp [hx, hy]; omega)]
    have hx' : (x.map (· + a)).length = t.n0 := by simp [hx]
    simp only [List.take_left' hx', List.drop_left' hx', h1', centre_shift, h3, Except.bind]

example : (laTT ⟨2, 0, [], 3, [[1, 0, 1], [1, 0, 2], [0, 1, 3], [0, 1, 4]]⟩ [1, 2, 3, 5],
    laTT ⟨2, 0, [], 3, [[1, 0, 1], [1, 0, 2], [0, 1, 3], [0, 1, 4]]⟩ [11, 12, 103, 105]) =
    (.ok [3, 8, 3 / 2], .ok [23, 208, 3 / 2]) := by decide +kernel

/-- **C69 is violated with a tip-tilt mirror in front**: gains, modes and previous commands have no influence at all. -/
theorem C69_gain_violated :
    (∀ (t : Tomo) (dms dms' : List DmCtl) (n n' : ℕ) (r r' : Recon) (s : List ℚ),
      (laReconstruct t true dms n r s).map Prod.snd = (laReconstruct t true dms' n' r' s).map Prod.snd) ∧
    (laReconstruct ⟨1, 2, [[1, 0], [0, 1]], 3, [[1, 0, 1], [0, 1, 1]]⟩ true [⟨2, true, 0⟩, ⟨1, true, 0⟩] 3 ⟨some [5, 5, 5]⟩
      [0, 0, 8, 9]).map (·.2) = .ok [8, 9, 0] := by
  refine ⟨fun t dms dms' n n' r r' s => ?_, by decide +kernel⟩
  unfold laReconstruct
  cases matVec t.tomoCols t.tomo (s.drop (2 * t.n0)) with
  | error e => rfl
  | ok v =>
    simp only [Except.bind, if_true]
    cases laTT t v <;> rfl

/-- Measurements of another number than the reconstructor was made for are refused. -/
theorem C69_mismatch (t : Tomo) (tt : Bool) (dms : List DmCtl) (n : ℕ) (r : Recon) (slopes : List ℚ) (h : slopes.length - 2 * t.n0 ≠ t.tomoCols) :
    laReconstruct t tt dms n r slopes = .error .valueError := by
  unfold laReconstruct matVec
  rw [if_neg (by rw [List.length_drop]; exact fun e => h e.symm)]
  rfl

example : (⟨1, 2, [[1, 0], [0, 1]], 1, [[1], [1]]⟩ : Tomo).tomoCols ≠ [1, 2, 3, 4, (5 : ℚ)].length - 2 * 1 := by decide

/-! ### C70: laser tomography -/

theorem ltaoRemove_length (s : List ℚ) : (ltaoRemove s).length = s.length := by
  unfold ltaoRemove
  simp

/-- **C70 is violated**: with sensors 0 (tip-tilt), 1 (truth) and at least one more, the control matrix has a row for every measurement, the slopes handed to it only those of sensors 0 and 1; every call of `reconstruct` raises. -/
theorem C70_never_runs (start1 start2 total : ℕ) (h1 : start1 ≤ start2) (h2 : start2 < total) (tomo : List (List ℚ))
    (htomo : tomo.length = start2 - start1) (cols : ℕ) (cmat : List (List ℚ)) (hcm : cmat.length = total)
    (slopes : List ℚ) (hs : slopes.length = total) :
    ltaoReconstruct start1 start2 (total - start2) tomo cols cmat slopes = .error .valueError := by
  unfold ltaoReconstruct matVec
  rw [if_pos (by simp [hs])]
  simp only [Except.bind]
  unfold tdot
  rw [if_neg]
  simp [ltaoRemove_length, htomo, hcm, hs]
  omega

/-- **C70 is violated already when the control matrix is made**: a mirror driven by any sensor but sensor 0 has no columns left in the cut interaction matrix. -/
theorem C70_calc_fails (pinv : ℚ → Arr2 → ℕ → ℕ → ℚ) (n0 : ℕ) (m : Arr2) (dms : List SepDm) (wfss : List SepWfs)
    (d : SepDm) (hd : d ∈ dms) (w : ℕ) (hw : d.wfs = some w) (ws : SepWfs) (hws : wfss[w]? = some ws)
    (hstart : 2 * n0 ≤ ws.start) (hpos : 0 < ws.nMeas) : ∃ e, ltaoCalc pinv n0 m dms wfss = .error e := by
  obtain ⟨k, hk, rfl⟩ := List.mem_iff_getElem.mp hd
  unfold ltaoCalc
  cases hs : separate pinv ⟨m.rows, min m.cols (2 * n0), m.px⟩ dms wfss with
  | error e => exact ⟨e, rfl⟩
  | ok cm =>
    exfalso
    obtain ⟨w', ws', a, e1, e2, e3, _⟩ := C67_own_sensor_partial pinv _ dms wfss
      ((wfss.map fun ws => ws.start + ws.nMeas).sum) cm hs k dms[k] (List.getElem?_eq_getElem hk)
      (fun ws hws => List.single_le_sum (by simp) _ (List.mem_map.mpr ⟨ws, hws, rfl⟩))
    rw [hw] at e1
    simp only [Option.some.injEq] at e1
    subst e1
    rw [hws] at e2
    simp only [Option.some.injEq] at e2
    subst e2
    unfold sepImat at e3
    simp only [List.getElem?_eq_getElem hk, hw, hws,
      getDmImat_eq _ dms wfss k w dms[k] ws (List.getElem?_eq_getElem hk) hws] at e3
    unfold fitInto block at e3
    simp only at e3
    rw [if_neg] at e3
    · cases e3
    · unfold fitsAxis
      omega

/-- **C70 (tip-tilt removal is wrong)**: a common tilt in x and its opposite in y pass unchanged, although tip and tilt are to be removed. -/
theorem C70_tilt_remains (n : ℕ) (a : ℚ) :
    ltaoRemove (List.replicate n a ++ List.replicate n (-a)) = List.replicate n a ++ List.replicate n (-a) := by
  have hm : meanOf (List.replicate n a ++ List.replicate n (-a)) = 0 := by
    unfold meanOf
    simp
  unfold ltaoRemove
  simp only [List.take_length, List.drop_length, List.append_nil, hm, sub_zero, List.map_id', List.map_nil]

/-- **C70 (partial: the same tilt in x and y).** The removal takes away a tilt that is the same in x and y.
Missing: all other tilts (`C70_tilt_remains`), and a reconstruction that uses the result (`C70_never_runs`). -/
theorem C70_equal_tilt_partial (s : List ℚ) (a : ℚ) : ltaoRemove (s.map (· + a)) = ltaoRemove s := by
  have h := centre_shift s a
  unfold ltaoRemove
  simp only [List.take_length, List.drop_length, List.append_nil, h]
  simp only [List.length_map]

example : ltaoRemove [1, 1, -1, -1] = [1, 1, -1, -1] := by decide +kernel

end Soapy.Props
