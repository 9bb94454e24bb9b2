/-
Property theorems C66–C69: cutting the interaction matrix per mirror and sensor, one control matrix per mirror, Learn & Apply, laser tomography.
-/
import Verif.Model.Separate
import Verif.Props.Again

namespace Soapy.Props

open Soapy.Mirror Soapy.Vec Soapy.Control Soapy.Sep

/-! ### C66: rows of one mirror -/

/-- Number of actuators, before dropping, of the mirrors in front of mirror `k`. -/
def actsBefore (dms : List SepDm) (k : ℕ) : ℕ := ((dms.take k).map SepDm.nActs).sum

/-- Number of rows of the blocks in front of block `k`. -/
def rowsBefore {α : Type} (blocks : List (List α)) (k : ℕ) : ℕ := ((blocks.take k).map List.length).sum

theorem firstActs_get (dms : List SepDm) (n k : ℕ) (hk : k < dms.length) :
    (firstActs dms n)[k]? = some (n + actsBefore dms k) := by
  induction dms generalizing n k with
  | nil => simp at hk
  | cons d ds ih =>
    cases k with
    | zero => simp [firstActs, actsBefore]
    | succ k =>
      rw [firstActs, List.getElem?_cons_succ, ih _ k (by simpa using hk)]
      simp [actsBefore, Nat.add_assoc]

theorem flatten_get {α : Type} (blocks : List (List α)) (k r : ℕ) (b : List α) (hb : blocks[k]? = some b)
    (hr : r < b.length) : blocks.flatten[rowsBefore blocks k + r]? = b[r]? := by
  induction blocks generalizing k with
  | nil => simp at hb
  | cons c cs ih =>
    cases k with
    | zero =>
      simp at hb
      subst hb
      rw [List.flatten_cons, List.getElem?_append_left (by simpa [rowsBefore] using hr)]
      simp [rowsBefore]
    | succ k =>
      rw [List.getElem?_cons_succ] at hb
      have := ih k hb
      rw [List.flatten_cons, List.getElem?_append_right (by simp [rowsBefore]; omega), ← this]
      congr 1
      simp [rowsBefore]
      omega

theorem flatten_getD {α : Type} (blocks : List (List α)) (k r : ℕ) (b : List α) (hb : blocks[k]? = some b)
    (hr : r < b.length) (z : α) : blocks.flatten.getD (rowsBefore blocks k + r) z = b.getD r z := by
  rw [List.getD_eq_getElem?_getD, flatten_get blocks k r b hb hr, List.getD_eq_getElem?_getD]

theorem rowsBefore_le {α : Type} (blocks : List (List α)) (k : ℕ) (b : List α) (hb : blocks[k]? = some b) :
    rowsBefore blocks k + b.length ≤ blocks.flatten.length := by
  have h1 : rowsBefore blocks k + b.length = (blocks.take (k + 1)).flatten.length := by
    unfold rowsBefore
    rw [List.take_add_one, hb]
    simp
  rw [h1]
  conv_rhs => rw [← List.take_append_drop (k + 1) blocks, List.flatten_append, List.length_append]
  omega

theorem getDmImat_eq (m : Arr2) (dms : List SepDm) (wfss : List SepWfs) (k w : ℕ) (d : SepDm) (ws : SepWfs)
    (hd : dms[k]? = some d) (hw : wfss[w]? = some ws) :
    getDmImat m dms wfss k w = .ok (block m (actsBefore dms k) d.nActs ws.start ws.nMeas) := by
  have hk : k < dms.length := by
    by_contra hc
    rw [List.getElem?_eq_none (by omega)] at hd; cases hd
  unfold getDmImat
  rw [firstActs_get dms 0 k hk, hd, hw]
  simp

/-- **C66 (errors).**  A mirror that does not exist is an `IndexError` (a list is indexed), a sensor that does not exist a `KeyError` (a dictionary is). -/
theorem C66_errors (m : Arr2) (dms : List SepDm) (wfss : List SepWfs) (k w : ℕ) : (dms.length ≤ k → getDmImat m dms wfss k w = .error .indexError) ∧ (k < dms.length → wfss.length ≤ w → getDmImat m dms wfss k w = .error .keyError) := by
  have hl : ∀ (dms : List SepDm) (n : ℕ), (firstActs dms n).length = dms.length := by
    intro dms
    induction dms with
    | nil => intro _; rfl
    | cons d ds ih => intro n; simp [firstActs, ih]
  unfold getDmImat
  refine ⟨fun h => ?_, fun h hw => ?_⟩
  · rw [List.getElem?_eq_none (by rw [hl]; exact h)]
  · rw [List.getElem?_eq_getElem (by rw [hl]; exact h), List.getElem?_eq_none hw]
    cases dms[k]? <;> rfl

/-- **C66 (shift).** Whatever was dropped: row `i` of the piece cut out for mirror `k` is row `i + D` of that mirror's own rows, where `D` is the number of actuators dropped in the mirrors in front of it. -/
theorem C66_shift (cols : ℕ) (blocks : List (List (List ℚ))) (dms : List SepDm) (wfss : List SepWfs)
    (k w : ℕ) (d : SepDm) (ws : SepWfs) (b : List (List ℚ)) (hd : dms[k]? = some d) (hw : wfss[w]? = some ws)
    (hb : blocks[k]? = some b) (D : ℕ) (hD : rowsBefore blocks k + D = actsBefore dms k) :
    ∃ g, getDmImat (ofRows cols blocks.flatten) dms wfss k w = .ok g ∧
      ∀ i j, i + D < b.length → g.px i j = (b.getD (i + D) []).getD (ws.start + j) 0 := by
  refine ⟨_, getDmImat_eq _ dms wfss k w d ws hd hw, fun i j hi => ?_⟩
  simp only [block, ofRows]
  rw [← hD, show rowsBefore blocks k + D + i = rowsBefore blocks k + (i + D) by omega]
  rw [flatten_getD blocks k (i + D) b hb hi]

/-- **C66 (partial: nothing dropped up to this mirror).** After making the interaction matrix of mirrors fresh from their constructors, if no actuator of mirror `k` or of a mirror in front of it was dropped, the piece cut
out for mirror `k` and sensor `w` has one row per actuator and one column per measurement of that sensor, and row `i` is minus that sensor's response to poking actuator `i` of mirror `k` alone.
Missing: mirrors behind dropped actuators (`C66_violated`). -/
theorem C66_own_rows_partial (cfg : Persist.Cfg) (sense : ℕ → Arr2 → List ℚ) (dms dms' : List Persist.Dm) (m : List (List ℚ))
    (hwf : ∀ d ∈ dms, d.shapes.length = d.nActs) (h : Persist.makeIMat cfg sense 0 dms = .ok (dms', m))
    (sep : List SepDm) (hsep : sep.map SepDm.nActs = dms.map Persist.Dm.nActs) (wfss : List SepWfs)
    (k w : ℕ) (d : Persist.Dm) (ws : SepWfs) (hd : dms[k]? = some d) (hw : wfss[w]? = some ws)
    (hfit : ws.start + ws.nMeas ≤ cfg.totalMeas)
    (hkeep : ∀ i d', i ≤ k → dms'[i]? = some d' → false ∉ d'.valid) :
    ∃ g, getDmImat (ofRows cfg.totalMeas m) sep wfss k w = .ok g ∧ g.rows = d.nActs ∧ g.cols = ws.nMeas ∧
      ∀ i, i < d.nActs → ∃ s, dmFrame cfg.scrn d.nElem 0 d.shapes (zero2 cfg.scrn) (unit d.nActs i) = .ok s ∧
        ∀ j, j < ws.nMeas → g.px i j = -((sense k s).getD (ws.start + j) 0) := by
  obtain ⟨blocks, hm, hbl, hdl, hblk⟩ := C14_stacked cfg sense dms dms' m h
  have hk : k < dms.length := by
    by_contra hc
    rw [List.getElem?_eq_none (by omega)] at hd; cases hd
  -- each mirror up to k kept everything: its block has one row per actuator
  have hown : ∀ i, i ≤ k → ∀ d b, dms[i]? = some d → blocks[i]? = some b →
      b.length = d.nActs ∧ ∀ a, a < d.nActs → ∃ s,
        dmFrame cfg.scrn d.nElem 0 d.shapes (zero2 cfg.scrn) (unit d.nActs a) = .ok s ∧
        b[a]? = some ((sense i s).map (-·)) := by
    intro i hi d b hd hb
    have hlen : d.shapes.length = d.nActs := hwf d (List.mem_of_getElem? hd)
    have hi' : i < dms'.length := by omega
    have hmk := hblk i d dms'[i] b hd (List.getElem?_eq_getElem hi') hb
    have hfl := makeDmIMat_flags _ _ _ _ _ _ hmk
    have hnf := hkeep i dms'[i] hi (List.getElem?_eq_getElem hi')
    rw [← hlen] at hmk
    obtain ⟨idx, kept, resp, M, hresp, _, _, hsort, hmem, hset, _, hbl2, hal⟩ :=
      C14_alignment cfg.totalMeas d.shapes _ (sense i) _ b hmk
    have hcnt := Persist.setValid_count _ _ _ _ hset
    have hidxlen : idx.length = d.shapes.length := by
      rw [hcnt, flags_all _ hnf, List.count_replicate_self, hfl, hlen]
    have hidx : idx = List.range d.shapes.length := by
      have hp : idx.Perm (List.range d.shapes.length) := by
        apply List.Subperm.perm_of_length_le
        · exact List.subperm_of_subset (hsort.imp fun h => Nat.ne_of_lt h)
            fun a ha => List.mem_range.mpr ((hmem a).mp ha).1
        · simp [hidxlen]
      exact hp.eq_of_pairwise (fun a b _ _ h1 h2 => absurd h1 (by omega)) hsort List.pairwise_lt_range
    refine ⟨by rw [hbl2, hidxlen, hlen], fun a ha => ?_⟩
    rw [← hlen] at ha
    obtain ⟨s, hs, hr⟩ := hresp a ha
    refine ⟨s, ?_, ?_⟩
    · rw [← hlen, unit_eq_map _ a ha]; exact hs
    · rw [(hal a a (by rw [hidx]; simp [ha])).2, hr]
  have hbk : k < blocks.length := by omega
  obtain ⟨hblen, hrow⟩ := hown k le_rfl d blocks[k] hd (List.getElem?_eq_getElem hbk)
  -- rows in front
  have hacts : ∀ n, n ≤ k → rowsBefore blocks n = actsBefore sep n := by
    intro n hn
    have e1 : (sep.take n).map SepDm.nActs = (dms.take n).map Persist.Dm.nActs := by
      rw [List.map_take, hsep, ← List.map_take]
    unfold rowsBefore actsBefore
    rw [e1]
    congr 1
    apply List.ext_getElem (by simp; omega)
    intro i h1 h2
    simp only [List.length_map, List.length_take] at h1 h2
    simp only [List.getElem_map, List.getElem_take]
    exact (hown i (by omega) dms[i] blocks[i] (List.getElem?_eq_getElem (by omega))
      (List.getElem?_eq_getElem (by omega))).1
  obtain ⟨sd, hsd, hsn⟩ : ∃ sd, sep[k]? = some sd ∧ sd.nActs = d.nActs := by
    have : (sep.map SepDm.nActs)[k]? = some d.nActs := by rw [hsep]; simp [hd]
    rw [List.getElem?_map] at this
    cases hs : sep[k]? with
    | none => rw [hs] at this; cases this
    | some sd => rw [hs] at this; exact ⟨sd, rfl, by simpa using this⟩
  refine ⟨_, getDmImat_eq _ sep wfss k w sd ws hsd hw, ?_, ?_, ?_⟩
  · simp only [block, ofRows]
    have : actsBefore sep k + d.nActs ≤ m.length := by
      rw [hm, ← hacts k le_rfl, ← hblen]
      exact rowsBefore_le blocks k blocks[k] (List.getElem?_eq_getElem hbk)
    rw [hsn]
    omega
  · simp only [block, ofRows]
    omega
  · intro i hi
    obtain ⟨s, hs, hb⟩ := hrow i hi
    refine ⟨s, hs, fun j hj => ?_⟩
    simp only [block, ofRows]
    rw [← hacts k le_rfl, hm, flatten_getD blocks k i blocks[k] (List.getElem?_eq_getElem hbk) (by omega),
      List.getD_eq_getElem?_getD (l := blocks[k]), hb]
    simp only [Option.getD_some]
    rw [List.getD_eq_getElem?_getD, List.getD_eq_getElem?_getD, List.getElem?_map]
    cases (sense k s)[ws.start + j]? <;> simp

/-- **C66 (wrong mirror).** If mirror `k` itself lost actuators, nothing in front did, and the next mirror has a row, then the piece cut out for mirror `k` contains rows of the next mirror. -/
theorem C66_next_mirror (cols : ℕ) (blocks : List (List (List ℚ))) (dms : List SepDm) (wfss : List SepWfs)
    (k w : ℕ) (d : SepDm) (ws : SepWfs) (b c : List (List ℚ)) (hd : dms[k]? = some d) (hw : wfss[w]? = some ws)
    (hb : blocks[k]? = some b) (hc : blocks[k + 1]? = some c) (hfront : rowsBefore blocks k = actsBefore dms k)
    (hdrop : b.length < d.nActs) (hne : 0 < c.length) :
    ∃ g, getDmImat (ofRows cols blocks.flatten) dms wfss k w = .ok g ∧ b.length < g.rows ∧
      ∀ j, g.px b.length j = (c.getD 0 []).getD (ws.start + j) 0 := by
  have hk : k + 1 < blocks.length := by
    by_contra h
    rw [List.getElem?_eq_none (by omega)] at hc; cases hc
  have hb' : rowsBefore blocks (k + 1) = rowsBefore blocks k + b.length := by
    unfold rowsBefore
    rw [List.take_add_one, hb]
    simp
  have hget := flatten_get blocks (k + 1) 0 c hc hne
  refine ⟨_, getDmImat_eq _ dms wfss k w d ws hd hw, ?_, fun j => ?_⟩
  · simp only [block, ofRows]
    have : rowsBefore blocks k + b.length < blocks.flatten.length := by
      by_contra hcon
      rw [List.getElem?_eq_none (by omega), List.getElem?_eq_getElem hne] at hget
      cases hget
    omega
  · simp only [block, ofRows]
    rw [← hfront, ← hb', ← Nat.add_zero (rowsBefore blocks (k + 1)), flatten_getD blocks (k + 1) 0 c hc hne]

/-- Two mirrors of three and two actuators; the first has lost one.  What is cut out for the first mirror is its two rows and one row of the second mirror, for the second mirror only its second row. -/
theorem C66_violated :
    (getDmImat (ofRows 2 [[1, 2], [3, 4], [50, 60], [70, 80]]) [⟨3, some 0, 0⟩, ⟨2, some 0, 0⟩] [⟨0, 2⟩] 0 0).map
      (fun g => (g.rows, (List.range g.rows).map fun i => [g.px i 0, g.px i 1])) =
        .ok (3, [[1, 2], [3, 4], [50, 60]]) ∧
    (getDmImat (ofRows 2 [[1, 2], [3, 4], [50, 60], [70, 80]]) [⟨3, some 0, 0⟩, ⟨2, some 0, 0⟩] [⟨0, 2⟩] 1 0).map
      (fun g => (g.rows, (List.range g.rows).map fun i => [g.px i 0, g.px i 1])) = .ok (1, [[70, 80]]) := by
  decide +kernel

/-- Nothing dropped: the second mirror's rows for the second sensor. -/
example : (getDmImat (ofRows 3 [[1, 2, 3], [4, 5, 6], [7, 8, 9]]) [⟨1, some 0, 0⟩, ⟨2, some 1, 0⟩] [⟨0, 1⟩, ⟨1, 2⟩] 1 1).map
      (fun g => (List.range g.rows).map fun i => (List.range g.cols).map (g.px i)) = .ok [[5, 6], [8, 9]] := by
  decide +kernel

/-! ### C67: one control matrix per mirror -/

/-- **C67.** If the control matrices of all mirrors can be computed, then the commands of mirror `k` are the pseudo-inverse of the matrix cut out for it, applied to the measurements of its own sensor; the measurements of other sensors have no effect on them.
Missing: mirrors with dropped actuators (`C67_dropped_fails`) or without a sensor of their own (`C67_all_sensors_fails`), for which the computation raises. -/
theorem C67_own_sensor_partial (pinv : ℚ → Arr2 → ℕ → ℕ → ℚ) (m : Arr2) (dms : List SepDm) (wfss : List SepWfs) (nMeas : ℕ)
    (cm : ℕ → ℕ → ℚ) (h : separate pinv m dms wfss = .ok cm) (k : ℕ) (d : SepDm) (hd : dms[k]? = some d)
    (hfit : ∀ ws ∈ wfss, ws.start + ws.nMeas ≤ nMeas) :
    ∃ w ws a, d.wfs = some w ∧ wfss[w]? = some ws ∧ sepImat m dms wfss k = .ok a ∧
      ∀ (s : ℕ → ℚ) (j : ℕ), j < d.nActs →
        command nMeas cm s (actsBefore dms k + j) =
          ∑ i ∈ Finset.range ws.nMeas, pinv d.cond a i j * s (ws.start + i) := by
  -- the loop from mirror k0 on
  have gen : ∀ (todo k0 acts : ℕ) (cm0 cm : ℕ → ℕ → ℚ), sepCalc pinv m dms wfss todo k0 acts cm0 = .ok cm →
      acts = actsBefore dms k0 → k0 + todo = dms.length →
      (∀ i j, j < acts → cm i j = cm0 i j) ∧
      ∀ k d, k0 ≤ k → dms[k]? = some d → (∀ i j, actsBefore dms k0 ≤ j → cm0 i j = 0) →
        ∃ w ws a, d.wfs = some w ∧ wfss[w]? = some ws ∧ sepImat m dms wfss k = .ok a ∧
          ∀ i j, j < d.nActs → cm i (actsBefore dms k + j) =
            if ws.start ≤ i ∧ i < ws.start + ws.nMeas then pinv d.cond a (i - ws.start) j else 0 := by
    intro todo
    induction todo with
    | zero =>
      intro k0 acts cm0 cm h ha hl
      simp only [sepCalc, Except.ok.injEq] at h
      subst h
      refine ⟨fun _ _ _ => rfl, fun k d hk hd => ?_⟩
      rw [List.getElem?_eq_none (by omega)] at hd; cases hd
    | succ todo ih =>
      intro k0 acts cm0 cm h ha hl
      rw [sepCalc] at h
      cases hs : sepImat m dms wfss k0 with
      | error e => rw [hs] at h; cases h
      | ok a =>
        rw [hs] at h
        simp only [Except.bind] at h
        cases hd0 : dms[k0]? with
        | none => rw [hd0] at h; cases h
        | some d0 =>
          rw [hd0] at h
          simp only at h
          cases hw : d0.wfs.bind fun w => wfss[w]? with
          | none => rw [hw] at h; cases h
          | some ws =>
            rw [hw] at h
            simp only at h
            obtain ⟨w, hw1, hw2⟩ := Option.bind_eq_some_iff.mp hw
            have hsucc : actsBefore dms (k0 + 1) = actsBefore dms k0 + d0.nActs := by
              unfold actsBefore
              rw [List.take_add_one, hd0]
              simp
            obtain ⟨i1, i2⟩ := ih (k0 + 1) (acts + d0.nActs) _ cm h (by rw [hsucc, ha]) (by omega)
            constructor
            · intro i j hj
              rw [i1 i j (by omega), putBlock, if_neg (by omega)]
            · intro k d hk hd hz
              rcases Nat.lt_or_ge k0 k with hlt | hge
              · refine i2 k d hlt hd fun i j hj => ?_
                rw [putBlock, if_neg (by omega)]
                exact hz i j (by omega)
              · have hkk : k = k0 := by omega
                subst hkk
                rw [hd0] at hd
                simp only [Option.some.injEq] at hd
                subst hd
                refine ⟨w, ws, a, hw1, hw2, hs, fun i j hj => ?_⟩
                rw [i1 i _ (by omega), putBlock]
                by_cases hin : ws.start ≤ i ∧ i < ws.start + ws.nMeas
                · rw [if_pos (by omega), if_pos hin, ha, Nat.add_sub_cancel_left]
                · rw [if_neg (by omega), if_neg hin]
                  exact hz i _ (by omega)
  obtain ⟨w, ws, a, h1, h2, h3, h4⟩ := (gen dms.length 0 0 (fun _ _ => 0) cm h (by simp [actsBefore]) (by omega)).2 k d
    (by omega) hd (fun _ _ _ => rfl)
  refine ⟨w, ws, a, h1, h2, h3, fun s j hj => ?_⟩
  have hf := hfit ws (List.mem_of_getElem? h2)
  unfold command
  have hsplit : ∀ n, ws.start + ws.nMeas ≤ n →
      ∑ i ∈ Finset.range n, cm i (actsBefore dms k + j) * s i =
        ∑ i ∈ Finset.range ws.nMeas, pinv d.cond a i j * s (ws.start + i) := by
    intro n hn
    rw [show n = ws.start + ws.nMeas + (n - (ws.start + ws.nMeas)) by omega, Finset.sum_range_add, Finset.sum_range_add]
    rw [Finset.sum_eq_zero, zero_add, Finset.sum_eq_zero (s := Finset.range (n - (ws.start + ws.nMeas))), add_zero]
    · refine Finset.sum_congr rfl fun i hi => ?_
      rw [Finset.mem_range] at hi
      rw [h4 _ j hj, if_pos (by omega), Nat.add_sub_cancel_left]
    · intro i _
      rw [h4 _ j hj, if_neg (by omega), zero_mul]
    · intro i hi
      rw [Finset.mem_range] at hi
      rw [h4 _ j hj, if_neg (by omega), zero_mul]
  exact hsplit nMeas hf

/-- **C67 (matrix inverted).** If the interaction matrix has the rows of all actuators before dropping, the matrix inverted for mirror `k` is the piece of its own rows and its sensor's columns. -/
theorem C67_matrix (m : Arr2) (dms : List SepDm) (wfss : List SepWfs) (k w : ℕ) (d : SepDm) (ws : SepWfs)
    (hd : dms[k]? = some d) (hw : d.wfs = some w) (hws : wfss[w]? = some ws)
    (hrows : actsBefore dms k + d.nActs ≤ m.rows) (hcols : ws.start + ws.nMeas ≤ m.cols) :
    ∃ a, sepImat m dms wfss k = .ok a ∧ a.rows = d.nActs ∧ a.cols = ws.nMeas ∧
      ∀ i j, i < d.nActs → j < ws.nMeas → a.px i j = m.px (actsBefore dms k + i) (ws.start + j) := by
  have h1 : min m.rows (actsBefore dms k + d.nActs) - actsBefore dms k = d.nActs := by omega
  have h2 : min m.cols (ws.start + ws.nMeas) - ws.start = ws.nMeas := by omega
  refine ⟨⟨d.nActs, ws.nMeas, fun i j => m.px (actsBefore dms k + i) (ws.start + j)⟩, ?_, rfl, rfl, fun _ _ _ _ => rfl⟩
  unfold sepImat
  simp only [hd, hw, hws, getDmImat_eq m dms wfss k w d ws hd hws]
  unfold fitInto block
  simp only [h1, h2]
  rw [if_pos (by simp [fitsAxis])]
  simp [srcIdx]

/-- **C67 is violated after dropped actuators (last mirror).** If any actuator was dropped anywhere, fewer rows than actuators are left for the last mirror, and computing the control matrices raises an exception – unless exactly one row is left. -/
theorem C67_dropped_fails (pinv : ℚ → Arr2 → ℕ → ℕ → ℚ) (m : Arr2) (dms : List SepDm) (wfss : List SepWfs)
    (d : SepDm) (hd : dms[dms.length - 1]? = some d) (hdrop : m.rows < (dms.map SepDm.nActs).sum)
    (hone : m.rows ≠ actsBefore dms (dms.length - 1) + 1) (hpos : 0 < d.nActs) :
    ∃ e, separate pinv m dms wfss = .error e := by
  have hne : 0 < dms.length := by
    by_contra hc
    rw [List.getElem?_eq_none (by omega)] at hd; cases hd
  have hsum : (dms.map SepDm.nActs).sum = actsBefore dms (dms.length - 1) + d.nActs := by
    unfold actsBefore
    have h1 : dms = dms.take (dms.length - 1) ++ [d] := by
      have h2 : dms.take (dms.length - 1 + 1) = dms := List.take_of_length_le (by omega)
      rw [List.take_add_one, hd] at h2
      simpa using h2.symm
    conv_lhs => rw [h1]
    simp
  cases hs : separate pinv m dms wfss with
  | error e => exact ⟨e, rfl⟩
  | ok cm =>
    obtain ⟨w, ws, a, h1, h2, h3, _⟩ := C67_own_sensor_partial pinv m dms wfss
      ((wfss.map fun ws => ws.start + ws.nMeas).sum) cm hs (dms.length - 1) d hd
      (fun ws hws => List.single_le_sum (by simp) _ (List.mem_map.mpr ⟨ws, hws, rfl⟩))
    exfalso
    unfold sepImat at h3
    simp only [hd, h1, h2, getDmImat_eq m dms wfss _ w d ws hd h2] at h3
    unfold fitInto block at h3
    simp only at h3
    rw [if_neg] at h3
    · cases h3
    · unfold fitsAxis
      omega

/-- **C67 is violated silently**: two mirrors with their own sensors, of three and one actuators; the first has lost one.  The matrix inverted for the first mirror is made of its two rows and the row of the other mirror,
and the one of the second mirror does not exist. -/
theorem C67_violated :
    (sepImat (ofRows 2 [[1, 2], [3, 4], [50, 60]]) [⟨3, some 0, 0⟩, ⟨1, some 1, 0⟩] [⟨0, 1⟩, ⟨1, 1⟩] 0).map
      (fun g => (List.range g.rows).map fun i => g.px i 0) = .ok [1, 3, 50] ∧
    (sepImat (ofRows 2 [[1, 2], [3, 4], [50, 60]]) [⟨3, some 0, 0⟩, ⟨1, some 1, 0⟩] [⟨0, 1⟩, ⟨1, 1⟩] 1).map
      (fun _ => ()) = .error .valueError := by decide +kernel

/-- **C67 is violated without a sensor in the configuration**: a mirror that is to use all sensors makes the computation fail. -/
theorem C67_all_sensors_fails (pinv : ℚ → Arr2 → ℕ → ℕ → ℚ) (m : Arr2) (dms : List SepDm) (wfss : List SepWfs)
    (d : SepDm) (hd : d ∈ dms) (hw : d.wfs = none) :
    (∃ e, separate pinv m dms wfss = .error e) ∧ ∀ k, dms[k]? = some d → sepImat m dms wfss k = .error .attributeError := by
  refine ⟨?_, fun k hk => by simp [sepImat, hk, hw]⟩
  obtain ⟨k, hk, rfl⟩ := List.mem_iff_getElem.mp hd
  cases hs : separate pinv m dms wfss with
  | error e => exact ⟨e, rfl⟩
  | ok cm =>
    obtain ⟨w, _, _, h1, _⟩ := C67_own_sensor_partial pinv m dms wfss
      ((wfss.map fun ws => ws.start + ws.nMeas).sum) cm hs k dms[k] (List.getElem?_eq_getElem hk)
      (fun ws hws => List.single_le_sum (by simp) _ (List.mem_map.mpr ⟨ws, hws, rfl⟩))
    rw [hw] at h1; cases h1

/-- Two mirrors, two sensors, the "inverse" being the transpose: each mirror follows its own sensor. -/
example : (separate (fun _ a i j => a.px j i) (ofRows 3 [[1, 2, 3], [4, 5, 6], [7, 8, 9]]) [⟨1, some 0, 0⟩, ⟨2, some 1, 0⟩]
    [⟨0, 1⟩, ⟨1, 2⟩]).map (fun cm => (List.range 3).map fun j => command 3 cm (fun i => [100, 10, 1].getD i 0) j) =
    .ok [100, 56, 89] := by decide +kernel

end Soapy.Props
