/-
Property theorems C20–C23: interaction and control matrices on disk.
-/
import Verif.Lemmas.Persist
import Verif.Props.Mirror
import Verif.Props.Control

namespace Soapy.Props

open Soapy.Mirror Soapy.Vec Soapy.Persist

/-- Total numbers of actuators of a list of mirrors. -/
def totalActuators (dms : List Dm) : ℕ := (dms.map Dm.nActs).sum

/-- **C20.** Make an interaction matrix for mirrors `dms` of a fresh simulation, save it in any directory (without
separately provided influence functions), and load it in a fresh simulation with the same configuration: matrix, active actuators
and remaining influence functions of every mirror are those of the first simulation. -/
theorem C20_round_trip (cfg : Cfg) (sense : ℕ → Arr2 → List ℚ) (dms dms' : List Dm) (m : List (List ℚ))
    (hmake : makeIMat cfg sense 0 dms = .ok (dms', m)) (dir : Dir) (hs : ∀ i s, dir.shapes i ≠ .whole s) :
    load cfg (runSteps (saveSteps (cfg.totalActs, cfg.totalMeas) cfg.totalMeas m (dms'.map Dm.valid)) dir) dms =
      (dms', .ok m) := by
  obtain ⟨hf, hm⟩ := makeIMat_filtered cfg sense 0 dms dms' m hmake
  have h3 : runSteps (writeSteps putImat ⟨some (cfg.totalActs, cfg.totalMeas), cfg.totalMeas, m⟩) dir =
      putImat (.whole ⟨some (cfg.totalActs, cfg.totalMeas), cfg.totalMeas, m⟩)
        (putImat .torn (putImat .absent dir)) := rfl
  obtain ⟨g1, g2, g3, _⟩ := runSteps_saveActs (dms'.map Dm.valid) 0
    (runSteps (writeSteps putImat ⟨some (cfg.totalActs, cfg.totalMeas), cfg.totalMeas, m⟩) dir)
  unfold saveSteps
  rw [runSteps_append]
  have hl := loadDms_whole _ dms dms' 0 hf (fun i d hd => g3 i d.valid (by simp [hd]))
    (fun i s => by rw [g2, h3]; exact hs i s)
  unfold load
  rw [g1, h3]
  simp only [putImat, File.read]
  rw [h3] at hl
  simp only [putImat] at hl
  rw [hl]
  simp [hm]

/-- **C14 (several mirrors).** The interaction matrix is the stack, in the order of the mirrors, of the matrices measured by poking each
mirror on its own, and each mirror keeps the flags found in its own measurement. -/
theorem C14_stacked (cfg : Cfg) (sense : ℕ → Arr2 → List ℚ) (dms dms' : List Dm) (m : List (List ℚ))
    (h : makeIMat cfg sense 0 dms = .ok (dms', m)) :
    ∃ blocks : List (List (List ℚ)), m = blocks.flatten ∧ blocks.length = dms.length ∧
      dms'.length = dms.length ∧
      ∀ (k : ℕ) (d d' : Dm) (b : List (List ℚ)), dms[k]? = some d → dms'[k]? = some d' → blocks[k]? = some b →
        makeDmIMat d.nActs cfg.totalMeas (dmFrame cfg.scrn d.nElem 0 d.shapes (zero2 cfg.scrn)) (sense k) =
          .ok (d'.valid, b) := by
  have gen : ∀ (dms dms' : List Dm) (i : ℕ) (m : List (List ℚ)), makeIMat cfg sense i dms = .ok (dms', m) →
      ∃ blocks : List (List (List ℚ)), m = blocks.flatten ∧ blocks.length = dms.length ∧
      dms'.length = dms.length ∧
      ∀ (k : ℕ) (d d' : Dm) (b : List (List ℚ)), dms[k]? = some d → dms'[k]? = some d' → blocks[k]? = some b →
        makeDmIMat d.nActs cfg.totalMeas (dmFrame cfg.scrn d.nElem 0 d.shapes (zero2 cfg.scrn)) (sense (i + k)) =
          .ok (d'.valid, b) := by
    intro dms
    induction dms with
    | nil =>
      intro dms' i m h
      simp [makeIMat] at h
      obtain ⟨rfl, rfl⟩ := h
      exact ⟨[], rfl, rfl, rfl, by simp⟩
    | cons d ds ih =>
      intro dms' i m h
      rw [makeIMat] at h
      cases h1 : makeDmIMat d.nActs cfg.totalMeas
          (fun c => dmFrame cfg.scrn d.nElem 0 d.shapes (zero2 cfg.scrn) c) (sense i) with
      | error e => rw [h1] at h; cases h
      | ok p =>
        obtain ⟨flags, rows⟩ := p
        rw [h1] at h
        dsimp only at h
        cases h2 : setValid d.shapes flags with
        | error e => rw [h2] at h; cases h
        | ok q =>
          obtain ⟨n, kept⟩ := q
          rw [h2] at h
          dsimp only at h
          cases h3 : makeIMat cfg sense (i + 1) ds with
          | error e => rw [h3] at h; cases h
          | ok q =>
            obtain ⟨ds', rows'⟩ := q
            rw [h3] at h
            simp only [Except.ok.injEq, Prod.mk.injEq] at h
            obtain ⟨rfl, rfl⟩ := h
            obtain ⟨bs, b1, b2, b3, b4⟩ := ih ds' (i + 1) rows' h3
            refine ⟨rows :: bs, by simp [b1], by simp [b2], by simp [b3], ?_⟩
            intro k x x' b hx hx' hb
            cases k with
            | zero =>
              simp at hx hx' hb
              subst hx; subst hx'; subst hb
              exact h1
            | succ k =>
              rw [show i + (k + 1) = i + 1 + k by omega]
              exact b4 k x x' b (by simpa using hx) (by simpa using hx') (by simpa using hb)
  simpa using gen dms dms' 0 m h

/-- Three actuators, the second of which does nothing, and sensors that measure two differences. -/
def toyDm : Dm := ⟨3, 2, [true, true, true], toyShapes3⟩
def toySense : ℕ → Arr2 → List ℚ := fun _ s => [s.px 1 0 - s.px 0 0, s.px 0 1 - s.px 0 0]
def toyCfg : Cfg := ⟨6, 2, 2⟩

example : (makeIMat toyCfg toySense 0 [toyDm, toyDm]).map
    (fun r => (r.1.map fun d => (d.valid, d.shapes.length), r.2)) =
    .ok ([([true, false, true], 2), ([true, false, true], 2)], [[-1, 0], [0, -1], [-1, 0], [0, -1]]) := by
  decide +kernel

/-- **C21 (header).** A saved matrix whose header does not give the configured numbers of actuators and measurements, or that is
missing, unreadable or foreign, is rejected without any effect on the mirrors; the simulation then makes a new matrix, exactly as without
any file. -/
theorem C21_header_mismatch_clean (cfg : Cfg) (sense : ℕ → Arr2 → List ℚ) (dir : Dir) (dms : List Dm)
    (h : ∀ f, dir.imat = .whole f → f.hdr ≠ some (cfg.totalActs, cfg.totalMeas)) :
    (∃ e, load cfg dir dms = (dms, .error e)) ∧
      ensure cfg sense dir dms = makeIMat cfg sense 0 dms ∧
      ensure cfg sense dir dms = ensure cfg sense emptyDir dms := by
  have hload : ∃ e, load cfg dir dms = (dms, .error e) := by
    unfold load
    cases hi : dir.imat with
    | absent => exact ⟨_, rfl⟩
    | torn => exact ⟨_, rfl⟩
    | whole f =>
      simp only [File.read]
      cases hh : f.hdr with
      | none => exact ⟨_, rfl⟩
      | some p =>
        obtain ⟨a, m⟩ := p
        dsimp only
        rw [if_pos]
        · exact ⟨_, rfl⟩
        · by_contra hc
          push Not at hc
          exact h f hi (by rw [hh, hc.1, hc.2])
  obtain ⟨e, he⟩ := hload
  have h1 : ensure cfg sense dir dms = makeIMat cfg sense 0 dms := by unfold ensure; rw [he]
  exact ⟨⟨e, he⟩, h1, by rw [h1]; rfl⟩

/-- **C21 (reasons).**  Which exception the traceback in the log ends with: a matrix without the two cards gives `KeyError`, one made for other numbers of actuators or measurements `IOError`. -/
theorem C21_reasons (cfg : Cfg) (dir : Dir) (dms : List Dm) (f : ImatFile) (h : dir.imat = .whole f) :
    (f.hdr = none → load cfg dir dms = (dms, .error .keyError)) ∧ (∀ a m, f.hdr = some (a, m) → (a, m) ≠ (cfg.totalActs, cfg.totalMeas) → load cfg dir dms = (dms, .error .ioError)) := by
  constructor
  · intro hh
    unfold load
    simp only [h, File.read, hh]
  · intro a m hh hne
    unfold load
    simp only [h, File.read, hh]
    rw [if_pos]
    by_contra hc
    push Not at hc
    exact hne (by rw [hc.1, hc.2])

/-- A matrix saved by another program. -/
example : load toyCfg { emptyDir with imat := .whole ⟨none, 2, []⟩ } [toyDm] = ([toyDm], .error .keyError) :=
  (C21_reasons toyCfg { emptyDir with imat := .whole ⟨none, 2, []⟩ } [toyDm] ⟨none, 2, []⟩ rfl).1 rfl

example : ∃ e, load toyCfg { emptyDir with imat := .whole ⟨some (5, 2), 2, []⟩ } [toyDm] = ([toyDm], .error e) :=
  (C21_header_mismatch_clean toyCfg toySense _ [toyDm] (by
    intro f hf
    simp at hf
    rw [← hf]; simp [toyCfg])).1

/-- **C21 (what is accepted).** A matrix that is accepted was saved for the configured numbers of actuators and measurements, has one row per actuator
that the mirrors now consider active, and one column per measurement. -/
theorem C21_accepts_only_matching (cfg : Cfg) (dir : Dir) (dms ds : List Dm) (m : List (List ℚ))
    (h : load cfg dir dms = (ds, .ok m)) :
    ∃ f, dir.imat = .whole f ∧ f.hdr = some (cfg.totalActs, cfg.totalMeas) ∧ f.data = m ∧
      f.cols = cfg.totalMeas ∧ m.length = (ds.map fun d => d.valid.count true).sum := by
  have hcount : ∀ (dms ds : List Dm) (k n : ℕ), loadDms dir k dms = (ds, .ok n) →
      n = (ds.map fun d => d.valid.count true).sum := by
    intro dms
    induction dms with
    | nil => intro ds k n h; simp [loadDms] at h; obtain ⟨rfl, rfl⟩ := h; rfl
    | cons d rest ih =>
      intro ds k n h
      rw [loadDms] at h
      cases h1 : (dir.acts k).read with
      | error e => rw [h1] at h; simp at h
      | ok v =>
        rw [h1] at h
        dsimp only at h
        cases h2 : setValid d.shapes v with
        | error e => rw [h2] at h; simp at h
        | ok p =>
          obtain ⟨c, kept⟩ := p
          have hc := setValid_count _ _ _ _ h2
          rw [h2] at h
          dsimp only at h
          generalize hr : loadDms dir (k + 1) rest = r at h
          obtain ⟨ds', q⟩ := r
          cases q with
          | error e => simp at h
          | ok n' =>
            have := ih ds' (k + 1) n' hr
            simp only [Prod.mk.injEq, Except.ok.injEq] at h
            obtain ⟨rfl, rfl⟩ := h
            cases (dir.shapes k).read <;> simp [hc, this]
  unfold load at h
  cases hi : dir.imat with
  | absent => rw [hi] at h; simp [File.read] at h
  | torn => rw [hi] at h; simp [File.read] at h
  | whole f =>
    rw [hi] at h
    simp only [File.read] at h
    cases hh : f.hdr with
    | none => rw [hh] at h; simp at h
    | some p =>
      obtain ⟨a, b⟩ := p
      rw [hh] at h
      dsimp only at h
      split_ifs at h with hc
      · simp at h
      · push Not at hc
        generalize hr : loadDms dir 0 dms = r at h
        obtain ⟨ds', q⟩ := r
        cases q with
        | error e => simp at h
        | ok n =>
          dsimp only at h
          split_ifs at h with hd
          · simp only [Prod.mk.injEq, Except.ok.injEq] at h
            obtain ⟨rfl, rfl⟩ := h
            exact ⟨f, rfl, by rw [hh, hc.1, hc.2], rfl, hd.2, by rw [hd.1, hcount _ _ _ _ hr]⟩
          · simp at h

theorem setValid_all {α : Type} (shapes : List α) :
    setValid shapes (List.replicate shapes.length true) = .ok (shapes.length, shapes) := by
  have go : ∀ (n i : ℕ), i + n = shapes.length →
      setValid.go shapes i (List.replicate n true) = .ok (shapes.drop i) := by
    intro n
    induction n with
    | zero => intro i hi; simp [setValid.go, List.drop_of_length_le (show shapes.length ≤ i by omega)]
    | succ n ih =>
      intro i hi
      rw [List.replicate_succ, setValid.go, if_pos rfl, List.getElem?_eq_getElem (by omega)]
      dsimp only
      rw [ih (i + 1) (by omega)]
      dsimp only
      rw [List.drop_eq_getElem_cons (by omega : i < shapes.length)]
  unfold setValid
  rw [go shapes.length 0 (by omega)]
  simp

/-- **C21 (partial: nothing dropped).** If the saved flags that can be read keep all actuators, then whatever else is in the
directory, a matrix that cannot be loaded is made anew exactly as without any file.
Missing: with dropped actuators a failed load leaves the mirrors changed (`C21_violated`). -/
theorem C21_nothing_dropped_partial (cfg : Cfg) (sense : ℕ → Arr2 → List ℚ) (dir : Dir) (dms : List Dm)
    (hacts : ∀ (i : ℕ) (d : Dm), dms[i]? = some d → ∀ v, dir.acts i = .whole v →
      v = List.replicate d.shapes.length true)
    (hs : ∀ i s, dir.shapes i ≠ .whole s)
    (hfail : ∃ ds e, load cfg dir dms = (ds, .error e)) :
    ensure cfg sense dir dms = ensure cfg sense emptyDir dms := by
  have gen : ∀ (dms : List Dm) (k : ℕ),
      (∀ (i : ℕ) (d : Dm), dms[i]? = some d → ∀ v, dir.acts (k + i) = .whole v →
        v = List.replicate d.shapes.length true) →
      List.Forall₂ (fun d d' => d'.nActs = d.nActs ∧ d'.nElem = d.nElem ∧ d'.shapes = d.shapes) dms
        (loadDms dir k dms).1 := by
    intro dms
    induction dms with
    | nil => intro k _; simp [loadDms]
    | cons d ds ih =>
      intro k h
      have hrefl : List.Forall₂ (fun d d' : Dm => d'.nActs = d.nActs ∧ d'.nElem = d.nElem ∧
          d'.shapes = d.shapes) ds ds := List.forall₂_same.mpr fun _ _ => ⟨rfl, rfl, rfl⟩
      rw [loadDms]
      have hrd : (dir.shapes k).read = .error .ioError := by
        cases hsk : dir.shapes k with
        | whole s => exact absurd hsk (hs k s)
        | absent => rfl
        | torn => rfl
      cases hk : dir.acts k with
      | absent => simp only [File.read]; exact .cons ⟨rfl, rfl, rfl⟩ hrefl
      | torn => simp only [File.read]; exact .cons ⟨rfl, rfl, rfl⟩ hrefl
      | whole v =>
        have hv := h 0 d (by simp) v (by simpa using hk)
        subst hv
        have hset := setValid_all d.shapes
        have e1 : (File.whole (List.replicate d.shapes.length true)).read =
          (.ok (List.replicate d.shapes.length true) : Except PyErr _) := rfl
        simp only [e1, hset, hrd]
        refine .cons ⟨rfl, rfl, rfl⟩ (ih (k + 1) fun i d' hd w hw => ?_)
        exact h (i + 1) d' (by simpa using hd) w (by rwa [show k + (i + 1) = k + 1 + i by omega])
  have hfa := gen dms 0 (by simpa using hacts)
  have hempty : ensure cfg sense emptyDir dms = makeIMat cfg sense 0 dms := rfl
  rw [hempty]
  obtain ⟨ds, e, he⟩ := hfail
  have hcase : ds = dms ∨ ds = (loadDms dir 0 dms).1 := by
    unfold load at he
    cases hi : dir.imat.read with
    | error e' => rw [hi] at he; simp at he; exact Or.inl he.1.symm
    | ok f =>
      rw [hi] at he
      dsimp only at he
      cases hh : f.hdr with
      | none => rw [hh] at he; simp at he; exact Or.inl he.1.symm
      | some p =>
        obtain ⟨a, m⟩ := p
        rw [hh] at he
        dsimp only at he
        split_ifs at he with hc
        · simp at he; exact Or.inl he.1.symm
        · right
          generalize loadDms dir 0 dms = p at he
          obtain ⟨x, y⟩ := p
          cases y with
          | error e' => simp at he; exact he.1.symm
          | ok n =>
            dsimp only at he
            split_ifs at he <;> exact (congrArg Prod.fst he).symm
  unfold ensure
  rw [he]
  dsimp only
  rcases hcase with h | h
  · rw [h]
  · rw [h]; exact makeIMat_congr cfg sense 0 dms _ hfa

/-- **C21 is violated after dropped actuators**: the flags of the second mirror are missing, so loading fails, but the first
mirror has already lost its dead actuator; making a new matrix then raises an exception, although it succeeds without any files. -/
theorem C21_violated :
    (ensure toyCfg toySense ⟨.whole ⟨some (6, 2), 2, []⟩,
        fun i => if i = 0 then .whole [true, false, true] else .absent, fun _ => .absent⟩ [toyDm, toyDm]).map
      (fun _ => ()) = .error .valueError ∧
    (ensure toyCfg toySense emptyDir [toyDm, toyDm]).map (fun _ => ()) = .ok () := by
  decide +kernel

/-- **C22 (partial: nothing older in the directory, or the same flags).** Let the process die after any number `k` of steps
(`k ≥ 1`) of saving; flag files already in the directory hold the same flags.  Then loading either fails or gives exactly the
matrix and the mirrors that were being saved.  In a directory without flag files it fails at every crash point before the
end.  Missing: flags left by a different earlier run (`C22_mixed`), and the rebuild after a failed load
(`C22_rebuild_fails`). -/
theorem C22_no_mixture_partial (cfg : Cfg) (sense : ℕ → Arr2 → List ℚ) (dms dms' : List Dm)
    (m : List (List ℚ)) (hmake : makeIMat cfg sense 0 dms = .ok (dms', m)) (dir : Dir)
    (hs : ∀ i s, dir.shapes i ≠ .whole s)
    (hold : ∀ (i : ℕ) (v : List Bool), i < dms.length → dir.acts i = .whole v →
      (dms'.map Dm.valid)[i]? = some v)
    (k : ℕ) (hk : 1 ≤ k) :
    let steps := saveSteps (cfg.totalActs, cfg.totalMeas) cfg.totalMeas m (dms'.map Dm.valid)
    let crashed := runSteps (steps.take k) dir
    ((∃ ds e, load cfg crashed dms = (ds, .error e)) ∨ load cfg crashed dms = (dms', .ok m)) ∧
    ((∀ i, i < dms.length → ∀ v, dir.acts i ≠ .whole v) → k < steps.length →
      ∃ ds e, load cfg crashed dms = (ds, .error e)) := by
  intro steps crashed
  obtain ⟨hf, hm⟩ := makeIMat_filtered cfg sense 0 dms dms' m hmake
  have hlen : dms'.length = dms.length := hf.length_eq.symm
  set F : ImatFile := ⟨some (cfg.totalActs, cfg.totalMeas), cfg.totalMeas, m⟩ with hF
  have hsteps : steps = writeSteps putImat F ++ saveActs 0 (dms'.map Dm.valid) := rfl
  by_cases h3 : k < 3
  · have herr : ∃ ds e, load cfg crashed dms = (ds, .error e) := by
      have hi : crashed.imat.read = .error .ioError := by
        have hc : crashed = runSteps ((writeSteps putImat F ++ saveActs 0 (dms'.map Dm.valid)).take k) dir := rfl
        rw [hc, List.take_append]
        have hk0 : k - (writeSteps putImat F).length = 0 := by simp [writeSteps]; omega
        rw [hk0, List.take_zero, List.append_nil]
        rcases k with _ | _ | _ | k
        · omega
        · rfl
        · rfl
        · omega
      unfold load
      rw [hi]
      exact ⟨_, _, rfl⟩
    exact ⟨Or.inl herr, fun _ _ => herr⟩
  · -- the matrix file is complete
    have hc : crashed = runSteps ((saveActs 0 (dms'.map Dm.valid)).take (k - 3))
        (putImat (.whole F) (putImat .torn (putImat .absent dir))) := by
      have : crashed = runSteps ((writeSteps putImat F ++ saveActs 0 (dms'.map Dm.valid)).take k) dir := rfl
      have h3' : (writeSteps putImat F).take k = writeSteps putImat F :=
        List.take_of_length_le (by simp [writeSteps]; omega)
      rw [this, List.take_append, runSteps_append, h3']
      rfl
    set d0 := putImat (.whole F) (putImat .torn (putImat .absent dir)) with hd0
    have hd0a : d0.acts = dir.acts := rfl
    have hd0s : d0.shapes = dir.shapes := rfl
    obtain ⟨g1, g2⟩ := take_steps_imat (dms'.map Dm.valid) 0 (k - 3) d0
    rw [← hc] at g1 g2
    have hread : crashed.imat.read = .ok F := by rw [g1]; rfl
    have hloadcase : ∀ ds r, loadDms crashed 0 dms = (ds, r) → load cfg crashed dms =
        match r with
        | .error e => (ds, .error e)
        | .ok n => if F.data.length = n ∧ F.cols = cfg.totalMeas then (ds, .ok F.data) else (ds, .error .ioError) := by
      intro ds r hr
      unfold load
      rw [hread]
      simp only [hF]
      rw [if_neg (by simp), hr]
      cases r <;> rfl
    constructor
    · by_cases hall : ∀ i, i < dms.length → ∃ v, crashed.acts i = .whole v
      · right
        have hw := loadDms_whole crashed dms dms' 0 hf (fun i d hd => by
            have hi : i < dms.length := by
              by_contra hcon
              rw [List.getElem?_eq_none (by omega)] at hd; simp at hd
            rw [Nat.zero_add]
            obtain ⟨v, hv⟩ := hall i hi
            have hvd : (dms'.map Dm.valid)[i]? = some v := by
              rcases take_steps_acts (dms'.map Dm.valid) 0 (k - 3) d0 i with h | h | ⟨_, w, hw1, hw2⟩
              · rw [← hc, hv, hd0a] at h
                exact hold i v hi h.symm
              · rw [← hc] at h; exact absurd hv (h v)
              · rw [← hc, hv] at hw2
                simp at hw2
                rw [hw2]; simpa using hw1
            rw [List.getElem?_map, hd] at hvd
            simp at hvd
            rw [hv, hvd]) (fun i s => by rw [g2, hd0s]; exact hs i s)
        rw [hloadcase _ _ hw]
        simp [hF, hm]
      · left
        push Not at hall
        obtain ⟨i, hi, hv⟩ := hall
        obtain ⟨ds, e, he⟩ := loadDms_missing crashed dms 0 i hi (by simpa using hv)
        exact ⟨ds, e, by rw [hloadcase _ _ he]⟩
    · intro hnone hlt
      obtain ⟨j, hj, hw⟩ := take_steps_missing (dms'.map Dm.valid) 0 (k - 3)
        (by rw [hsteps] at hlt; simp [writeSteps] at hlt ⊢; omega) d0
        (by intro j hj w; rw [hd0a, Nat.zero_add]; exact hnone j (by simpa [hlen] using hj) w)
      rw [← hc] at hw
      obtain ⟨ds, e, he⟩ := loadDms_missing crashed dms 0 j (by simpa [hlen] using hj) hw
      exact ⟨ds, e, by rw [hloadcase _ _ he]⟩

/-- **C22 is violated by a mixture**: the directory holds flags of an earlier run with another dead actuator; the process dies after the new
matrix has been written.  The next run loads the new matrix with the old flags and does not notice. -/
theorem C22_mixed :
    (let old : Dir := ⟨.absent, fun i => if i = 0 then .whole [false, true, true] else .absent, fun _ => .absent⟩
     let crashed := runSteps ((saveSteps (3, 2) 2 [[-1, 0], [0, -1]] [[true, false, true]]).take 3) old
     (load ⟨3, 2, 2⟩ crashed [toyDm]).1.map Dm.valid = [[false, true, true]] ∧
       (load ⟨3, 2, 2⟩ crashed [toyDm]).2 = .ok [[-1, 0], [0, -1]]) := by decide +kernel

/-- **C22 is violated by a crash between the flag files** in a directory that was empty: the next run fails with an exception
instead of rebuilding. -/
theorem C22_rebuild_fails :
    (ensure toyCfg toySense (runSteps ((saveSteps (6, 2) 2 [[-1, 0], [0, -1], [-1, 0], [0, -1]]
      [[true, false, true], [true, false, true]]).take 6) emptyDir) [toyDm, toyDm]).map (fun _ => ()) =
      .error .valueError := by decide +kernel

section C23

private theorem stretch_many {α : Type} (l : List α) (n : ℕ) (h : l.length ≠ 1) : stretch l n = l := by
  match l, h with
  | [], _ => rfl
  | [_], h => simp at h
  | _ :: _ :: _, _ => rfl

private theorem stretch_pair (cs ds : List ℚ) (hl : cs.length = ds.length ∨ cs.length = 1 ∨ ds.length = 1) (i : ℕ) (x y : ℚ) (hx : cs[i]? = some x ∨ cs = [x]) (hy : ds[i]? = some y ∨ ds = [y]) :
    ∃ k : ℕ, (stretch cs ds.length)[k]? = some x ∧ (stretch ds cs.length)[k]? = some y := by
  have rep : ∀ (n k : ℕ) (z : ℚ), k < n → (List.replicate n z)[k]? = some z := fun n k z h => by simp [List.getElem?_replicate, h]
  have lt : ∀ (l : List ℚ) (z : ℚ), l[i]? = some z → i < l.length := fun l z h => (List.getElem?_eq_some_iff.mp h).1
  rcases hx with hx | rfl <;> rcases hy with hy | rfl
  · have hi := lt _ _ hx
    have hj := lt _ _ hy
    rcases hl with hl | hl | hl
    · exact ⟨i, by rwa [stretch_self _ _ hl], by rwa [stretch_self _ _ hl.symm]⟩
    · obtain ⟨a, rfl⟩ := List.length_eq_one_iff.mp hl
      simp only [List.length_singleton, Nat.lt_one_iff] at hi
      subst hi
      simp only [List.getElem?_cons_zero, Option.some.injEq] at hx
      subst hx
      exact ⟨0, rep _ _ _ hj, by rw [List.length_singleton]; rcases ds with _ | ⟨b, _ | ⟨c, ds⟩⟩ <;> simpa [stretch] using hy⟩
    · obtain ⟨a, rfl⟩ := List.length_eq_one_iff.mp hl
      simp only [List.length_singleton, Nat.lt_one_iff] at hj
      subst hj
      simp only [List.getElem?_cons_zero, Option.some.injEq] at hy
      subst hy
      exact ⟨0, by rw [List.length_singleton]; rcases cs with _ | ⟨b, _ | ⟨c, cs⟩⟩ <;> simpa [stretch] using hx, rep _ _ _ hi⟩
  · exact ⟨i, by rw [List.length_singleton]; rcases cs with _ | ⟨b, _ | ⟨c, cs⟩⟩ <;> simpa [stretch] using hx, rep _ _ _ (lt _ _ hx)⟩
  · exact ⟨i, rep _ _ _ (lt _ _ hy), by rw [List.length_singleton]; rcases ds with _ | ⟨b, _ | ⟨c, ds⟩⟩ <;> simpa [stretch] using hy⟩
  · exact ⟨0, rfl, rfl⟩

/-- **C23 (another number of mirrors).**  A control matrix saved with conditioning parameters of another number of mirrors is not reused, if neither number is one. -/
theorem C23_other_mirrors (shape : ℕ × ℕ) (conds cs : List ℚ) (f : CmatFile) (n : ℕ) (acts : List ℕ) (types : List String) (compute : Except PyErr (List (List ℚ))) (hh : f.hdr = some (n, acts, types, cs)) (hl : cs.length ≠ conds.length)
    (h1 : cs.length ≠ 1) (h2 : conds.length ≠ 1) : loadCMat shape conds (.whole f) = .error .valueError ∧ ensureCMat shape conds (.whole f) compute = compute := by
  have : loadCMat shape conds (.whole f) = .error .valueError := by
    unfold loadCMat
    simp only [File.read]
    rw [hh]
    simp only [allclose]
    rw [stretch_many cs _ h1, stretch_many conds _ h2, if_neg hl]
  exact ⟨this, by unfold ensureCMat; rw [this]⟩

/-- **C23 (what is checked).** A control matrix is reused only if its shape is the number of measurements times the number of
actuators *before* dropping, and — if the file says so — its conditioning parameters agree. In all other cases
a new one is computed. -/
theorem C23_shape_checked (shape : ℕ × ℕ) (conds : List ℚ) (file : File CmatFile)
    (compute : Except PyErr (List (List ℚ))) :
    (∀ c, loadCMat shape conds file = .ok c → ∃ f, file = .whole f ∧ (f.rows, f.cols) = shape ∧ c = f.data ∧
      ∀ n acts types cs, f.hdr = some (n, acts, types, cs) → (cs.length = conds.length ∨ cs.length = 1 ∨ conds.length = 1) ∧
        ∀ (i : ℕ) (x y : ℚ), (cs[i]? = some x ∨ cs = [x]) → (conds[i]? = some y ∨ conds = [y]) → |x - y| ≤ 1 / 10 ^ 8 + 1 / 10 ^ 5 * |y|) ∧
    ((∀ f, file = .whole f → (f.rows, f.cols) ≠ shape) → ensureCMat shape conds file compute = compute) := by
  have h1 : ∀ c, loadCMat shape conds file = .ok c → ∃ f, file = .whole f ∧ (f.rows, f.cols) = shape ∧ c = f.data ∧
      ∀ n acts types cs, f.hdr = some (n, acts, types, cs) → (cs.length = conds.length ∨ cs.length = 1 ∨ conds.length = 1) ∧
        ∀ (i : ℕ) (x y : ℚ), (cs[i]? = some x ∨ cs = [x]) → (conds[i]? = some y ∨ conds = [y]) → |x - y| ≤ 1 / 10 ^ 8 + 1 / 10 ^ 5 * |y| := by
    intro c hc
    unfold loadCMat at hc
    cases hf : file with
    | absent => rw [hf] at hc; cases hc
    | torn => rw [hf] at hc; cases hc
    | whole f =>
      rw [hf] at hc
      simp only [File.read] at hc
      refine ⟨f, rfl, ?_⟩
      cases hh : f.hdr with
      | none =>
        rw [hh] at hc
        dsimp only at hc
        split_ifs at hc with hsh
        simp at hc hsh
        exact ⟨by simpa using hsh, hc.symm, fun n a t cs h => by simp at h⟩
      | some p =>
        obtain ⟨n, acts, types, cs⟩ := p
        rw [hh] at hc
        dsimp only at hc
        cases hcl : allclose cs conds with
        | error e => rw [hcl] at hc; cases hc
        | ok b =>
          cases b with
          | false => rw [hcl] at hc; cases hc
          | true =>
            rw [hcl] at hc
            dsimp only at hc
            split_ifs at hc with hsh
            simp at hc hsh
            refine ⟨by simpa using hsh, hc.symm, ?_⟩
            intro n' a' t' cs' h
            simp at h
            obtain ⟨_, _, _, rfl⟩ := h
            unfold allclose at hcl
            simp only at hcl
            split_ifs at hcl with hl
            have hlen : cs.length = conds.length ∨ cs.length = 1 ∨ conds.length = 1 := by
              by_contra hcon
              push Not at hcon
              rw [stretch_many cs _ hcon.2.1, stretch_many conds _ hcon.2.2] at hl
              exact hcon.1 hl
            refine ⟨hlen, ?_⟩
            intro i x y hx hy
            simp only [Except.ok.injEq, List.all_eq_true] at hcl
            obtain ⟨k, h1, h2⟩ := stretch_pair cs conds hlen i x y hx hy
            have hmem := hcl (decide (|x - y| ≤ 1 / 10 ^ 8 + 1 / 10 ^ 5 * |y|)) (by
              apply List.mem_of_getElem? (i := k)
              rw [List.getElem?_zipWith, h1, h2])
            simpa using hmem
  refine ⟨h1, ?_⟩
  intro hne
  unfold ensureCMat
  cases hl : loadCMat shape conds file with
  | error e => rfl
  | ok c =>
    obtain ⟨f, hf, hs, _⟩ := h1 c hl
    exact absurd hs (hne f hf)

/-- **C23 (partial: nothing dropped).** If no actuator was dropped, a reused control matrix has the size of the system in
use: measurements times commands.  Missing: with dropped actuators see `C23_wrong_size_accepted`. -/
theorem C23_size_partial (nMeas : ℕ) (dms : List Dm) (conds : List ℚ) (file : File CmatFile) (c : List (List ℚ))
    (hall : ∀ d ∈ dms, d.valid.count true = d.nActs)
    (h : loadCMat (nMeas, totalActuators dms) conds file = .ok c) :
    ∃ f, file = .whole f ∧ c = f.data ∧ f.rows = nMeas ∧ f.cols = (dms.map fun d => d.valid.count true).sum := by
  obtain ⟨f, h1, h2, h3, _⟩ := (C23_shape_checked _ conds file (.error .ioError)).1 c h
  simp at h2
  refine ⟨f, h1, h3, h2.1, ?_⟩
  rw [h2.2, totalActuators]
  congr 1
  apply List.map_congr_left
  intro d hd
  exact (hall d hd).symm

/-- With one mirror in the file or in the simulation its parameter is compared with all others: a control matrix for one mirror is reused for two, if the numbers of actuators agree. -/
example : loadCMat (2, 3) [1 / 20, 1 / 20] (.whole ⟨some (1, [3], ["Piezo"], [1 / 20]), 2, 3, [[1, 2, 3], [4, 5, 6]]⟩) = .ok [[1, 2, 3], [4, 5, 6]] ∧
    loadCMat (2, 3) [1 / 20, 1 / 20, 1 / 20] (.whole ⟨some (2, [1, 2], ["TT", "Piezo"], [1 / 20, 1 / 20]), 2, 3, [[1, 2, 3], [4, 5, 6]]⟩) = .error .valueError := by decide +kernel

example : loadCMat (2, 3) [1 / 20] (.whole ⟨some (1, [2], ["Piezo"], [1 / 20]), 2, 3, [[1, 2, 3], [4, 5, 6]]⟩) =
    .ok [[1, 2, 3], [4, 5, 6]] := by decide +kernel

/-- After dropping actuators the control matrix a simulation saves is never reused (it has fewer columns), so it is recomputed
every time. -/
theorem C23_never_reused (nMeas : ℕ) (dms : List Dm) (conds : List ℚ) (f : CmatFile)
    (compute : Except PyErr (List (List ℚ)))
    (hcols : f.cols = (dms.map fun d => d.valid.count true).sum)
    (hdrop : (dms.map fun d => d.valid.count true).sum < totalActuators dms) :
    ensureCMat (nMeas, totalActuators dms) conds (.whole f) compute = compute := by
  refine (C23_shape_checked _ conds _ compute).2 ?_
  intro f' hf'
  simp at hf'
  subst hf'
  simp
  omega

/-- **C23 is violated after dropped actuators**: a matrix with columns for all actuators is accepted although the system has
fewer commands.  With the middle actuator dead (two commands), the reconstruction does not fail: the second remaining
actuator gets the command meant for the dead one. -/
theorem C23_wrong_size_accepted :
    (loadCMat (1, 3) [] (.whole ⟨none, 1, 3, [[1, 20, 300]]⟩)) = .ok [[1, 20, 300]] ∧
    (Control.reconstruct [⟨2, true, 1⟩] 2 (Control.tdot 3 [[1, 20, 300]]) ⟨none⟩ [1]).map (·.2) =
      .ok [1, 20] := by decide +kernel

end C23

end Soapy.Props
