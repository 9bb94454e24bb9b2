/-
Lemmas on saving, loading and rebuilding matrices.
-/
import Verif.Model.Persist
import Verif.Lemmas.Mirror

namespace Soapy.Persist

open Soapy.Mirror Soapy.Vec

/-- `d'` is the mirror `d` after its `valid_actuators` have been set. -/
def Filtered (d d' : Dm) : Prop :=
  d'.nActs = d.nActs ∧ d'.nElem = d.nElem ∧
    setValid d.shapes d'.valid = .ok (d'.valid.count true, d'.shapes)

theorem compact_length {α : Type} (rows : List α) (vs : List Bool) (k : ℕ) (acc : List α) :
    (compact rows vs k acc).length = acc.length := by
  induction rows generalizing vs k acc with
  | nil => simp [compact]
  | cons r rows ih =>
    cases vs with
    | nil => simp [compact]
    | cons v vs => rw [compact]; split_ifs <;> simp [ih]

theorem setValid_count {α : Type} (shapes kept : List α) (v : List Bool) (n : ℕ)
    (h : setValid shapes v = .ok (n, kept)) : n = v.count true := by
  unfold setValid at h
  cases hg : setValid.go shapes 0 v with
  | error e => rw [hg] at h; cases h
  | ok r => rw [hg] at h; simp only [Except.ok.injEq, Prod.mk.injEq] at h; exact h.1.symm

theorem makeIMat_filtered (cfg : Cfg) (sense : ℕ → Arr2 → List ℚ) (k : ℕ) (dms dms' : List Dm)
    (m : List (List ℚ)) (h : makeIMat cfg sense k dms = .ok (dms', m)) :
    List.Forall₂ Filtered dms dms' ∧ m.length = (dms'.map fun d => d.valid.count true).sum := by
  induction dms generalizing k dms' m with
  | nil =>
    simp [makeIMat] at h
    obtain ⟨rfl, rfl⟩ := h
    simp
  | cons d ds ih =>
    rw [makeIMat] at h
    cases h1 : makeDmIMat d.nActs cfg.totalMeas
        (fun c => dmFrame cfg.scrn d.nElem 0 d.shapes (zero2 cfg.scrn) c) (sense k) with
    | error e => rw [h1] at h; cases h
    | ok p =>
      obtain ⟨flags, rows⟩ := p
      rw [h1] at h
      dsimp only at h
      cases h2 : setValid d.shapes flags with
      | error e => rw [h2] at h; cases h
      | ok q =>
        obtain ⟨n, kept⟩ := q
        rw [h2] at h
        dsimp only at h
        cases h3 : makeIMat cfg sense (k + 1) ds with
        | error e => rw [h3] at h; cases h
        | ok q =>
          obtain ⟨ds', rows'⟩ := q
          rw [h3] at h
          simp only [Except.ok.injEq, Prod.mk.injEq] at h
          obtain ⟨rfl, rfl⟩ := h
          obtain ⟨i1, i2⟩ := ih (k + 1) ds' rows' h3
          have hn := setValid_count _ _ _ _ h2
          subst hn
          refine ⟨List.Forall₂.cons ⟨rfl, rfl, h2⟩ i1, ?_⟩
          have hrows : rows.length = flags.count true := by
            unfold makeDmIMat at h1
            cases hm : (List.range d.nActs).mapM (pokeRow d.nActs
                (fun c => dmFrame cfg.scrn d.nElem 0 d.shapes (zero2 cfg.scrn) c) (sense k)) with
            | error e => rw [hm] at h1; cases h1
            | ok im =>
              rw [hm] at h1
              dsimp only at h1
              cases hv : validFlags im with
              | error e => rw [hv] at h1; cases h1
              | ok fl =>
                rw [hv] at h1
                simp only [Except.ok.injEq, Prod.mk.injEq] at h1
                obtain ⟨rfl, rfl⟩ := h1
                rw [compact_length]; simp
          simp [hrows, i2]

/-- A mirror is rebuilt from its sizes and shapes only. -/
theorem makeIMat_congr (cfg : Cfg) (sense : ℕ → Arr2 → List ℚ) (k : ℕ) (dms dms' : List Dm)
    (h : List.Forall₂ (fun d d' => d'.nActs = d.nActs ∧ d'.nElem = d.nElem ∧ d'.shapes = d.shapes) dms dms') :
    makeIMat cfg sense k dms' = makeIMat cfg sense k dms := by
  induction h generalizing k with
  | nil => rfl
  | cons hd _ ih =>
    rename_i d d' ds ds' _
    obtain ⟨nA, nE, v, sh⟩ := d
    obtain ⟨nA', nE', v', sh'⟩ := d'
    obtain ⟨rfl, rfl, rfl⟩ := hd
    simp only [makeIMat, ih]

theorem loadDms_whole (dir : Dir) (dms dms' : List Dm) (k : ℕ) (h : List.Forall₂ Filtered dms dms')
    (ha : ∀ (i : ℕ) (d : Dm), dms'[i]? = some d → dir.acts (k + i) = .whole d.valid)
    (hs : ∀ i, ∀ s, dir.shapes i ≠ .whole s) :
    loadDms dir k dms = (dms', .ok (dms'.map fun d => d.valid.count true).sum) := by
  induction h generalizing k with
  | nil => rfl
  | cons hd _ ih =>
    rename_i d d' ds ds' _
    have h0 := ha 0 d' (by simp)
    rw [Nat.add_zero] at h0
    have ih' := ih (k + 1) (fun i x hx => by
      have := ha (i + 1) x (by simpa using hx)
      rwa [show k + (i + 1) = k + 1 + i by omega] at this)
    have hrd : (dir.shapes k).read = .error .ioError := by
      cases hsk : dir.shapes k with
      | whole s => exact absurd hsk (hs k s)
      | absent => rfl
      | torn => rfl
    obtain ⟨e1, e2, e3⟩ := hd
    have h0r : (dir.acts k).read = .ok d'.valid := by rw [h0]; rfl
    rw [loadDms]
    simp only [h0r, e3, hrd, ih']
    obtain ⟨nA, nE, v, sh⟩ := d
    obtain ⟨nA', nE', v', sh'⟩ := d'
    simp only at e1 e2
    subst e1; subst e2
    simp

theorem loadDms_missing (dir : Dir) (dms : List Dm) (k j : ℕ) (hj : j < dms.length)
    (h : ∀ v, dir.acts (k + j) ≠ .whole v) : ∃ ds e, loadDms dir k dms = (ds, .error e) := by
  induction dms generalizing k j with
  | nil => simp at hj
  | cons d ds ih =>
    rw [loadDms]
    cases hr : (dir.acts k).read with
    | error e => exact ⟨_, e, rfl⟩
    | ok v =>
      dsimp only
      cases hv : setValid d.shapes v with
      | error e => exact ⟨_, e, rfl⟩
      | ok p =>
        obtain ⟨n, kept⟩ := p
        dsimp only
        cases j with
        | zero =>
          exfalso
          rw [Nat.add_zero] at h
          cases hk : dir.acts k with
          | whole w => exact h w hk
          | absent => rw [hk] at hr; cases hr
          | torn => rw [hk] at hr; cases hr
        | succ j =>
          obtain ⟨ds', e, he⟩ := ih (k + 1) j (by simpa using hj)
            (by rw [show k + 1 + j = k + (j + 1) by omega]; exact h)
          rw [he]
          exact ⟨_, e, rfl⟩

theorem runSteps_append (a b : List (Dir → Dir)) (d : Dir) :
    runSteps (a ++ b) d = runSteps b (runSteps a d) := by simp [runSteps]

/-- The effect of writing all flags. -/
theorem runSteps_saveActs (vs : List (List Bool)) (i : ℕ) (d : Dir) :
    (runSteps (saveActs i vs) d).imat = d.imat ∧ (runSteps (saveActs i vs) d).shapes = d.shapes ∧
    (∀ (j : ℕ) (v : List Bool), vs[j]? = some v → (runSteps (saveActs i vs) d).acts (i + j) = .whole v) ∧
    (∀ j, j < i → (runSteps (saveActs i vs) d).acts j = d.acts j) := by
  induction vs generalizing i d with
  | nil => simp [saveActs, runSteps]
  | cons v vs ih =>
    rw [saveActs, runSteps_append]
    have h3 : runSteps (writeSteps (putActs i) v) d = putActs i (.whole v) (putActs i .torn (putActs i .absent d)) := rfl
    obtain ⟨h1, h2, h4, h5⟩ := ih (i + 1) (runSteps (writeSteps (putActs i) v) d)
    refine ⟨by rw [h1, h3]; rfl, by rw [h2, h3]; rfl, ?_, ?_⟩
    · intro j w hw
      cases j with
      | zero =>
        simp at hw; subst hw
        have := h5 i (by omega)
        rw [Nat.add_zero]
        refine this.trans ?_
        rw [h3]
        simp [putActs]
      | succ j =>
        have := h4 j w (by simpa using hw)
        rwa [show i + 1 + j = i + (j + 1) by omega] at this
    · intro j hj
      rw [h5 j (by omega), h3]
      simp [putActs, Nat.ne_of_lt hj]

theorem take_steps_imat (vs : List (List Bool)) (i k : ℕ) (d : Dir) :
    (runSteps ((saveActs i vs).take k) d).imat = d.imat ∧
      (runSteps ((saveActs i vs).take k) d).shapes = d.shapes := by
  induction vs generalizing i k d with
  | nil => simp [saveActs, runSteps]
  | cons v vs ih =>
    rw [saveActs, List.take_append]
    rw [runSteps_append]
    obtain ⟨h1, h2⟩ := ih (i + 1) (k - (writeSteps (putActs i) v).length)
      (runSteps ((writeSteps (putActs i) v).take k) d)
    rw [h1, h2]
    rcases k with _ | _ | _ | k <;> simp [writeSteps, runSteps, putActs]

/-- After a crash while writing the flags, each flag file is complete with the new flags, or as it was, or unreadable. -/
theorem take_steps_acts (vs : List (List Bool)) (i k : ℕ) (d : Dir) (j : ℕ) :
    (runSteps ((saveActs i vs).take k) d).acts j = d.acts j ∨
    (∀ w, (runSteps ((saveActs i vs).take k) d).acts j ≠ .whole w) ∨
    (i ≤ j ∧ ∃ v, vs[j - i]? = some v ∧ (runSteps ((saveActs i vs).take k) d).acts j = .whole v) := by
  induction vs generalizing i k d with
  | nil => left; simp [saveActs, runSteps]
  | cons v vs ih =>
    rw [saveActs, List.take_append, runSteps_append]
    have hone : (runSteps ((writeSteps (putActs i) v).take k) d).acts j = d.acts j ∨
        (∀ w, (runSteps ((writeSteps (putActs i) v).take k) d).acts j ≠ .whole w) ∨
        (j = i ∧ (runSteps ((writeSteps (putActs i) v).take k) d).acts j = .whole v) := by
      by_cases hj : j = i
      · subst hj
        rcases k with _ | _ | _ | k
        · left; rfl
        · right; left; intro w; simp [writeSteps, runSteps, putActs]
        · right; left; intro w; simp [writeSteps, runSteps, putActs]
        · right; right; simp [writeSteps, runSteps, putActs]
      · left
        rcases k with _ | _ | _ | k <;> simp [writeSteps, runSteps, putActs, hj]
    rcases ih (i + 1) (k - (writeSteps (putActs i) v).length)
      (runSteps ((writeSteps (putActs i) v).take k) d) with h | h | ⟨hij, w, hw, h⟩
    · rw [h]
      rcases hone with h' | h' | ⟨h', h''⟩
      · left; exact h'
      · right; left; exact h'
      · right; right
        subst h'
        exact ⟨le_refl _, v, by simp, h''⟩
    · right; left; exact h
    · right; right
      refine ⟨by omega, w, ?_, h⟩
      rw [show j - i = (j - (i + 1)) + 1 by omega, List.getElem?_cons_succ]
      exact hw

/-- If the flag files were all unreadable before, an incomplete sequence leaves one of them unreadable. -/
theorem take_steps_missing (vs : List (List Bool)) (i k : ℕ) (hk : k < (saveActs i vs).length) (d : Dir)
    (hd : ∀ j, j < vs.length → ∀ w, d.acts (i + j) ≠ .whole w) :
    ∃ j, j < vs.length ∧ ∀ w, (runSteps ((saveActs i vs).take k) d).acts (i + j) ≠ .whole w := by
  induction vs generalizing i k d with
  | nil => simp [saveActs] at hk
  | cons v vs ih =>
    rw [saveActs, List.take_append, runSteps_append]
    rw [saveActs] at hk
    by_cases h3 : k < 3
    · refine ⟨0, by simp, ?_⟩
      have hk0 : k - (writeSteps (putActs i) v).length = 0 := by simp [writeSteps]; omega
      rw [hk0, List.take_zero]
      have h0 := hd 0 (by simp)
      rw [Nat.add_zero] at h0 ⊢
      intro w
      rcases k with _ | _ | _ | k
      · exact h0 w
      · simp [writeSteps, runSteps, putActs]
      · simp [writeSteps, runSteps, putActs]
      · omega
    · obtain ⟨j, hj, hw⟩ := ih (i + 1) (k - (writeSteps (putActs i) v).length)
        (by simp [writeSteps] at hk ⊢; omega) (runSteps ((writeSteps (putActs i) v).take k) d)
        (by
          intro j hj w
          have hne : i + 1 + j ≠ i := by omega
          have hfull : (writeSteps (putActs i) v).take k = writeSteps (putActs i) v :=
            List.take_of_length_le (by simp [writeSteps]; omega)
          rw [hfull]
          have := hd (j + 1) (by simpa using hj) w
          rw [show i + (j + 1) = i + 1 + j by omega] at this
          simpa [writeSteps, runSteps, putActs, hne] using this)
      exact ⟨j + 1, by simpa using hj, by rwa [show i + (j + 1) = i + 1 + j by omega]⟩

end Soapy.Persist
