/-
Lemmas on the mirror model.
-/
import Verif.Model.Mirror
import Verif.Lemmas.Py
import Mathlib.Algebra.BigOperators.Ring.Finset

namespace Soapy.Mirror

open Soapy.Vec

theorem zipWith_sum_range (shapes : List Arr2) (cmds : List ℚ) (d : Arr2) (i j : ℕ)
    (h : shapes.length = cmds.length) :
    (List.zipWith (fun (s : Arr2) c => s.px i j * c) shapes cmds).sum =
      ∑ k ∈ Finset.range shapes.length, cmds.getD k 0 * (shapes.getD k d).px i j := by
  induction shapes generalizing cmds with
  | nil => simp
  | cons s ss ih =>
    cases cmds with
    | nil => simp at h
    | cons c cs =>
      simp at h
      rw [List.zipWith_cons_cons, List.sum_cons, ih cs h, List.length_cons, Finset.sum_range_succ']
      simp [mul_comm, add_comm]

/-- `dmFrame` if the size difference is even. -/
theorem dmFrame_even (scrn n c : ℕ) (shapes : List Arr2) (screen : Arr2) (cmds : List ℚ) (s : Arr2)
    (hs : makeDMFrame n shapes cmds = .ok s) (hr : screen.rows = scrn) (hc : screen.cols = scrn) :
    (n = scrn → dmFrame scrn n 0 shapes screen cmds = .ok ⟨n, n, fun i j => s.px i j - s.mean⟩) ∧
    (1 ≤ c → n = scrn + 2 * c → dmFrame scrn n 0 shapes screen cmds =
      .ok ⟨scrn, scrn, fun i j => s.px (c + i) (c + j) - s.mean⟩) ∧
    (1 ≤ c → scrn = n + 2 * c → dmFrame scrn n 0 shapes screen cmds =
      .ok ⟨scrn, scrn, fun i j => if c ≤ i ∧ i < c + n ∧ c ≤ j ∧ j < c + n then
        s.px (i - c) (j - c) - s.mean else screen.px i j⟩) := by
  have hsr : s.rows = n ∧ s.cols = n := by
    unfold makeDMFrame at hs
    dsimp only at hs
    split_ifs at hs
    simp only [Except.ok.injEq] at hs
    subst hs; simp
  refine ⟨?_, ?_, ?_⟩
  · intro h
    unfold dmFrame
    simp only [hs, hsr.1, hsr.2]
    rw [if_neg (by simp), if_pos h]
  · intro hc1 h
    have e : ((n : ℚ) / 2 - (scrn : ℚ) / 2) = ((c : ℤ) : ℚ) := by rw [h]; push_cast; ring
    have hlo : sliceBound n (c : ℤ) = c := by unfold sliceBound; split_ifs <;> omega
    have hhi : sliceBound n (-(c : ℤ)) = n - c := by unfold sliceBound; split_ifs <;> omega
    have hlen : sliceLen n (c : ℤ) (-(c : ℤ)) = scrn := by unfold sliceLen; rw [hlo, hhi]; omega
    unfold dmFrame
    simp only [hs, hsr.1, hsr.2, e, pyRound_int, hlo, hlen, hr, hc]
    rw [if_neg (by simp), if_neg (by omega), if_pos (by omega), if_pos (by simp [fitsAxis])]
    simp [srcIdx]
  · intro hc1 h
    have e : (((scrn : ℚ) - n) / 2) = ((c : ℤ) : ℚ) := by rw [h]; push_cast; ring
    have hlo : sliceBound scrn (c : ℤ) = c := by unfold sliceBound; split_ifs <;> omega
    have hhi : sliceBound scrn (-(c : ℤ)) = scrn - c := by unfold sliceBound; split_ifs <;> omega
    have hlen : sliceLen scrn (c : ℤ) (-(c : ℤ)) = n := by unfold sliceLen; rw [hlo, hhi]; omega
    unfold dmFrame
    simp only [hs, hsr.1, hsr.2, e, pyRound_int, hlo, hlen, hr, hc]
    rw [if_neg (by simp), if_neg (by omega), if_neg (by omega), if_pos (by simp [fitsAxis])]
    simp [srcIdx]

/-- `dmFrame` fails if the size difference is odd. -/
theorem dmFrame_odd (scrn n : ℕ) (hn : 2 ≤ n) (hs3 : 3 ≤ scrn) (shapes : List Arr2) (screen : Arr2)
    (cmds : List ℚ) (hr : screen.rows = scrn) (hodd : (scrn + n) % 2 = 1) :
    ∃ e, dmFrame scrn n 0 shapes screen cmds = .error e := by
  unfold dmFrame
  cases hs : makeDMFrame n shapes cmds with
  | error e => exact ⟨e, rfl⟩
  | ok s =>
    have hsr : s.rows = n ∧ s.cols = n := by
      unfold makeDMFrame at hs
      dsimp only at hs
      split_ifs at hs
      simp only [Except.ok.injEq] at hs
      subst hs; simp
    simp only [hsr.1, hsr.2]
    rw [if_neg (by simp), if_neg (by omega)]
    by_cases hlt : scrn < n
    · rw [if_pos hlt]
      obtain ⟨m, hm⟩ : ∃ m : ℕ, n = scrn + (2 * m + 1) := ⟨(n - scrn) / 2, by omega⟩
      have e : ((n : ℚ) / 2 - (scrn : ℚ) / 2) = ((m : ℤ) : ℚ) + 1 / 2 := by rw [hm]; push_cast; ring
      rw [e, pyRound_half]
      refine ⟨.valueError, if_neg ?_⟩
      unfold fitsAxis sliceLen sliceBound
      rw [hr]
      split_ifs <;> omega
    · rw [if_neg hlt]
      obtain ⟨m, hm⟩ : ∃ m : ℕ, scrn = n + (2 * m + 1) := ⟨(scrn - n) / 2, by omega⟩
      have e : (((scrn : ℚ) - n) / 2) = ((m : ℤ) : ℚ) + 1 / 2 := by rw [hm]; push_cast; ring
      rw [e, pyRound_half]
      refine ⟨.valueError, if_neg ?_⟩
      unfold fitsAxis sliceLen sliceBound
      rw [hr]
      split_ifs <;> omega

/-- Indices of the `true` entries, shifted by `i`. -/
def trueIdx : ℕ → List Bool → List ℕ
  | _, [] => []
  | i, v :: vs => if v then i :: trueIdx (i + 1) vs else trueIdx (i + 1) vs

theorem trueIdx_length (vs : List Bool) (i : ℕ) : (trueIdx i vs).length = vs.count true := by
  induction vs generalizing i with
  | nil => rfl
  | cons v vs ih => cases v <;> simp [trueIdx, ih]

theorem mem_trueIdx (vs : List Bool) (i k : ℕ) :
    k ∈ trueIdx i vs ↔ i ≤ k ∧ vs[k - i]? = some true := by
  induction vs generalizing i with
  | nil => simp [trueIdx]
  | cons v vs ih =>
    have key : k ∈ trueIdx (i + 1) vs ↔ i + 1 ≤ k ∧ (v :: vs)[k - i]? = some true := by
      rw [ih]
      refine and_congr_right fun h => ?_
      rw [show k - i = (k - (i + 1)) + 1 by omega, List.getElem?_cons_succ]
    cases v
    · simp only [trueIdx, Bool.false_eq_true, if_false, key]
      constructor
      · rintro ⟨h1, h2⟩; exact ⟨by omega, h2⟩
      · rintro ⟨h1, h2⟩
        refine ⟨?_, h2⟩
        by_contra hc
        rw [show k - i = 0 by omega] at h2
        simp at h2
    · simp only [trueIdx, if_true, List.mem_cons, key]
      constructor
      · rintro (h | ⟨h1, h2⟩)
        · subst h; simp
        · exact ⟨by omega, h2⟩
      · rintro ⟨h1, h2⟩
        by_cases h : k = i
        · exact Or.inl h
        · exact Or.inr ⟨by omega, h2⟩

theorem trueIdx_sorted (vs : List Bool) (i : ℕ) : (trueIdx i vs).Pairwise (· < ·) := by
  induction vs generalizing i with
  | nil => simp [trueIdx]
  | cons v vs ih =>
    cases v
    · simpa [trueIdx] using ih (i + 1)
    · simp only [trueIdx, if_true, List.pairwise_cons]
      refine ⟨fun k hk => ?_, ih (i + 1)⟩
      have := ((mem_trueIdx vs (i + 1) k).mp hk).1
      omega

theorem setValid_go {α : Type} (shapes : List α) (vs : List Bool) (i : ℕ)
    (h : i + vs.length ≤ shapes.length) :
    ∃ r, setValid.go shapes i vs = .ok r ∧ r.length = (trueIdx i vs).length ∧
      ∀ k x : ℕ, (trueIdx i vs)[k]? = some x → r[k]? = shapes[x]? := by
  induction vs generalizing i with
  | nil => exact ⟨[], rfl, rfl, by simp [trueIdx]⟩
  | cons v vs ih =>
    obtain ⟨r, h1, h2, h3⟩ := ih (i + 1) (by simp at h; omega)
    cases v
    · exact ⟨r, by simp [setValid.go, h1], by simp [trueIdx, h2], by simpa [trueIdx] using h3⟩
    · have hi : i < shapes.length := by simp at h; omega
      refine ⟨shapes[i] :: r, ?_, by simp [trueIdx, h2], ?_⟩
      · simp [setValid.go, h1, List.getElem?_eq_getElem hi]
      · intro k x hk
        cases k with
        | zero => simp [trueIdx] at hk; subst hk; simp [List.getElem?_eq_getElem hi]
        | succ k => simp only [trueIdx, if_true, List.getElem?_cons_succ] at hk ⊢; exact h3 k x hk

theorem compact_spec {α : Type} (rows : List α) (vs : List Bool) (pre : List α) (z : List α)
    (hl : vs.length = rows.length) (hz : z.length = vs.count true) :
    ∃ out, compact rows vs pre.length (pre ++ z) = pre ++ out ∧ out.length = (trueIdx 0 vs).length ∧
      ∀ k x : ℕ, (trueIdx 0 vs)[k]? = some x → out[k]? = rows[x]? := by
  have shift : ∀ (vs : List Bool) (i : ℕ), trueIdx (i + 1) vs = (trueIdx i vs).map (· + 1) := by
    intro vs
    induction vs with
    | nil => intro i; rfl
    | cons v vs ih => intro i; cases v <;> simp [trueIdx, ih]
  induction rows generalizing vs pre z with
  | nil =>
    have : vs = [] := List.length_eq_zero_iff.mp (by simpa using hl)
    subst this
    simp at hz
    exact ⟨[], by simp [compact, hz], rfl, by simp [trueIdx]⟩
  | cons r rows ih =>
    cases vs with
    | nil => simp at hl
    | cons v vs =>
      simp at hl
      cases v
      · obtain ⟨o, h1, h2, h3⟩ := ih vs pre z hl (by simpa using hz)
        refine ⟨o, by simp [compact, h1], by simp [trueIdx, shift, h2], ?_⟩
        intro k x hk
        simp only [trueIdx, Bool.false_eq_true, if_false, shift, List.getElem?_map] at hk
        cases hq : (trueIdx 0 vs)[k]? with
        | none => simp [hq] at hk
        | some y => simp [hq] at hk; subst hk; simpa using h3 k y hq
      · cases z with
        | nil => simp at hz
        | cons z0 z =>
          obtain ⟨o, h1, h2, h3⟩ := ih vs (pre ++ [r]) z hl (by simpa using hz)
          refine ⟨r :: o, ?_, by simp [trueIdx, shift, h2], ?_⟩
          · simp only [compact, if_true]
            rw [List.set_append_right _ _ (le_refl _)]
            simpa using h1
          · intro k x hk
            cases k with
            | zero => simp [trueIdx] at hk; subst hk; simp
            | succ k =>
              simp only [trueIdx, if_true, List.getElem?_cons_succ, shift, List.getElem?_map] at hk
              cases hq : (trueIdx 0 vs)[k]? with
              | none => simp [hq] at hk
              | some y => simp [hq] at hk; subst hk; simpa using h3 k y hq

theorem unit_getD (n i k : ℕ) (hi : i < n) : (unit n i).getD k 0 = if k = i then 1 else 0 := by
  unfold unit zeros
  rw [List.getD_eq_getElem?_getD, List.getElem?_set]
  by_cases h : i = k
  · subst h; simp [hi]
  · rw [if_neg h, if_neg (Ne.symm h), List.getElem?_replicate]
    split_ifs <;> simp

theorem mapM_ok_get {α β : Type} (f : α → Except PyErr β) (xs : List α) (ys : List β)
    (h : xs.mapM f = .ok ys) : ys.length = xs.length ∧
      ∀ (i : ℕ) (x : α), xs[i]? = some x → ∃ y, ys[i]? = some y ∧ f x = .ok y := by
  induction xs generalizing ys with
  | nil => cases h; simp
  | cons x xs ih =>
    rw [List.mapM_cons] at h
    cases hx : f x with
    | error e => rw [hx] at h; cases h
    | ok y =>
      rw [hx] at h
      cases hr : xs.mapM f with
      | error e => rw [hr] at h; cases h
      | ok ys' =>
        rw [hr] at h
        cases h
        obtain ⟨h1, h2⟩ := ih ys' hr
        refine ⟨by simp [h1], ?_⟩
        intro i x' hi
        cases i with
        | zero => simp at hi; subst hi; exact ⟨y, by simp, hx⟩
        | succ i => simp at hi; simpa using h2 i x' hi

end Soapy.Mirror
