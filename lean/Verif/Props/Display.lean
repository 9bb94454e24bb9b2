/-
C144: what the GUI shows is true of the run.
-/
import Verif.Model.Display
import Verif.Lemmas.Py

namespace Soapy.Props

open Soapy.Display Soapy.Conf

/-! ### Levels -/

private theorem foldl_min_le (xs : List ℚ) (a : ℚ) : xs.foldl min a ≤ a ∧ (∀ x ∈ xs, xs.foldl min a ≤ x) ∧ (xs.foldl min a = a ∨ xs.foldl min a ∈ xs) := by
  induction xs generalizing a with
  | nil => simp
  | cons y ys ih =>
    obtain ⟨h1, h2, h3⟩ := ih (min a y)
    simp only [List.foldl_cons, List.mem_cons]
    refine ⟨le_trans h1 (min_le_left _ _), ?_, ?_⟩
    · rintro x (rfl | hx)
      · exact le_trans h1 (min_le_right _ _)
      · exact h2 x hx
    · rcases h3 with h3 | h3
      · rcases min_choice a y with h | h
        · left; rw [h3, h]
        · right; left; rw [h3, h]
      · right; right; exact h3

private theorem foldl_max_ge (xs : List ℚ) (a : ℚ) : a ≤ xs.foldl max a ∧ (∀ x ∈ xs, x ≤ xs.foldl max a) ∧ (xs.foldl max a = a ∨ xs.foldl max a ∈ xs) := by
  induction xs generalizing a with
  | nil => simp
  | cons y ys ih =>
    obtain ⟨h1, h2, h3⟩ := ih (max a y)
    simp only [List.foldl_cons, List.mem_cons]
    refine ⟨le_trans (le_max_left _ _) h1, ?_, ?_⟩
    · rintro x (rfl | hx)
      · exact le_trans (le_max_right _ _) h1
      · exact h2 x hx
    · rcases h3 with h3 | h3
      · rcases max_choice a y with h | h
        · left; rw [h3, h]
        · right; left; rw [h3, h]
      · right; right; exact h3

/-- Lowest and highest pixel of a picture. -/
def Span (v : List ℚ) (p : ℚ × ℚ) : Prop := (∀ x ∈ v, p.1 ≤ x ∧ x ≤ p.2) ∧ p.1 ∈ v ∧ p.2 ∈ v

private theorem lowHigh_ok (v : List ℚ) (p : ℚ × ℚ) : lowHigh v = .ok p → Span v p := by
  intro h
  cases v with
  | nil => simp [lowHigh] at h
  | cons x xs =>
    simp only [lowHigh, Except.ok.injEq] at h
    subst h
    obtain ⟨a1, a2, a3⟩ := foldl_min_le xs x
    obtain ⟨b1, b2, b3⟩ := foldl_max_ge xs x
    refine ⟨?_, ?_, ?_⟩
    · intro y hy
      rcases List.mem_cons.mp hy with rfl | hy
      · exact ⟨a1, b1⟩
      · exact ⟨a2 y hy, b2 y hy⟩
    · rcases a3 with a3 | a3
      · simp [a3]
      · exact List.mem_cons_of_mem _ a3
    · rcases b3 with b3 | b3
      · simp [b3]
      · exact List.mem_cons_of_mem _ b3

private theorem mapE_mem {α β : Type} (f : α → Except PyErr β) : ∀ (xs : List α) (ys : List β), mapE f xs = .ok ys → (∀ x ∈ xs, ∃ y ∈ ys, f x = .ok y) ∧ ∀ y ∈ ys, ∃ x ∈ xs, f x = .ok y
  | [], ys, h => by
    simp only [mapE, Except.ok.injEq] at h
    subst h
    simp
  | x :: xs, ys, h => by
    simp only [mapE] at h
    cases h1 : f x with
    | error e => rw [h1] at h; simp [Except.bind] at h
    | ok y =>
      rw [h1] at h
      cases h2 : mapE f xs with
      | error e => rw [h2] at h; simp [Except.bind] at h
      | ok zs =>
        rw [h2] at h
        simp only [Except.bind, Except.ok.injEq] at h
        subst h
        obtain ⟨i1, i2⟩ := mapE_mem f xs zs h2
        constructor
        · intro z hz
          rcases List.mem_cons.mp hz with rfl | hz
          · exact ⟨y, by simp, h1⟩
          · obtain ⟨w, hw, e⟩ := i1 z hz
            exact ⟨w, by simp [hw], e⟩
        · intro z hz
          rcases List.mem_cons.mp hz with rfl | hz
          · exact ⟨x, by simp, h1⟩
          · obtain ⟨w, hw, e⟩ := i2 z hz
            exact ⟨w, by simp [hw], e⟩

/-- **C144 (levels).**  The levels common to all pictures of phase are the lowest and the highest value in any of them. -/
theorem C144_levels (wfss dms scis : List (Option (List ℚ))) (lo hi : ℚ) (h : levels wfss dms scis = .ok (lo, hi)) :
    (∀ v, some v ∈ wfss ++ dms ++ scis → ∀ x ∈ v, lo ≤ x ∧ x ≤ hi) ∧ (∃ v, some v ∈ wfss ++ dms ++ scis ∧ lo ∈ v) ∧ ∃ v, some v ∈ wfss ++ dms ++ scis ∧ hi ∈ v := by
  unfold levels at h
  cases ha : mapE sensorLowHigh wfss with
  | error e => rw [ha] at h; simp [Except.bind] at h
  | ok a =>
  cases hb : mapE lowHigh (dms.filterMap id) with
  | error e => rw [ha, hb] at h; simp [Except.bind] at h
  | ok b =>
  cases hc : mapE lowHigh (scis.filterMap id) with
  | error e => rw [ha, hb, hc] at h; simp [Except.bind] at h
  | ok c =>
  rw [ha, hb, hc] at h
  simp only [Except.bind] at h
  obtain ⟨a1, a2⟩ := mapE_mem _ _ _ ha
  obtain ⟨b1, b2⟩ := mapE_mem _ _ _ hb
  obtain ⟨c1, c2⟩ := mapE_mem _ _ _ hc
  have fwd : ∀ v, some v ∈ wfss ++ dms ++ scis → ∃ p ∈ a ++ b ++ c, Span v p := by
    intro v hv
    rcases List.mem_append.mp hv with hv | hv
    · rcases List.mem_append.mp hv with hv | hv
      · obtain ⟨p, hp, e⟩ := a1 _ hv
        exact ⟨p, by simp [hp], lowHigh_ok v p e⟩
      · obtain ⟨p, hp, e⟩ := b1 v (by simpa using hv)
        exact ⟨p, by simp [hp], lowHigh_ok v p e⟩
    · obtain ⟨p, hp, e⟩ := c1 v (by simpa using hv)
      exact ⟨p, by simp [hp], lowHigh_ok v p e⟩
  have bwd : ∀ p ∈ a ++ b ++ c, ∃ v, some v ∈ wfss ++ dms ++ scis ∧ Span v p := by
    intro p hp
    rcases List.mem_append.mp hp with hp | hp
    · rcases List.mem_append.mp hp with hp | hp
      · obtain ⟨v, hv, e⟩ := a2 p hp
        cases v with
        | none => simp [sensorLowHigh] at e
        | some v => exact ⟨v, by simp [hv], lowHigh_ok v p e⟩
      · obtain ⟨v, hv, e⟩ := b2 p hp
        exact ⟨v, by have : some v ∈ dms := by simpa using hv
                     simp [this], lowHigh_ok v p e⟩
    · obtain ⟨v, hv, e⟩ := c2 p hp
      exact ⟨v, by have : some v ∈ scis := by simpa using hv
                   simp [this], lowHigh_ok v p e⟩
  cases hl : a ++ b ++ c with
  | nil => rw [hl] at h; simp at h
  | cons p ps =>
    rw [hl] at h fwd bwd
    simp only [Except.ok.injEq, Prod.mk.injEq] at h
    obtain ⟨rfl, rfl⟩ := h
    obtain ⟨m1, m2, m3⟩ := foldl_min_le (ps.map Prod.fst) p.1
    obtain ⟨n1, n2, n3⟩ := foldl_max_ge (ps.map Prod.snd) p.2
    refine ⟨?_, ?_, ?_⟩
    · intro v hv x hx
      obtain ⟨q, hq, s1, _⟩ := fwd v hv
      obtain ⟨l, r⟩ := s1 x hx
      rcases List.mem_cons.mp hq with rfl | hq
      · exact ⟨le_trans m1 l, le_trans r n1⟩
      · exact ⟨le_trans (m2 _ (List.mem_map_of_mem hq)) l, le_trans r (n2 _ (List.mem_map_of_mem hq))⟩
    · rcases m3 with m3 | m3
      · obtain ⟨v, hv, _, s2, _⟩ := bwd p (by simp)
        exact ⟨v, hv, by rw [m3]; exact s2⟩
      · obtain ⟨q, hq, e⟩ := List.mem_map.mp m3
        obtain ⟨v, hv, _, s2, _⟩ := bwd q (by simp [hq])
        exact ⟨v, hv, by rw [← e]; exact s2⟩
    · rcases n3 with n3 | n3
      · obtain ⟨v, hv, _, _, s3⟩ := bwd p (by simp)
        exact ⟨v, hv, by rw [n3]; exact s3⟩
      · obtain ⟨q, hq, e⟩ := List.mem_map.mp n3
        obtain ⟨v, hv, _, _, s3⟩ := bwd q (by simp [hq])
        exact ⟨v, hv, by rw [← e]; exact s3⟩

/-- A sensor, a mirror that has not moved yet, another mirror, a camera. -/
example : levels [some [3, -1]] [none, some [0, 5]] [some [2]] = .ok (-1, 5) := by decide +kernel

private theorem mapE_exists {α β : Type} (f : α → Except PyErr β) : ∀ xs : List α, (∀ x ∈ xs, ∃ y, f x = .ok y) → ∃ ys, mapE f xs = .ok ys ∧ ys.length = xs.length
  | [], _ => ⟨[], rfl, rfl⟩
  | x :: xs, h => by
    obtain ⟨y, hy⟩ := h x (by simp)
    obtain ⟨ys, h1, h2⟩ := mapE_exists f xs fun x hx => h x (by simp [hx])
    exact ⟨y :: ys, by simp [mapE, hy, h1, Except.bind], by simp [h2]⟩

/-- **C144 (pictures).**  There are levels whenever there is a picture at all, every sensor has one, and none is empty. -/
theorem C144_pictures (wfss dms scis : List (Option (List ℚ))) (hw : ∀ p ∈ wfss, p ≠ none) (hn : ∀ v, some v ∈ wfss ++ dms ++ scis → v ≠ []) (he : ∃ v, some v ∈ wfss ++ dms ++ scis) : ∃ p, levels wfss dms scis = .ok p := by
  have lh : ∀ v : List ℚ, v ≠ [] → ∃ p, lowHigh v = .ok p := by
    intro v hv
    cases v with
    | nil => exact absurd rfl hv
    | cons x xs => exact ⟨_, rfl⟩
  obtain ⟨a, ha, la⟩ := mapE_exists sensorLowHigh wfss (by
    intro p hp
    cases p with
    | none => exact absurd rfl (hw _ hp)
    | some v => exact lh v (hn v (by simp [hp])))
  obtain ⟨b, hb, lb⟩ := mapE_exists lowHigh (dms.filterMap id) (by
    intro v hv
    exact lh v (hn v (by have : some v ∈ dms := by simpa using hv
                         simp [this])))
  obtain ⟨c, hc, lc⟩ := mapE_exists lowHigh (scis.filterMap id) (by
    intro v hv
    exact lh v (hn v (by have : some v ∈ scis := by simpa using hv
                         simp [this])))
  unfold levels
  rw [ha, hb, hc]
  simp only [Except.bind]
  cases hl : a ++ b ++ c with
  | nil =>
    exfalso
    simp only [List.append_eq_nil_iff] at hl
    obtain ⟨⟨rfl, rfl⟩, rfl⟩ := hl
    obtain ⟨v, hv⟩ := he
    rcases List.mem_append.mp hv with hv | hv
    · rcases List.mem_append.mp hv with hv | hv
      · rw [List.length_nil] at la
        rw [List.length_eq_zero_iff.mp la.symm] at hv
        simp at hv
      · have : v ∈ dms.filterMap id := by simpa using hv
        rw [List.length_nil] at lb
        rw [List.length_eq_zero_iff.mp lb.symm] at this
        simp at this
    · have : v ∈ scis.filterMap id := by simpa using hv
      rw [List.length_nil] at lc
      rw [List.length_eq_zero_iff.mp lc.symm] at this
      simp at this
  | cons p ps => exact ⟨_, rfl⟩

/-- **C144 (no picture of a sensor).**  If the first sensor has no picture yet the GUI shows nothing at all: an exception leaves `update`. -/
theorem C144_no_phase (wfss dms scis : List (Option (List ℚ))) : levels (none :: wfss) dms scis = .error .attributeError := rfl

/-! ### Progress -/

/-- **C144 (progress bar).**  During the frames of a run the bar stays between 0 and 100 and never goes back. -/
theorem C144_bar (k n : ℕ) (hk : k < n) : ∃ p, percent k n = .ok p ∧ 0 ≤ p ∧ p ≤ 100 ∧ ∀ j, j ≤ k → ∃ q, percent j n = .ok q ∧ q ≤ p := by
  have hn : (0 : ℚ) < n := by
    have : 0 < n := by omega
    exact_mod_cast this
  have hne : n ≠ 0 := by omega
  refine ⟨pyRound (100 * ((k : ℚ) / n)), by unfold percent; rw [if_neg hne], ?_, ?_, fun j hj => ⟨pyRound (100 * ((j : ℚ) / n)), by unfold percent; rw [if_neg hne], ?_⟩⟩
  · have h := pyRound_mono (show ((0 : ℤ) : ℚ) ≤ 100 * ((k : ℚ) / n) by push_cast; positivity)
    rwa [pyRound_int] at h
  · have h1 : (k : ℚ) / n ≤ 1 := by
      rw [div_le_one hn]
      exact_mod_cast hk.le
    have h := pyRound_mono (show 100 * ((k : ℚ) / n) ≤ ((100 : ℤ) : ℚ) by push_cast; linarith)
    rwa [pyRound_int] at h
  · refine pyRound_mono ?_
    have : (j : ℚ) ≤ k := by exact_mod_cast hj
    have := div_le_div_of_nonneg_right this hn.le
    linarith

/-- **C144 (end of a run).**  After the last frame of `n` the bar is full exactly if there were at least 200 frames. -/
theorem C144_full_iff (n : ℕ) (hn : 0 < n) : percent (n - 1) n = .ok 100 ↔ 200 ≤ n := by
  have hq : (0 : ℚ) < n := by exact_mod_cast hn
  have e : 100 * (((n - 1 : ℕ) : ℚ) / n) = 100 - 100 / n := by
    rw [Nat.cast_sub (by omega)]
    field_simp
    push_cast
    ring
  unfold percent
  rw [if_neg (by omega), e, Except.ok.injEq]
  constructor
  · intro h
    have hc := pyRound_close (100 - 100 / (n : ℚ))
    rw [h] at hc
    have h2 : 100 / (n : ℚ) ≤ 1 / 2 := by
      have := (abs_le.mp hc).1
      push_cast at this
      linarith
    rw [div_le_div_iff₀ hq (by norm_num)] at h2
    have : (200 : ℚ) ≤ n := by linarith
    exact_mod_cast this
  · intro h
    have h' : (200 : ℚ) ≤ n := by exact_mod_cast h
    have h2 : 100 / (n : ℚ) ≤ 1 / 2 := by
      rw [div_le_div_iff₀ hq (by norm_num)]
      linarith
    have h3 : 0 < 100 / (n : ℚ) := by positivity
    have l1 := pyRound_mono (show ((99 : ℤ) : ℚ) + 1 / 2 ≤ 100 - 100 / (n : ℚ) by push_cast; linarith)
    rw [pyRound_half] at l1
    have l2 := pyRound_mono (show 100 - 100 / (n : ℚ) ≤ ((100 : ℤ) : ℚ) by push_cast; linarith)
    rw [pyRound_int] at l2
    norm_num at l1
    omega

/-- **C144 (number of the frame).**  The console numbers the frames of a run from 1 to `n`, the GUI from 0 to `n - 1`. -/
theorem C144_numbers (k n : ℕ) : messageNumbers false k n = (k + 1, n) ∧ messageNumbers true k n = (k, n) := ⟨rfl, rfl⟩

/-! ### Remaining time -/

/-- **C144 (remaining time).**  If every frame takes `τ` seconds and the run was started at frame `first`, then after frame `k` the GUI shows the time the remaining frames will take, multiplied by the share of the `k` frames
that belong to this run: the truth for a run from the start, too little for one that was continued. -/
theorem C144_remaining (n first k : ℕ) (τ : ℚ) (hτ : 0 < τ) (hf : first < k) : remaining n k ((k - first : ℕ) * τ) = ((n : ℚ) - k) * τ * (((k - first : ℕ) : ℚ) / k) := by
  have hk : (0 : ℚ) < k := by
    have : 0 < k := by omega
    exact_mod_cast this
  have hd : (0 : ℚ) < ((k - first : ℕ) : ℚ) := by
    have : 0 < k - first := by omega
    exact_mod_cast this
  unfold remaining rate
  rw [if_neg (by positivity)]
  field_simp

/-- **C144 (run from the start).**  Then the time shown is the time the remaining frames will take. -/
theorem C144_from_start (n k : ℕ) (τ : ℚ) (hτ : 0 < τ) (hk : 0 < k) : remaining n k (k * τ) = ((n : ℚ) - k) * τ := by
  have h := C144_remaining n 0 k τ hτ hk
  have hk' : (k : ℚ) ≠ 0 := by
    have : k ≠ 0 := by omega
    exact_mod_cast this
  rw [Nat.sub_zero, div_self hk', mul_one] at h
  exact h

/-- Before the first frame has ended there is no rate; the time shown is a hundred thousand seconds per frame. -/
theorem C144_before_first (n : ℕ) (t : ℚ) : remaining n 0 t = n * 100000 := by
  unfold remaining rate
  simp

/-- A hundred frames of a tenth of a second, after 50: five seconds; if the first 49 were run before, a tenth of a second. -/
example : remaining 100 50 (50 * (1 / 10)) = 5 ∧ remaining 100 50 ((50 - 49 : ℕ) * (1 / 10)) = 1 / 10 := by
  constructor
  · rw [show (50 : ℚ) * (1 / 10) = ((50 : ℕ) : ℚ) * (1 / 10) by norm_num, C144_from_start 100 50 (1 / 10) (by norm_num) (by norm_num)]
    norm_num
  · rw [C144_remaining 100 49 50 (1 / 10) (by norm_num) (by norm_num)]
    norm_num

/-! ### Colours -/

/-- **C144 (colours).**  Up to seven cameras have curves of different colours, in every run; of eight two have the same; and a camera has another colour in each of seven runs in a row. -/
theorem C144_colours (k : ℕ) : (∀ a b, a < 7 → b < 7 → colour (colourOfRun k) a = colour (colourOfRun k) b → a = b) ∧ colour (colourOfRun k) 0 = colour (colourOfRun k) 7 ∧
    ∀ i j sci, i < 7 → j < 7 → colour (colourOfRun (k + i)) sci = colour (colourOfRun (k + j)) sci → i = j := by
  have h : ∀ k, colourOfRun k = k % 7 := by
    intro k
    induction k with
    | zero => rfl
    | succ k ih =>
      rw [colourOfRun, ih]
      unfold nextColour
      split_ifs <;> omega
  simp only [h, colour]
  refine ⟨fun a b ha hb e => ?_, by omega, fun i j sci hi hj e => ?_⟩ <;> omega

/-! ### Gains -/

/-- The value last set for a mirror by a list of actions, if any. -/
def lastSet (dm : ℕ) : List Act → Option ℚ
  | [] => none
  | a :: as => match lastSet dm as with
    | some v => some v
    | none => match a with
      | .gain d v => if d = dm then some v else none
      | _ => none

/-- Everything the user does is to change gains or to reload the file. -/
def OnlyGains (as : List Act) : Prop := ∀ a ∈ as, ∀ g, a ≠ .load g ∧ a ≠ .init

private theorem acts_same (as : List Act) (ho : OnlyGains as) : ∀ o : Objects, o.gui = o.used → o.used < o.next → (acts as o).gui = (acts as o).used ∧ (acts as o).used = o.used ∧ (acts as o).used < (acts as o).next ∧
    ∀ dm, gainInLoop (acts as o) dm = (lastSet dm as).getD (gainInLoop o dm) := by
  induction as with
  | nil => intro o h1 h2; exact ⟨h1, rfl, h2, fun _ => rfl⟩
  | cons a as ih =>
    intro o h1 h2
    have ih' := ih (fun b hb => ho b (List.mem_cons_of_mem _ hb))
    have key : ∀ o' : Objects, o'.gui = o'.used → o'.used < o'.next → o'.used = o.used → (∀ dm, gainInLoop o' dm = (lastSet dm [a]).getD (gainInLoop o dm)) → acts (a :: as) o = acts as o' →
        (acts (a :: as) o).gui = (acts (a :: as) o).used ∧ (acts (a :: as) o).used = o.used ∧ (acts (a :: as) o).used < (acts (a :: as) o).next ∧ ∀ dm, gainInLoop (acts (a :: as) o) dm = (lastSet dm (a :: as)).getD (gainInLoop o dm) := by
      intro o' g1 g2 g3 g4 g5
      obtain ⟨i1, i2, i3, i4⟩ := ih' o' g1 g2
      rw [g5]
      refine ⟨i1, by rw [i2, g3], i3, fun dm => ?_⟩
      rw [i4, g4]
      simp only [lastSet]
      cases lastSet dm as <;> rfl
    cases a with
    | init => exact absurd rfl (ho _ (by simp) (fun _ => 0)).2
    | load g => exact absurd rfl (ho _ (by simp) g).1
    | reload g =>
      refine key (act (.reload g) o) h1 (by show o.used < o.next + 1; omega) rfl (fun dm => ?_) rfl
      show (if o.used = o.next then g else o.gains o.used) dm = _
      rw [if_neg (by omega)]
      rfl
    | gain d v =>
      refine key (act (.gain d v) o) h1 h2 rfl (fun dm => ?_) rfl
      show (if o.used = o.gui ∧ dm = d then v else o.gains o.used dm) = _
      simp only [lastSet, h1, true_and]
      by_cases hd : dm = d
      · subst hd; simp
      · rw [if_neg hd, if_neg (fun h => hd h.symm)]; rfl

/-- **C144 (gains), partial**: after an initialisation, as long as no file is opened, the loop uses for every mirror the gain last set for that mirror, and otherwise the one of the file; other mirrors are not affected. -/
theorem C144_gain_partial (o : Objects) (ho : o.sim < o.next) (as : List Act) (h : OnlyGains as) (dm : ℕ) : gainInLoop (acts (.init :: as) o) dm = (lastSet dm as).getD (o.gains o.sim dm) := by
  have := (acts_same as h (act .init o) rfl ho).2.2.2 dm
  exact this

/-- The gain of the second of two mirrors changed twice, with a reload in between. -/
example : gainInLoop (acts [.init, .gain 1 (1 / 2), .reload fun _ => 1, .gain 1 (1 / 4)] (opened fun _ => 3 / 5)) 1 = 1 / 4 ∧ gainInLoop (acts [.init, .gain 1 (1 / 2), .reload fun _ => 1, .gain 1 (1 / 4)] (opened fun _ => 3 / 5)) 0 = 3 / 5 := by
  have h : OnlyGains [.gain 1 (1 / 2), .reload fun _ => 1, .gain 1 (1 / 4)] := by
    intro a ha g
    simp only [List.mem_cons, List.not_mem_nil, or_false] at ha
    rcases ha with rfl | rfl | rfl <;> simp
  constructor
  · rw [C144_gain_partial _ (by decide) _ h]; simp [lastSet]
  · rw [C144_gain_partial _ (by decide) _ h]; simp [lastSet, opened]

/-- **C144 is violated**: the run ends with a bar at 90 and "9 of 10"; the time shown for a continued run is a fiftieth of the truth; with a file opened, a gain that is set does not reach the loop. -/
theorem C144_violated : percent 9 10 = .ok 90 ∧ messageNumbers true 9 10 = (9, 10) ∧ remaining 100 50 ((50 - 49 : ℕ) * (1 / 10)) = ((100 : ℚ) - 50) * (1 / 10) / 50 ∧
    gainInLoop (acts [.init, .load fun _ => 3 / 5, .gain 0 0] (opened fun _ => 3 / 5)) 0 = 3 / 5 := by
  refine ⟨by decide +kernel, rfl, ?_, by decide +kernel⟩
  rw [C144_remaining 100 49 50 (1 / 10) (by norm_num) (by norm_num)]
  norm_num

end Soapy.Props
