import Verif.Model.Los
import Verif.Lemmas.Interp

namespace Soapy.Los

open Soapy.Mirror Soapy.Interp

theorem clip_range (S : ℕ) (hS : 2 ≤ S) (x : ℚ) :
    0 ≤ clip 0 ((S : ℚ) - 1000000001 / 1000000000) x ∧ clip 0 ((S : ℚ) - 1000000001 / 1000000000) x < S - 1 := by
  have : (2 : ℚ) ≤ S := by exact_mod_cast hS
  unfold clip
  constructor
  · exact le_min (le_max_right _ _) (by norm_num; linarith)
  · exact lt_of_le_of_lt (min_le_right _ _) (by linarith)

theorem interpVal_ok (a : Arr2) (x y : ℚ) (hx : 0 ≤ x ∧ x < a.rows - 1) (hy : 0 ≤ y ∧ y < a.cols - 1) :
    ∃ v, interpVal false a x y = .ok v := by
  obtain ⟨i, hi, hi1, hi2⟩ := cell_exists a.rows x hx.1 hx.2
  obtain ⟨j, hj, hj1, hj2⟩ := cell_exists a.cols y hy.1 hy.2
  exact ⟨_, bilinAt_ok a x y i j ⟨hi1, hi2⟩ ⟨hj1, hj2⟩ hi hj⟩

theorem mapM_getElem {α β : Type} (f : α → Except PyErr β) (xs : List α) (ys : List β) (h : xs.mapM f = .ok ys) :
    ys.length = xs.length ∧ ∀ (i : ℕ) (x : α), xs[i]? = some x → ∃ y, ys[i]? = some y ∧ f x = .ok y := by
  induction xs generalizing ys with
  | nil =>
    rw [List.mapM_nil] at h
    cases h
    exact ⟨rfl, by simp⟩
  | cons x xs ih =>
    rw [List.mapM_cons] at h
    cases h1 : f x with
    | error e => rw [h1] at h; cases h
    | ok y =>
      rw [h1] at h
      cases h2 : xs.mapM f with
      | error e => rw [h2] at h; cases h
      | ok zs =>
        rw [h2] at h
        cases h
        obtain ⟨hl, hg⟩ := ih zs h2
        refine ⟨by simp [hl], ?_⟩
        intro i z hz
        cases i with
        | zero => simp at hz; subst hz; exact ⟨y, by simp, h1⟩
        | succ i => simpa using hg i z (by simpa using hz)

/-- Every pixel of an interpolated screen is the interpolated value at its coordinates. -/
theorem sampled_px (a : Arr2) (c : List ℚ × List ℚ) (s : Arr2) (h : sampled a c = .ok s) :
    s.rows = c.1.length ∧ s.cols = c.2.length ∧
    ∀ (i j : ℕ) (x y : ℚ), c.1[i]? = some x → c.2[j]? = some y → interpVal false a x y = .ok (s.px i j) := by
  unfold sampled at h
  cases hi : interp false a c.1 c.2 with
  | error e => rw [hi] at h; cases h
  | ok rows =>
    rw [hi] at h
    dsimp only at h
    cases h
    refine ⟨rfl, rfl, ?_⟩
    intro i j x y hx hy
    unfold interp at hi
    obtain ⟨_, hg⟩ := mapM_getElem _ _ _ hi
    obtain ⟨row, hr, hrow⟩ := hg i x hx
    obtain ⟨_, hg2⟩ := mapM_getElem _ _ _ hrow
    obtain ⟨v, hv, hvv⟩ := hg2 j y hy
    rw [hvv]
    simp [List.getD, hr, hv]

theorem sampled_ok (a : Arr2) (c : List ℚ × List ℚ) (hx : ∀ x ∈ c.1, 0 ≤ x ∧ x < a.rows - 1) (hy : ∀ y ∈ c.2, 0 ≤ y ∧ y < a.cols - 1) :
    ∃ s, sampled a c = .ok s := by
  have h : ∀ x y : ℚ, ∃ v, x ∈ c.1 → y ∈ c.2 → interpVal false a x y = .ok v := by
    intro x y
    by_cases h1 : x ∈ c.1
    · by_cases h2 : y ∈ c.2
      · obtain ⟨v, hv⟩ := interpVal_ok a x y (hx x h1) (hy y h2)
        exact ⟨v, fun _ _ => hv⟩
      · exact ⟨0, fun _ h => absurd h h2⟩
    · exact ⟨0, fun h => absurd h h1⟩
  choose f hf using h
  unfold sampled interp
  rw [mapM_ok _ (fun x => c.2.map (f x)) _ (fun x hx => mapM_ok _ _ _ (fun y hy => hf x y hx hy))]
  exact ⟨_, rfl⟩

theorem fill_ok (cs : List (List ℚ × List ℚ)) (bufs data : List Arr2) (hb : bufs.length = cs.length) (hd : data.length ≤ cs.length)
    (h : ∀ (i : ℕ) (c : List ℚ × List ℚ) (d : Arr2), cs[i]? = some c → data[i]? = some d → ∃ s, sampled d c = .ok s) :
    ∃ r, fill cs bufs data = .ok r := by
  induction data generalizing cs bufs with
  | nil => exact ⟨bufs, by simp [fill]⟩
  | cons d ds ih =>
    match cs, bufs with
    | [], _ => simp at hd
    | c :: cs, [] => simp at hb
    | c :: cs, b :: bs =>
      obtain ⟨s, hs⟩ := h 0 c d (by simp) (by simp)
      obtain ⟨r, hr⟩ := ih cs bs (by simpa using hb) (by simpa using hd)
        (fun i c d hc hd => h (i + 1) c d (by simpa using hc) (by simpa using hd))
      exact ⟨s :: r, by simp [fill, hs, hr]⟩

/-- What is in the buffers after the loop. -/
theorem fill_spec (cs : List (List ℚ × List ℚ)) (bufs data r : List Arr2) (h : fill cs bufs data = .ok r) :
    r.length = bufs.length ∧ data.length ≤ bufs.length ∧ data.length ≤ cs.length ∧
    (∀ (i : ℕ) (c : List ℚ × List ℚ) (d s : Arr2), cs[i]? = some c → data[i]? = some d → r[i]? = some s → sampled d c = .ok s) ∧
    (∀ i : ℕ, data.length ≤ i → r[i]? = bufs[i]?) := by
  induction data generalizing cs bufs r with
  | nil => simp [fill] at h; subst h; simp
  | cons d ds ih =>
    match cs, bufs with
    | [], _ => simp [fill] at h
    | c :: cs, [] => simp [fill] at h
    | c :: cs, b :: bs =>
      rw [fill] at h
      cases h1 : sampled d c with
      | error e => rw [h1] at h; cases h
      | ok s =>
        rw [h1] at h
        dsimp only at h
        cases h2 : fill cs bs ds with
        | error e => rw [h2] at h; cases h
        | ok r' =>
          rw [h2] at h
          dsimp only at h
          cases h
          obtain ⟨a1, a2, a2', a3, a4⟩ := ih cs bs r' h2
          refine ⟨by simp [a1], by simp; omega, by simp; omega, ?_, ?_⟩
          · intro i c' d' s' hc hd hs
            cases i with
            | zero => simp at hc hd hs; subst hc; subst hd; subst hs; exact h1
            | succ i => exact a3 i c' d' s' (by simpa using hc) (by simpa using hd) (by simpa using hs)
          · intro i hi
            cases i with
            | zero => simp at hi
            | succ i => simpa using a4 i (by simpa using hi)

/-- Interpolated value of one layer at a pixel. -/
def layerVal (c : List ℚ × List ℚ) (d : Arr2) (i j : ℕ) : ℚ :=
  match c.1[i]?, c.2[j]? with
  | some x, some y => match interpVal false d x y with
    | .ok v => v
    | .error _ => 0
  | _, _ => 0

/-- The sum over the buffers is the sum over the layers that have data. -/
theorem fill_sum (cs : List (List ℚ × List ℚ)) (n : ℕ) (hn : ∀ c ∈ cs, c.1.length = n ∧ c.2.length = n)
    (bufs data r : List Arr2) (hz : ∀ b ∈ bufs, ∀ i j, b.px i j = 0) (h : fill cs bufs data = .ok r) (i j : ℕ) (hi : i < n) (hj : j < n) :
    (r.map fun b => b.px i j).sum = (List.zipWith (fun c d => layerVal c d i j) cs data).sum := by
  induction data generalizing cs bufs r with
  | nil =>
    simp [fill] at h
    subst h
    simp only [List.zipWith_nil_right, List.sum_nil]
    apply List.sum_eq_zero
    intro x hx
    obtain ⟨b, hb, rfl⟩ := List.mem_map.mp hx
    exact hz b hb i j
  | cons d ds ih =>
    match cs, bufs with
    | [], _ => simp [fill] at h
    | c :: cs, [] => simp [fill] at h
    | c :: cs, b :: bs =>
      rw [fill] at h
      cases h1 : sampled d c with
      | error e => rw [h1] at h; cases h
      | ok s =>
        rw [h1] at h
        dsimp only at h
        cases h2 : fill cs bs ds with
        | error e => rw [h2] at h; cases h
        | ok r' =>
          rw [h2] at h
          dsimp only at h
          cases h
          have := ih cs (fun c hc => hn c (by simp [hc])) bs r' (fun b hb => hz b (by simp [hb])) h2
          simp only [List.map_cons, List.sum_cons, List.zipWith_cons_cons]
          rw [this]
          congr 1
          obtain ⟨_, _, hp⟩ := sampled_px d c s h1
          have hl := hn c (by simp)
          have e1 : c.1[i]? = some (c.1[i]'(by omega)) := List.getElem?_eq_getElem (by omega)
          have e2 : c.2[j]? = some (c.2[j]'(by omega)) := List.getElem?_eq_getElem (by omega)
          unfold layerVal
          rw [e1, e2]
          dsimp only
          rw [hp i j _ _ e1 e2]

end Soapy.Los
