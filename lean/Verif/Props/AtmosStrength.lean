/-
Property theorems C27, C28 and C59: turbulence strength, coherence time, stored screens.
-/
import Verif.Model.AtmosStrength
import Mathlib.Tactic.Linarith
import Mathlib.Tactic.FieldSimp
import Mathlib.Tactic.NormNum
import Mathlib.Tactic.Positivity
import Mathlib.Tactic.Ring

namespace Soapy.Props

open Soapy.Atmos

theorem sum_div (l : List ℝ) (c : ℝ) : (l.map (· / c)).sum = l.sum / c := by
  induction l with
  | nil => simp
  | cons a l ih => simp only [List.map_cons, List.sum_cons, ih]; ring

theorem sum_mul_left' (l : List ℝ) (c : ℝ) : (l.map (c * ·)).sum = c * l.sum := by
  induction l with
  | nil => simp
  | cons a l ih => simp only [List.map_cons, List.sum_cons, ih]; ring

theorem sum_pos' (l : List ℝ) (h : ∀ x ∈ l, 0 < x) (hl : l ≠ []) : 0 < l.sum := by
  induction l with
  | nil => exact absurd rfl hl
  | cons a l ih =>
    rw [List.sum_cons]
    have ha := h a (by simp)
    by_cases hn : l = []
    · subst hn; simpa using ha
    · have := ih (fun x hx => h x (by simp [hx])) hn
      linarith

theorem take_sum_pos (k : ℕ) (s : List ℝ) (hk : 1 ≤ k) (hl : s ≠ []) (hs : ∀ x ∈ s, 0 < x) : 0 < (s.take k).sum := by
  apply sum_pos' _ (fun x hx => hs x (List.mem_of_mem_take hx))
  cases s with
  | nil => exact absurd rfl hl
  | cons a s =>
    cases k with
    | zero => omega
    | succ k => simp

/-- Undoing the exponent of the layer strengths. -/
theorem r0_power (r0 n : ℝ) (h0 : 0 < r0) (hn : 0 < n) :
    ((r0 ^ (-5 / 3 : ℝ) * n) ^ (-3 / 5 : ℝ)) ^ (-5 / 3 : ℝ) = r0 ^ (-5 / 3 : ℝ) * n := by
  have hp : 0 < r0 ^ (-5 / 3 : ℝ) * n := mul_pos (Real.rpow_pos_of_pos h0 _) hn
  rw [← Real.rpow_mul hp.le]
  norm_num

/-- **C27.** For every positive list of strengths, the Fried parameters of the simulated layers combine to the configured r0, and every layer has the configured share. -/
theorem C27_total_strength (k : ℕ) (r0 : ℝ) (s : List ℝ) (hk : 1 ≤ k) (hl : s ≠ []) (h0 : 0 < r0) (hs : ∀ x ∈ s, 0 < x) :
    (((layerR0 k r0 s).take k).map (· ^ (-5 / 3 : ℝ))).sum = r0 ^ (-5 / 3 : ℝ) ∧
    (layerR0 k r0 s).map (· ^ (-5 / 3 : ℝ)) = s.map fun x => r0 ^ (-5 / 3 : ℝ) * (x / (s.take k).sum) := by
  have hp := take_sum_pos k s hk hl hs
  have e : (layerR0 k r0 s).map (· ^ (-5 / 3 : ℝ)) = s.map fun x => r0 ^ (-5 / 3 : ℝ) * (x / (s.take k).sum) := by
    unfold layerR0 shares
    rw [List.map_map, List.map_map]
    apply List.map_congr_left
    intro x hx
    simp only [Function.comp]
    exact r0_power r0 _ h0 (div_pos (hs x hx) hp)
  refine ⟨?_, e⟩
  rw [List.map_take, e, ← List.map_take]
  have : (fun x => r0 ^ (-5 / 3 : ℝ) * (x / (s.take k).sum)) = (fun y => r0 ^ (-5 / 3 : ℝ) * y) ∘ (fun x => x / (s.take k).sum) := rfl
  rw [this, ← List.map_map, sum_mul_left', sum_div, div_self hp.ne', mul_one]

/-- **C27 (units of the profile).** Only the ratios of the configured strengths matter. -/
theorem C27_scale_free (k : ℕ) (r0 c : ℝ) (s : List ℝ) (hc : c ≠ 0) : layerR0 k r0 (s.map (c * ·)) = layerR0 k r0 s := by
  have : shares k (s.map (c * ·)) = shares k s := by
    unfold shares
    rw [← List.map_take, sum_mul_left', List.map_map]
    apply List.map_congr_left
    intro x _
    simp only [Function.comp]
    exact mul_div_mul_left x _ hc
  unfold layerR0
  rw [this]

/-- **C27 (phase).** The variances of the scaled screens add up to that of one screen with the configured r0: the factors applied to the unit screens satisfy `Σ fᵢ² = (r0/R)^(-5/3)`. -/
theorem C27_phase_variance (k : ℕ) (r0 R : ℝ) (s : List ℝ) (hk : 1 ≤ k) (hl : s ≠ []) (h0 : 0 < r0) (hR : 0 < R) (hs : ∀ x ∈ s, 0 < x) :
    (((layerR0 k r0 s).take k).map fun r => screenFactor R r ^ 2).sum = (r0 / R) ^ (-5 / 3 : ℝ) := by
  have hp := take_sum_pos k s hk hl hs
  have pos : ∀ r ∈ layerR0 k r0 s, 0 < r := by
    intro r hr
    unfold layerR0 shares at hr
    rw [List.map_map, List.mem_map] at hr
    obtain ⟨x, hx, rfl⟩ := hr
    exact Real.rpow_pos_of_pos (mul_pos (Real.rpow_pos_of_pos h0 _) (div_pos (hs x hx) hp)) _
  have e : ((layerR0 k r0 s).take k).map (fun r => screenFactor R r ^ 2) =
      (((layerR0 k r0 s).take k).map (· ^ (-5 / 3 : ℝ))).map (· / R ^ (-5 / 3 : ℝ)) := by
    rw [List.map_map]
    apply List.map_congr_left
    intro r hr
    have hr0 := pos r (List.mem_of_mem_take hr)
    simp only [Function.comp, screenFactor]
    rw [← Real.rpow_natCast, ← Real.rpow_mul (div_pos hr0 hR).le, Real.div_rpow hr0.le hR.le]
    norm_num
  rw [e, sum_div, (C27_total_strength k r0 s hk hl h0 hs).1, Real.div_rpow h0.le hR.le]

example : (1 : ℕ) ≤ 2 ∧ ([3, 1, 7] : List ℝ) ≠ [] ∧ (∀ x ∈ ([3, 1, 7] : List ℝ), 0 < x) ∧
    shares 2 [3, 1, 7] = [3 / 4, 1 / 4, 7 / 4] := by
  refine ⟨by norm_num, by simp, by simp, ?_⟩
  simp [shares]; norm_num

theorem vBar_scale (k : ℕ) (c : ℝ) (ws ns : List ℝ) (hc : 0 ≤ c) (hw : ∀ w ∈ ws, 0 ≤ w) (hn : ∀ n ∈ ns, 0 ≤ n) :
    vBar k (ws.map (· * c)) ns = vBar k ws ns * c := by
  have main : ∀ a b : List ℝ, (∀ w ∈ a, 0 ≤ w) → (∀ n ∈ b, 0 ≤ n) →
      (List.zipWith (fun w n => w ^ (5 / 3 : ℝ) * n) (a.map (· * c)) b).sum = (List.zipWith (fun w n => w ^ (5 / 3 : ℝ) * n) a b).sum * c ^ (5 / 3 : ℝ) ∧
      0 ≤ (List.zipWith (fun w n => w ^ (5 / 3 : ℝ) * n) a b).sum := by
    intro a
    induction a with
    | nil => intro b _ _; simp
    | cons x a ih =>
      intro b ha hb
      cases b with
      | nil => simp
      | cons y b =>
        obtain ⟨i1, i2⟩ := ih b (fun w h => ha w (by simp [h])) (fun n h => hb n (by simp [h]))
        have hx : 0 ≤ x := ha x (by simp)
        have hy : 0 ≤ y := hb y (by simp)
        simp only [List.map_cons, List.zipWith_cons_cons, List.sum_cons, i1, Real.mul_rpow hx hc]
        refine ⟨by ring, ?_⟩
        have := mul_nonneg (Real.rpow_nonneg hx (5 / 3)) hy
        linarith
  unfold vBar
  rw [← List.map_take]
  obtain ⟨m1, m2⟩ := main (ws.take k) (ns.take k) (fun w h => hw w (List.mem_of_mem_take h)) (fun n h => hn n (List.mem_of_mem_take h))
  rw [m1, Real.mul_rpow m2 (Real.rpow_nonneg hc _), ← Real.rpow_mul hc]
  norm_num

/-- **C28.** For every profile in which some simulated layer moves, the coherence time of the rescaled winds is exactly the requested one and all winds keep their ratios. -/
theorem C28_coherence_time (k : ℕ) (r0 t : ℝ) (ws s : List ℝ) (hr : 0 < r0) (ht : 0 < t) (hs : ∀ x ∈ s, 0 < x) (hw : ∀ w ∈ ws, 0 ≤ w)
    (i : ℕ) (hik : i < k) (w₀ : ℝ) (hi : ws[i]? = some w₀) (hw₀ : 0 < w₀) (hlen : ws.length ≤ s.length) :
    tau k r0 (winds k r0 (some t) ws s) (shares k s) = t ∧ ∃ c > 0, winds k r0 (some t) ws s = ws.map (c * ·) := by
  have hil : i < ws.length := by
    by_contra h; rw [List.getElem?_eq_none (by omega)] at hi; cases hi
  have hsne : s ≠ [] := by rintro rfl; simp only [List.length_nil] at hlen; omega
  have hp := take_sum_pos k s (by omega) hsne hs
  have hn : ∀ n ∈ shares k s, 0 < n := by
    intro n hn
    obtain ⟨x, hx, rfl⟩ := List.mem_map.mp hn
    exact div_pos (hs x hx) hp
  have hb : 0 < vBar k ws (shares k s) := by
    unfold vBar
    apply Real.rpow_pos_of_pos
    have main : ∀ (a b : List ℝ) (i : ℕ), (∀ w ∈ a, 0 ≤ w) → (∀ n ∈ b, 0 < n) → a[i]? = some w₀ → a.length ≤ b.length →
        0 < (List.zipWith (fun w n => w ^ (5 / 3 : ℝ) * n) a b).sum := by
      intro a
      induction a with
      | nil => intro b i _ _ h; simp at h
      | cons x a ih =>
        intro b i ha hb h hl
        cases b with
        | nil => simp at hl
        | cons y b =>
          have hx : 0 ≤ x := ha x (by simp)
          have hy : 0 < y := hb y (by simp)
          have nn : ∀ (a b : List ℝ), (∀ w ∈ a, 0 ≤ w) → (∀ n ∈ b, 0 < n) → 0 ≤ (List.zipWith (fun w n => w ^ (5 / 3 : ℝ) * n) a b).sum := by
            intro a b h1 h2
            apply List.sum_nonneg
            intro z hz
            have hz' : z ∈ (a.zip b).map fun p => p.1 ^ (5 / 3 : ℝ) * p.2 := by rw [List.map_zip_eq_zipWith]; exact hz
            obtain ⟨p, hp, rfl⟩ := List.mem_map.mp hz'
            exact mul_nonneg (Real.rpow_nonneg (h1 _ (List.of_mem_zip hp).1) _) (h2 _ (List.of_mem_zip hp).2).le
          rw [List.zipWith_cons_cons, List.sum_cons]
          cases i with
          | zero =>
            simp at h
            subst h
            have h1 := mul_pos (Real.rpow_pos_of_pos hw₀ (5 / 3)) hy
            have h2 := nn a b (fun w h => ha w (by simp [h])) (fun n h => hb n (by simp [h]))
            linarith
          | succ i =>
            have h1 := mul_nonneg (Real.rpow_nonneg hx (5 / 3)) hy.le
            have h2 := ih b i (fun w h => ha w (by simp [h])) (fun n h => hb n (by simp [h])) (by simpa using h) (by simpa using hl)
            linarith
    apply main _ _ i (fun w h => hw w (List.mem_of_mem_take h)) (fun n h => hn n (List.mem_of_mem_take h))
    · rw [List.getElem?_take, if_pos hik, hi]
    · simp [shares]; omega
  have ht0 : 0 < tau k r0 ws (shares k s) := by unfold tau; positivity
  have e : winds k r0 (some t) ws s = ws.map (· * (tau k r0 ws (shares k s) / t)) := by
    unfold winds
    dsimp only
    rw [if_neg ht.ne']
    apply List.map_congr_left
    intro w _
    ring
  constructor
  · rw [e]
    have e2 := vBar_scale k (tau k r0 ws (shares k s) / t) ws (shares k s) (div_pos ht0 ht).le hw (fun n h => (hn n h).le)
    have e3 : tau k r0 ws (shares k s) = 0.314 * r0 / vBar k ws (shares k s) := rfl
    have e4 : ∀ x, tau k r0 x (shares k s) = 0.314 * r0 / vBar k x (shares k s) := fun _ => rfl
    rw [e4, e2, e3]
    field_simp
  · exact ⟨tau k r0 ws (shares k s) / t, div_pos ht0 ht, by rw [e]; apply List.map_congr_left; intro w _; ring⟩

/-- **C28 (nothing requested).** Without a requested coherence time (absent or 0) the winds are those of the configuration. -/
theorem C28_unchanged (k : ℕ) (r0 : ℝ) (ws s : List ℝ) : winds k r0 none ws s = ws ∧ winds k r0 (some 0) ws s = ws := by
  simp [winds]

example : (0 : ℝ) < 3 / 20 ∧ (∀ x ∈ ([1, 2] : List ℝ), 0 < x) ∧ (∀ w ∈ ([0, 10] : List ℝ), 0 ≤ w) ∧ (1 : ℕ) < 2 ∧
    ([0, 10] : List ℝ)[1]? = some 10 ∧ ([0, 10] : List ℝ).length ≤ ([1, 2] : List ℝ).length := by
  norm_num

/-- **C59.** Screens written with `saveScrns` and loaded again by a simulation with the same pixel size are not rescaled. -/
theorem C59_saved_screens_reload (whole pixel : ℝ) (hw : 0 < whole) (hp : 0 < pixel) : loadFactor whole pixel (some (header whole pixel)) = 1 := by
  unfold loadFactor header
  dsimp only
  rw [div_mul_cancel₀ _ hp.ne', div_self hw.ne', Real.one_rpow]

/-- **C59 (any strength, any pixel size).** A screen made with Fried parameter `r` on pixels of size `q` (so with phases proportional to `(q/r)^(5/6)` from pixel to pixel) is used, on pixels of size `p`, exactly as a unit screen
made for `p`: the load factor times that amplitude is the amplitude of a screen with `wholeScrnR0` on pixels of size `p`. -/
theorem C59_any_pixel (whole r p q : ℝ) (hw : 0 < whole) (hr : 0 < r) (hp : 0 < p) (hq : 0 < q) :
    loadFactor whole p (some (header r q)) * (q / r) ^ (5 / 6 : ℝ) = (p / whole) ^ (5 / 6 : ℝ) := by
  unfold loadFactor header
  dsimp only
  have e : (whole / (r / q * p)) ^ (-5 / 6 : ℝ) = ((r / q * p) / whole) ^ (5 / 6 : ℝ) := by
    rw [show (-5 / 6 : ℝ) = -(5 / 6) by norm_num, Real.rpow_neg (by positivity), ← Real.inv_rpow (by positivity), inv_div]
  rw [e, ← Real.mul_rpow (by positivity) (by positivity)]
  congr 1
  field_simp

end Soapy.Props
