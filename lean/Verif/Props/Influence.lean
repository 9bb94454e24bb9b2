/-
Property theorems C74–C78: influence functions of the mirror types.
-/
import Verif.Props.Mirror
import Verif.Model.Influence
import Mathlib.Tactic.FieldSimp
import Mathlib.Tactic.Linarith
import Mathlib.Tactic.LinearCombination

namespace Soapy.Props

open Soapy.Mirror Soapy.Tools Soapy.Vec Soapy.Influence

/-! ### C74: every mirror type lands centred on the screen -/

/-- The screen shows the `n × n` surface `f` in its middle, up to a piston. -/
def ShowsCentred (scrn n : ℕ) (s : Arr2) (f : ℕ → ℕ → ℚ) : Prop :=
  s.rows = scrn ∧ s.cols = scrn ∧ ∃ m : ℚ, ∀ a b i j : ℕ, a < n → b < n → i < scrn → j < scrn →
    2 * (i : ℤ) - scrn = 2 * (a : ℤ) - n → 2 * (j : ℤ) - scrn = 2 * (b : ℤ) - n → s.px i j = f a b - m

/-- The sum of the shapes times the commands, without any of the model's helpers. -/
theorem superpose_map (n : ℕ) (raw : List Arr2) (g : Arr2 → Arr2) (c : List ℚ) (i j : ℕ) :
    superpose n (raw.map g) c i j = ∑ k ∈ Finset.range raw.length, c.getD k 0 * (g (raw.getD k (zero2 n))).px i j := by
  unfold superpose
  rw [List.length_map]
  refine Finset.sum_congr rfl fun k hk => ?_
  rw [Finset.mem_range] at hk
  simp [List.getD_eq_getElem?_getD, hk]

theorem shows_of_centred (scrn n : ℕ) (heven : (scrn + n) % 2 = 0) (s : Arr2) (f : ℕ → ℕ → ℚ) (m : ℚ) (hr : s.rows = scrn)
    (hc : s.cols = scrn) (h : ∀ i j, i < scrn → j < scrn → s.px i j = centred scrn n (fun a b => f a b - m) i j) :
    ShowsCentred scrn n s f := by
  refine ⟨hr, hc, m, fun a b i j ha hb hi hj e1 e2 => ?_⟩
  rw [h i j hi hj]
  unfold centred
  dsimp only
  have h1 : (i : ℤ) - ((scrn : ℤ) - n) / 2 = a := by omega
  have h2 : (j : ℤ) - ((scrn : ℤ) - n) / 2 = b := by omega
  rw [h1, h2, if_pos (by omega)]
  simp

theorem shows_run (scrn n : ℕ) (heven : (scrn + n) % 2 = 0) (shapes : List Arr2) (hne : shapes ≠ []) (history : List (List ℚ))
    (c : List ℚ) (hh : ∀ h ∈ history, h.length = shapes.length) (hl : c.length = shapes.length) :
    ∃ s, runDm scrn n 0 shapes (zero2 scrn) (history ++ [c]) = .ok s ∧ ShowsCentred scrn n s (superpose n shapes c) := by
  obtain ⟨s, e, h1, h2, h3⟩ := C15_size_partial scrn n heven shapes hne history c hh hl
  exact ⟨s, e, shows_of_centred scrn n heven s _ (mean2 n (superpose n shapes c)) h1 h2 h3⟩

/-- **C74 (modal mirrors; partial: even size difference).** Zernike, Karhunen–Loève and custom mirrors and Gaussian stacks: the sum of command × shape × `iMatValue` appears in the middle of the screen, after any commands.
Missing: an odd difference between mirror and screen, `C74_odd_fails`. -/
theorem C74_modal_partial (scrn nx pad : ℕ) (v : ℚ) (heven : (scrn + nx) % 2 = 0) (raw : List Arr2) (hne : raw ≠ [])
    (hsize : ∀ a ∈ raw, a.rows = nx ∧ a.cols = nx) (history : List (List ℚ)) (c : List ℚ)
    (hh : ∀ h ∈ history, h.length = raw.length) (hl : c.length = raw.length) :
    ∃ s, runDm scrn (nx + 2 * pad) 0 (modalShapes pad v raw) (zero2 scrn) (history ++ [c]) = .ok s ∧
      ShowsCentred scrn nx s fun a b => ∑ k ∈ Finset.range raw.length, c.getD k 0 * ((raw.getD k (zero2 nx)).px a b * v) := by
  have hlen : (modalShapes pad v raw).length = raw.length := by simp [modalShapes]
  obtain ⟨s, e, h1, h2, m, h3⟩ := shows_run scrn (nx + 2 * pad) (by omega) (modalShapes pad v raw)
    (by simpa [modalShapes] using hne) history c (by simpa [hlen] using hh) (by rw [hlen]; exact hl)
  refine ⟨s, e, h1, h2, m, fun a b i j ha hb hi hj e1 e2 => ?_⟩
  rw [h3 (a + pad) (b + pad) i j (by omega) (by omega) hi hj (by push_cast; omega) (by push_cast; omega)]
  congr 1
  unfold modalShapes
  rw [superpose_map]
  refine Finset.sum_congr rfl fun k hk => ?_
  rw [Finset.mem_range] at hk
  have hmem : raw.getD k (zero2 nx) ∈ raw := by
    rw [List.getD_eq_getElem?_getD, List.getElem?_eq_getElem hk]
    exact List.getElem_mem hk
  obtain ⟨hr, hc⟩ := hsize _ hmem
  have hd : (raw.getD k (zero2 (nx + 2 * pad))) = raw.getD k (zero2 nx) := by
    simp [List.getD_eq_getElem?_getD, hk]
  rw [hd]
  simp only [scaleShape, padShape, hr, hc]
  rw [if_pos (by omega), Nat.add_sub_cancel, Nat.add_sub_cancel]

/-- **C74 (tip-tilt; partial: even size difference).** -/
theorem C74_tt_partial (scrn nx : ℕ) (asec tel v : ℚ) (heven : (scrn + nx) % 2 = 0) (history : List (List ℚ)) (x y : ℚ)
    (hh : ∀ h ∈ history, h.length = 2) :
    ∃ s, runDm scrn nx 0 (ttShapes asec tel nx v) (zero2 scrn) (history ++ [[x, y]]) = .ok s ∧
      ShowsCentred scrn nx s fun a b =>
        -(x * linspaceSym nx b + y * linspaceSym nx a) * (asec * tel / 2 * 1000000000) * v := by
  obtain ⟨s, e, h⟩ := shows_run scrn nx heven (ttShapes asec tel nx v) (by simp [ttShapes]) history [x, y]
    (by simpa [ttShapes] using hh) (by simp [ttShapes])
  refine ⟨s, e, ?_⟩
  convert h using 1
  funext a b
  simp only [superpose, ttShapes, scaleShape, List.length_cons, List.length_nil, zero_add, Nat.reduceAdd, Finset.sum_range_succ,
    Finset.sum_range_zero, List.getD_cons_zero, List.getD_cons_succ]
  ring

/-- The pushed actuators of a stack mirror: spline through the grid, evaluated on the enlarged mirror. -/
def pushed (spl : Arr2 → ℚ → ℚ → ℚ) (x dm : ℕ) (k a b : ℕ) : ℚ := spl (pokeGrid x k) (linspace0 (x + 2) dm a) (linspace0 (x + 2) dm b)

theorem removeMean_px (spl : Arr2 → ℚ → ℚ → ℚ) (x dm k i j : ℕ) :
    (removeMean (zoomRbs spl (pokeGrid x k) dm)).px i j = pushed spl x dm k i j - mean2 dm (pushed spl x dm k) := by
  simp [removeMean, zoomRbs, pushed, Arr2.mean, Arr2.total, mean2, pokeGrid]

/-- The stored shapes of a stack mirror when sizes differ by an even number. -/
theorem piezoShapes_even (spl : Arr2 → ℚ → ℚ → ℚ) (scrn nx x : ℕ) (v : ℚ) (hx : x ≠ 0)
    (heven : (scrn + piezoSize nx x) % 2 = 0) (hne : piezoSize nx x ≠ scrn) :
    ∃ shapes, piezoShapes spl scrn nx x v = .ok (scrn, shapes) ∧ shapes.length = x * x ∧
      ∀ k, k < x * x → ∀ i j, i < scrn → j < scrn → (shapes.getD k (zero2 scrn)).px i j =
        centred scrn (piezoSize nx x) (fun a b => (pushed spl x (piezoSize nx x) k a b - mean2 (piezoSize nx x) (pushed spl x (piezoSize nx x) k)) * v) i j := by
  set dm := piezoSize nx x with hdm
  unfold piezoShapes fitPiezo
  simp only [hx, if_false, hne, ← hdm]
  by_cases hlt : scrn < dm
  · obtain ⟨p, hp⟩ : ∃ p : ℕ, dm = scrn + 2 * p := ⟨(dm - scrn) / 2, by omega⟩
    have e : ((dm : ℚ) / 2 - (scrn : ℚ) / 2) = ((p : ℤ) : ℚ) := by rw [hp]; push_cast; ring
    have hlo : sliceBound dm (p : ℤ) = p := by unfold sliceBound; split_ifs <;> omega
    have hhi : sliceBound dm (-(p : ℤ)) = dm - p := by unfold sliceBound; split_ifs <;> omega
    have hlen : sliceLen dm (p : ℤ) (-(p : ℤ)) = scrn := by unfold sliceLen; rw [hlo, hhi]; omega
    simp only [hlt, if_true, e, pyRound_int, hlo, hlen, Except.bind]
    refine ⟨_, rfl, by simp, fun k hk i j hi hj => ?_⟩
    simp only [List.getD_eq_getElem?_getD, List.getElem?_map, List.getElem?_range hk, Option.map_some, Option.getD_some, scaleShape, removeMean_px]
    unfold centred
    have hoff : ((scrn : ℤ) - dm) / 2 = -(p : ℤ) := by omega
    rw [hoff]
    dsimp only
    rw [if_pos (by omega), show ((i : ℤ) - -(p : ℤ)).toNat = p + i by omega, show ((j : ℤ) - -(p : ℤ)).toNat = p + j by omega]
  · obtain ⟨p, hp⟩ : ∃ p : ℕ, scrn = dm + 2 * p := ⟨(scrn - dm) / 2, by omega⟩
    have e : (((scrn : ℚ) - dm) / 2) = ((p : ℤ) : ℚ) := by rw [hp]; push_cast; ring
    simp only [hlt, if_false, e, pyRound_int, Int.toNat_natCast, Except.bind, ← hp]
    refine ⟨_, rfl, by simp, fun k hk i j hi hj => ?_⟩
    simp only [List.getD_eq_getElem?_getD, List.getElem?_map, List.getElem?_range hk, Option.map_some, Option.getD_some, scaleShape, padShape]
    have hr : (removeMean (zoomRbs spl (pokeGrid x k) dm)).rows = dm := rfl
    have hc : (removeMean (zoomRbs spl (pokeGrid x k) dm)).cols = dm := rfl
    rw [hr, hc]
    unfold centred
    have hoff : ((scrn : ℤ) - dm) / 2 = p := by omega
    rw [hoff]
    dsimp only
    by_cases hin : p ≤ i ∧ i < p + dm ∧ p ≤ j ∧ j < p + dm
    · rw [if_pos hin, if_pos (by omega), removeMean_px, show ((i : ℤ) - p).toNat = i - p by omega,
        show ((j : ℤ) - p).toNat = j - p by omega]
    · rw [if_neg hin, if_neg (by omega), zero_mul]

/-- **C74 (stack mirror; partial: even, non-zero size difference).** The sum of the pushed actuators times commands times `iMatValue` appears in the middle of the screen, after any commands.
Missing: odd differences (`C74_piezo_odd_fails`, `C74_piezo_dead`) and equal sizes (`C74_piezo_equal_fails`). -/
theorem C74_piezo_partial (spl : Arr2 → ℚ → ℚ → ℚ) (scrn nx x : ℕ) (v : ℚ) (hx : x ≠ 0)
    (heven : (scrn + piezoSize nx x) % 2 = 0) (hne : piezoSize nx x ≠ scrn) (history : List (List ℚ)) (c : List ℚ)
    (hh : ∀ h ∈ history, h.length = x * x) (hl : c.length = x * x) :
    ∃ shapes s, piezoShapes spl scrn nx x v = .ok (scrn, shapes) ∧
      runDm scrn scrn 0 shapes (zero2 scrn) (history ++ [c]) = .ok s ∧
      ShowsCentred scrn (piezoSize nx x) s fun a b =>
        ∑ k ∈ Finset.range (x * x), c.getD k 0 * (pushed spl x (piezoSize nx x) k a b * v) := by
  obtain ⟨shapes, e, hlen, hpx⟩ := piezoShapes_even spl scrn nx x v hx heven hne
  set dm := piezoSize nx x with hdm
  have hpos : 0 < x * x := Nat.mul_pos (by omega) (by omega)
  obtain ⟨s, e2, h1, h2, m, h3⟩ := shows_run scrn scrn (by omega) shapes (by intro h; rw [h] at hlen; simp at hlen; omega) history c
    (by rw [hlen]; exact hh) (by rw [hlen]; exact hl)
  refine ⟨shapes, s, e, e2, h1, h2,
    m + ∑ k ∈ Finset.range (x * x), c.getD k 0 * (mean2 dm (pushed spl x dm k) * v), fun a b i j ha hb hi hj q1 q2 => ?_⟩
  rw [h3 i j i j hi hj hi hj rfl rfl]
  unfold superpose
  rw [hlen, ← sub_sub, sub_right_comm, ← Finset.sum_sub_distrib]
  congr 1
  refine Finset.sum_congr rfl fun k hk => ?_
  rw [Finset.mem_range] at hk
  rw [hpx k hk i j hi hj]
  unfold centred
  dsimp only
  have g1 : (i : ℤ) - ((scrn : ℤ) - dm) / 2 = a := by omega
  have g2 : (j : ℤ) - ((scrn : ℤ) - dm) / 2 = b := by omega
  rw [g1, g2, if_pos (by omega)]
  simp only [Int.toNat_natCast]
  ring

/-- **C74 is violated (modal and tip-tilt mirrors)**: an odd size difference raises an exception with the first command. -/
theorem C74_odd_fails (scrn nx pad : ℕ) (v : ℚ) (hn : 2 ≤ nx) (hs : 3 ≤ scrn) (hodd : (scrn + nx) % 2 = 1) (raw : List Arr2)
    (asec tel : ℚ) (c : List ℚ) (cs : List (List ℚ)) :
    (∃ e, runDm scrn (nx + 2 * pad) 0 (modalShapes pad v raw) (zero2 scrn) (c :: cs) = .error e) ∧
    (∃ e, runDm scrn nx 0 (ttShapes asec tel nx v) (zero2 scrn) (c :: cs) = .error e) :=
  ⟨C15_odd_fails scrn (nx + 2 * pad) (by omega) hs (by omega) _ c cs, C15_odd_fails scrn nx hn hs hodd _ c cs⟩

/-- **C74 is violated (stack mirror)**: if the enlarged mirror is exactly as large as the screen, the mirror cannot be made. -/
theorem C74_piezo_equal_fails (spl : Arr2 → ℚ → ℚ → ℚ) (scrn nx x : ℕ) (v : ℚ) (hx : x ≠ 0) (h : piezoSize nx x = scrn) :
    piezoShapes spl scrn nx x v = .error .attributeError := by
  simp [piezoShapes, fitPiezo, hx, h, Except.bind]

/-- **C74 is violated (stack mirror)**: if the enlarged mirror is larger than an even screen by one pixel, every command is accepted and none moves the mirror. -/
theorem C74_piezo_dead (spl : Arr2 → ℚ → ℚ → ℚ) (scrn nx x : ℕ) (v : ℚ) (hx : x ≠ 0) (h : piezoSize nx x = scrn + 1)
    (hscrn : scrn % 2 = 0) (hpos : 0 < scrn) (history : List (List ℚ)) (hh : ∀ c ∈ history, c.length = x * x) :
    ∃ n shapes, piezoShapes spl scrn nx x v = .ok (n, shapes) ∧
      ∃ s, runDm scrn n 0 shapes (zero2 scrn) history = .ok s ∧ s.rows = scrn ∧ s.cols = scrn ∧ ∀ i j, s.px i j = 0 := by
  have e : (((scrn + 1 : ℕ) : ℚ) / 2 - (scrn : ℚ) / 2) = 1 / 2 := by push_cast; ring
  have hround : pyRound (1 / 2 : ℚ) = 0 := by decide +kernel
  have hlen : sliceLen (scrn + 1) 0 (-0) = 0 := by simp [sliceLen]
  unfold piezoShapes fitPiezo
  simp only [hx, if_false, h, show scrn + 1 ≠ scrn by omega, show scrn < scrn + 1 by omega, if_true, e, hround,
    hlen, Except.bind]
  refine ⟨_, _, rfl, ?_⟩
  have hposx : 0 < x * x := Nat.mul_pos (by omega) (by omega)
  set shapes := (((List.range (x * x)).map fun k => removeMean (zoomRbs spl (pokeGrid x k) (scrn + 1))).map fun a =>
    (⟨0, 0, fun i j => a.px (sliceBound (scrn + 1) 0 + i) (sliceBound (scrn + 1) 0 + j)⟩ : Arr2)).map (scaleShape v) with hshapes
  have hsl : shapes.length = x * x := by simp [hshapes]
  clear_value shapes
  obtain ⟨q, hq⟩ : ∃ q : ℕ, scrn = 2 * q := ⟨scrn / 2, by omega⟩
  have gen : ∀ (history : List (List ℚ)), (∀ c ∈ history, c.length = x * x) → ∀ s : Arr2, s.rows = scrn → s.cols = scrn →
      (∀ i j, s.px i j = 0) → ∃ s', runDm scrn 0 0 shapes s history = .ok s' ∧ s'.rows = scrn ∧ s'.cols = scrn ∧
        ∀ i j, s'.px i j = 0 := by
    intro history
    induction history with
    | nil => intro _ s a b c; exact ⟨s, rfl, a, b, c⟩
    | cons c cs ih =>
      intro hc s hr hcol hz
      have hmk := makeDMFrame_ok 0 shapes c (by intro h; rw [h] at hsl; simp at hsl; omega) (by rw [hsl]; exact hc c (by simp))
      have ep : (((scrn : ℚ) - ((0 : ℕ) : ℚ)) / 2) = ((q : ℤ) : ℚ) := by rw [hq]; push_cast; ring
      have hlo : sliceBound scrn (q : ℤ) = q := by unfold sliceBound; split_ifs <;> omega
      have hhi : sliceBound scrn (-(q : ℤ)) = q := by unfold sliceBound; split_ifs <;> omega
      have hl0 : sliceLen scrn (q : ℤ) (-(q : ℤ)) = 0 := by unfold sliceLen; rw [hlo, hhi]; omega
      have hf : ∃ s', dmFrame scrn 0 0 shapes s c = .ok s' ∧ s'.rows = scrn ∧ s'.cols = scrn ∧ ∀ i j, s'.px i j = 0 := by
        unfold dmFrame
        rw [hmk]
        dsimp only
        rw [if_neg (by simp), if_neg (by omega), if_neg (by omega)]
        simp only [ep, pyRound_int, hr, hcol, hlo, hl0]
        rw [if_pos (by simp [fitsAxis])]
        refine ⟨_, rfl, rfl, rfl, fun i j => ?_⟩
        dsimp only
        rw [if_neg (by omega)]
        exact hz i j
      obtain ⟨s', e1, a, b, d⟩ := hf
      obtain ⟨s'', e2, r⟩ := ih (fun c hc' => hc c (by simp [hc'])) s' a b d
      exact ⟨s'', by simp [runDm, e1, e2], r⟩
  exact gen history hh (zero2 scrn) rfl rfl fun _ _ => rfl

/-- **C74 is violated (stack mirror)**: for every other odd difference the mirror is made, and fails with the first command. -/
theorem C74_piezo_odd_fails (spl : Arr2 → ℚ → ℚ → ℚ) (scrn nx x : ℕ) (v : ℚ) (hx : x ≠ 0) (hs : 3 ≤ scrn)
    (hodd : (scrn + piezoSize nx x) % 2 = 1) (hne : piezoSize nx x ≠ scrn + 1) (hdm : 2 ≤ piezoSize nx x) (c : List ℚ) (cs : List (List ℚ)) :
    ∃ n shapes, piezoShapes spl scrn nx x v = .ok (n, shapes) ∧ ∃ e, runDm scrn n 0 shapes (zero2 scrn) (c :: cs) = .error e := by
  set dm := piezoSize nx x with hdmdef
  unfold piezoShapes fitPiezo
  simp only [hx, if_false, ← hdmdef, show dm ≠ scrn by omega]
  by_cases hlt : scrn < dm
  · obtain ⟨p, hp⟩ : ∃ p : ℕ, dm = scrn + 2 * p + 1 := ⟨(dm - scrn) / 2, by omega⟩
    have e : ((dm : ℚ) / 2 - (scrn : ℚ) / 2) = ((p : ℤ) : ℚ) + 1 / 2 := by rw [hp]; push_cast; ring
    have hr : pyRound (((p : ℤ) : ℚ) + 1 / 2) = p ∨ pyRound (((p : ℤ) : ℚ) + 1 / 2) = p + 1 := by
      rw [pyRound_half]; split_ifs <;> simp
    simp only [hlt, if_true, e, Except.bind]
    refine ⟨_, _, rfl, C15_odd_fails scrn _ ?_ hs ?_ _ c cs⟩
    · rcases hr with hr | hr <;> rw [hr] <;> simp only [sliceLen, sliceBound] <;> split_ifs <;> omega
    · rcases hr with hr | hr <;> rw [hr] <;> simp only [sliceLen, sliceBound] <;> split_ifs <;> omega
  · simp only [hlt, if_false, Except.bind]
    exact ⟨_, _, rfl, C15_odd_fails scrn _ (by omega) hs (by omega) _ c cs⟩

/-- **C74 (what mirrors cannot be made).** More than 1000 Karhunen–Loève modes, a Gaussian stack of one actuator, fewer custom shapes than actuators. -/
theorem C74_unmakeable (make : ℕ → ℕ → List Arr2) (gauss : ℕ → ℚ → ℚ → ℚ → Arr2) (gd : List ((ℚ × ℚ) × Flt) → ℚ × ℚ → Flt)
    (nActs pupil nx pad rows cols : ℕ) (v : ℚ) (file : List (ℕ → ℕ → Flt)) :
    (klShapes make nActs pad v = .error .attributeError ↔ 1000 < nActs) ∧
    gaussShapes gauss pupil 1 nx pad v = .error .zeroDivisionError ∧
    (file.length < nActs → customShapes gd nActs nx pad rows cols v file = .error .assertionError) := by
  refine ⟨?_, by simp [gaussShapes], fun h => by simp [customShapes, h]⟩
  unfold klShapes
  split_ifs <;> simp <;> omega

/-- **C74 (Gaussian stack).** With two actuators or more across, there is one shape for each; actuator `k` is a Gaussian centred on the point of the square grid that spans the pupil from edge to edge, neighbours two widths apart. -/
theorem C74_gauss (gauss : ℕ → ℚ → ℚ → ℚ → Arr2) (pupil x nx pad : ℕ) (v : ℚ) (hx : 2 ≤ x) :
    ∃ (w : ℚ) (shapes : List Arr2), gaussShapes gauss pupil x nx pad v = .ok shapes ∧ shapes.length = x * x ∧ 2 * w * ((x : ℚ) - 1) = pupil ∧
      ∀ i j, i < x → j < x → shapes[i * x + j]? = some (scaleShape v (padShape pad (gauss nx w (2 * w * i) (2 * w * j)))) := by
  have hne : (x : ℚ) - 1 ≠ 0 := by
    have : (2 : ℚ) ≤ x := by exact_mod_cast hx
    linarith
  refine ⟨(pupil : ℚ) / ((x : ℚ) - 1) / 2, _, by unfold gaussShapes; rw [if_neg (by omega)], by simp [modalShapes], by field_simp, fun i j hi hj => ?_⟩
  have hk : i * x + j < x * x := by nlinarith
  have h1 : (i * x + j) / x = i := by
    rw [Nat.add_comm, Nat.add_mul_div_right _ _ (by omega), Nat.div_eq_of_lt hj, Nat.zero_add]
  have h2 : (i * x + j) % x = j := by
    rw [Nat.add_comm, Nat.add_mul_mod_self_right, Nat.mod_eq_of_lt hj]
  have g : ∀ k : ℕ, gaussPos pupil x k = 2 * ((pupil : ℚ) / ((x : ℚ) - 1) / 2) * k := fun k => by unfold gaussPos; ring
  simp only [modalShapes, List.getElem?_map, List.getElem?_range hk, Option.map_some, h1, h2, g]

/-- 3 actuators across a pupil of 8: centres 0, 4, 8. -/
example : (2 : ℕ) ≤ 3 ∧ gaussPos 8 3 1 = 4 ∧ gaussPos 8 3 2 = 8 := by decide +kernel

/-- **C74 (sizes).** A mirror has as many elements per metre as the pupil, to half an element, exactly the pupil's if it has the telescope's diameter; every stored shape has the size of its mirror with margins. -/
theorem C74_sizes (pupil nx pad : ℕ) (diam tel v : ℚ) (htel : tel ≠ 0) (raw : List Arr2) (hsize : ∀ a ∈ raw, a.rows = nx ∧ a.cols = nx) :
    |(nxElements pupil diam tel : ℚ) - (pupil : ℚ) / tel * diam| ≤ 1 / 2 ∧ nxElements pupil tel tel = pupil ∧
    ∀ a ∈ modalShapes pad v raw, a.rows = pad + nx + pad ∧ a.cols = pad + nx + pad := by
  refine ⟨?_, ?_, fun a ha => ?_⟩
  · have := pyRound_close ((pupil : ℚ) * diam / tel)
    rw [abs_sub_comm, show (pupil : ℚ) / tel * diam = (pupil : ℚ) * diam / tel by ring]
    exact this
  · unfold nxElements
    rw [mul_div_assoc, div_self htel, mul_one]
    exact pyRound_int (pupil : ℤ)
  · simp only [modalShapes, List.mem_map] at ha
    obtain ⟨b, hb, rfl⟩ := ha
    obtain ⟨h1, h2⟩ := hsize b hb
    simp only [scaleShape, padShape, h1, h2]
    omega

/-- 3 actuators across 9 elements: enlarged to 15, screen of 11. -/
example : piezoSize 9 3 = 15 ∧ (11 + piezoSize 9 3) % 2 = 0 ∧ piezoSize 9 3 ≠ 11 := by decide +kernel

/-- 5 actuators across 13 elements, enlarged to 19, on a screen of 18: a dead mirror. -/
example : piezoSize 13 5 = 18 + 1 := by decide +kernel

/-! ### C75: unit of the tip-tilt mirror -/

/-- **C75 (tilt).** A tip-tilt mirror of `nx` elements tilts only along the axis of the command: from one element to the next the surface drops by the command times `iMatValue` times the same amount everywhere. -/
theorem C75_tilt (scrn nx : ℕ) (asec tel v : ℚ) (heven : (scrn + nx) % 2 = 0) (hnx : 2 ≤ nx) (history : List (List ℚ)) (x y : ℚ)
    (hh : ∀ h ∈ history, h.length = 2) :
    ∃ s, runDm scrn nx 0 (ttShapes asec tel nx v) (zero2 scrn) (history ++ [[x, y]]) = .ok s ∧
      ∀ i j, (∀ k, (k = i ∨ k = i + 1 ∨ k = j ∨ k = j + 1) → scrn ≤ nx + 2 * k ∧ 2 * k < scrn + nx ∧ k < scrn) →
        s.px i (j + 1) - s.px i j = -x * v * (asec * tel * 1000000000) / ((nx : ℚ) - 1) ∧
        s.px (i + 1) j - s.px i j = -y * v * (asec * tel * 1000000000) / ((nx : ℚ) - 1) := by
  obtain ⟨s, e, h1, h2, m, h3⟩ := C74_tt_partial scrn nx asec tel v heven history x y hh
  refine ⟨s, e, fun i j hin => ?_⟩
  obtain ⟨a1, a2, a3⟩ := hin i (by simp)
  obtain ⟨b1, b2, b3⟩ := hin (i + 1) (by simp)
  obtain ⟨c1, c2, c3⟩ := hin j (by simp)
  obtain ⟨d1, d2, d3⟩ := hin (j + 1) (by simp)
  have hq : ((nx : ℚ) - 1) ≠ 0 := by
    have : (2 : ℚ) ≤ nx := by exact_mod_cast hnx
    linarith
  have at_ : ∀ i j, scrn ≤ nx + 2 * i → 2 * i < scrn + nx → i < scrn → scrn ≤ nx + 2 * j → 2 * j < scrn + nx → j < scrn →
      s.px i j = -(x * linspaceSym nx ((nx + 2 * j - scrn) / 2) + y * linspaceSym nx ((nx + 2 * i - scrn) / 2)) *
        (asec * tel / 2 * 1000000000) * v - m := fun i j p1 p2 p3 q1 q2 q3 =>
    h3 ((nx + 2 * i - scrn) / 2) ((nx + 2 * j - scrn) / 2) i j (by omega) (by omega) p3 q3 (by omega) (by omega)
  have hs : ∀ k, scrn ≤ nx + 2 * k → (nx + 2 * (k + 1) - scrn) / 2 = (nx + 2 * k - scrn) / 2 + 1 := fun k hk => by omega
  have hl : ∀ k : ℕ, linspaceSym nx (k + 1) - linspaceSym nx k = 2 / ((nx : ℚ) - 1) := by
    intro k
    simp only [linspaceSym, show ¬ nx ≤ 1 by omega, if_false]
    field_simp
    push_cast
    ring
  rw [at_ i (j + 1) a1 a2 a3 d1 d2 d3, at_ i j a1 a2 a3 c1 c2 c3, at_ (i + 1) j b1 b2 b3 c1 c2 c3, hs j c1, hs i a1]
  have hj := hl ((nx + 2 * j - scrn) / 2)
  have hi := hl ((nx + 2 * i - scrn) / 2)
  constructor
  · rw [eq_div_iff hq]
    have : linspaceSym nx ((nx + 2 * j - scrn) / 2 + 1) = linspaceSym nx ((nx + 2 * j - scrn) / 2) + 2 / ((nx : ℚ) - 1) := by linarith
    rw [this]
    field_simp
    ring
  · rw [eq_div_iff hq]
    have : linspaceSym nx ((nx + 2 * i - scrn) / 2 + 1) = linspaceSym nx ((nx + 2 * i - scrn) / 2) + 2 / ((nx : ℚ) - 1) := by linarith
    rw [this]
    field_simp
    ring

/-- **C75 (partial: mirror as large as the telescope).** With `iMatValue` 1, a command of 1 changes the surface from the first to the last element by one arcsecond times the diameter of the mirror (in nm), if the mirror has
the telescope's diameter; then and only then.
Missing: mirrors of another diameter (an altitude-conjugated mirror), see `C75_violated`. -/
theorem C75_arcsec_partial (asec tel diam : ℚ) (nx : ℕ) (hnx : 2 ≤ nx) (hasec : asec ≠ 0) (b : ℕ) :
    ((ttShapes asec tel nx 1).getD 0 (zero2 nx)).px b 0 - ((ttShapes asec tel nx 1).getD 0 (zero2 nx)).px b (nx - 1) =
      asec * diam * 1000000000 ↔ diam = tel := by
  have hq : ((nx : ℚ) - 1) ≠ 0 := by
    have : (2 : ℚ) ≤ nx := by exact_mod_cast hnx
    linarith
  have hc : ((nx - 1 : ℕ) : ℚ) = (nx : ℚ) - 1 := by push_cast [Nat.cast_sub (show 1 ≤ nx by omega)]; ring
  have key : ((ttShapes asec tel nx 1).getD 0 (zero2 nx)).px b 0 - ((ttShapes asec tel nx 1).getD 0 (zero2 nx)).px b (nx - 1) =
      asec * tel * 1000000000 := by
    simp only [ttShapes, scaleShape, List.getD_cons_zero, linspaceSym, show ¬ nx ≤ 1 by omega, if_false, hc]
    push_cast
    field_simp
    ring
  rw [key]
  constructor
  · intro h
    have : asec * (diam - tel) = 0 := by linarith
    rcases mul_eq_zero.mp this with h' | h'
    · exact absurd h' hasec
    · linarith
  · rintro rfl; rfl

/-- **C75 (one element).** A mirror of a single element is not tilted: a command of 1 moves it by half the stroke. -/
theorem C75_single (asec tel v : ℚ) : ∀ s ∈ ttShapes asec tel 1 v, s.px 0 0 = asec * tel / 2 * 1000000000 * v := by
  intro s hs
  simp only [ttShapes, List.mem_cons, List.not_mem_nil, or_false] at hs
  rcases hs with rfl | rfl <;>
  · simp only [scaleShape, linspaceSym, le_refl, if_true]
    ring

example : (ttShapes (1 / 200000) 8 1 1).length = 2 ∧ ∀ s ∈ ttShapes (1 / 200000) 8 1 1, s.px 0 0 = 20000 := by
  refine ⟨rfl, fun s hs => ?_⟩
  rw [C75_single _ _ _ s hs]
  norm_num

/-- **C75 is violated by a mirror twice as large as the telescope**: a command of 1 tilts the wavefront by half an arcsecond. -/
theorem C75_violated :
    let asec : ℚ := 1 / 206265
    ((ttShapes asec 4 80 1).getD 0 (zero2 80)).px 0 0 - ((ttShapes asec 4 80 1).getD 0 (zero2 80)).px 0 79 =
      asec * 8 * 1000000000 / 2 := by
  decide +kernel

/-- **C75 (no coupling).** Tip and tilt shapes have no piston and are orthogonal over the mirror. -/
theorem C75_orthogonal (asec tel v : ℚ) (nx : ℕ) (hnx : 2 ≤ nx) :
    let tip := ((ttShapes asec tel nx v).getD 0 (zero2 nx)).px
    let tilt := ((ttShapes asec tel nx v).getD 1 (zero2 nx)).px
    (∑ i ∈ Finset.range nx, ∑ j ∈ Finset.range nx, tip i j = 0) ∧
    (∑ i ∈ Finset.range nx, ∑ j ∈ Finset.range nx, tilt i j = 0) ∧
    (∑ i ∈ Finset.range nx, ∑ j ∈ Finset.range nx, tip i j * tilt i j = 0) := by
  have hq : ((nx : ℚ) - 1) ≠ 0 := by
    have : (2 : ℚ) ≤ nx := by exact_mod_cast hnx
    linarith
  have hsum : ∑ k ∈ Finset.range nx, linspaceSym nx k = 0 := by
    have h : ∀ k : ℕ, linspaceSym nx k = -1 + 2 / ((nx : ℚ) - 1) * k := by
      intro k
      simp only [linspaceSym, show ¬ nx ≤ 1 by omega, if_false]
      ring
    have hg : ∑ k ∈ Finset.range nx, (k : ℚ) = (nx : ℚ) * ((nx : ℚ) - 1) / 2 := by
      clear hnx hq h
      induction nx with
      | zero => simp
      | succ n ih => rw [Finset.sum_range_succ, ih]; push_cast; ring
    rw [Finset.sum_congr rfl fun k _ => h k, Finset.sum_add_distrib, ← Finset.mul_sum, hg]
    simp
    field_simp
    ring
  have hamp : ∀ a : ℚ, ∑ k ∈ Finset.range nx, linspaceSym nx k * a * v = 0 := by
    intro a
    rw [← Finset.sum_mul, ← Finset.sum_mul, hsum]
    ring
  simp only [ttShapes, scaleShape, List.getD_cons_zero, List.getD_cons_succ]
  refine ⟨?_, ?_, ?_⟩
  · rw [hamp]; simp
  · rw [Finset.sum_comm, hamp]; simp
  · refine Finset.sum_eq_zero fun i _ => ?_
    rw [← Finset.sum_mul, hamp, zero_mul]

/-- 4 elements, 1 arcsecond taken as 1/200000: steps along one axis only. -/
example : ((ttShapes (1 / 200000) 8 4 1).getD 0 (zero2 4)).px 2 1 = 20000 / 3 ∧ ((ttShapes (1 / 200000) 8 4 1).getD 0 (zero2 4)).px 0 1 = 20000 / 3 ∧
    ((ttShapes (1 / 200000) 8 4 1).getD 1 (zero2 4)).px 2 1 = -20000 / 3 := by decide +kernel

/-! ### C76: `FastPiezo` against `Piezo` -/

theorem centred_sum (scrn n : ℕ) (m : ℕ) (w : ℕ → ℚ) (f : ℕ → ℕ → ℕ → ℚ) (i j : ℕ) :
    ∑ t ∈ Finset.range m, w t * centred scrn n (f t) i j = centred scrn n (fun a b => ∑ t ∈ Finset.range m, w t * f t a b) i j := by
  unfold centred
  dsimp only
  split_ifs
  · rfl
  · simp

theorem mean2_sum (n m : ℕ) (w : ℕ → ℚ) (f : ℕ → ℕ → ℕ → ℚ) :
    mean2 n (fun a b => ∑ t ∈ Finset.range m, w t * f t a b) = ∑ t ∈ Finset.range m, w t * mean2 n (f t) := by
  simp only [mean2]
  have h : (∑ i ∈ Finset.range n, ∑ j ∈ Finset.range n, ∑ t ∈ Finset.range m, w t * f t i j) =
      ∑ t ∈ Finset.range m, w t * ∑ i ∈ Finset.range n, ∑ j ∈ Finset.range n, f t i j := by
    rw [Finset.sum_congr rfl fun i _ => Finset.sum_comm, Finset.sum_comm]
    refine Finset.sum_congr rfl fun t _ => ?_
    rw [Finset.mul_sum]
    exact Finset.sum_congr rfl fun i _ => (Finset.mul_sum _ _ _).symm
  rw [h, div_eq_mul_inv, Finset.sum_mul]
  exact Finset.sum_congr rfl fun t _ => by ring

/-- A spline that depends linearly on the values it goes through. -/
def LinearSpline (spl : Arr2 → ℚ → ℚ → ℚ) : Prop :=
  ∀ (n : ℕ) (a : ℚ) (f g : ℕ → ℕ → ℚ) (p q : ℚ),
    spl ⟨n, n, fun i j => a * f i j + g i j⟩ p q = a * spl ⟨n, n, f⟩ p q + spl ⟨n, n, g⟩ p q

theorem spline_zero (spl : Arr2 → ℚ → ℚ → ℚ) (h : LinearSpline spl) (n : ℕ) (p q : ℚ) : spl ⟨n, n, fun _ _ => 0⟩ p q = 0 := by
  have := h n (-1) (fun _ _ => 0) (fun _ _ => 0) p q
  simp at this
  exact this

theorem spline_fast (spl : Arr2 → ℚ → ℚ → ℚ) (h : LinearSpline spl) (x : ℕ) (v : ℚ) (p q : ℚ) :
    ∀ (acts : List ℕ) (c : List ℚ), c.length = acts.length →
    spl (fastGrid x v acts c) p q = ∑ t ∈ Finset.range acts.length, c.getD t 0 * (spl (pokeGrid x (acts.getD t 0)) p q * v)
  | [], c, _ => by
    have : fastGrid x v [] c = ⟨x + 2, x + 2, fun _ _ => 0⟩ := by simp [fastGrid]
    rw [this, spline_zero spl h]
    simp
  | k :: ks, [], e => by simp at e
  | k :: ks, c :: cs, e => by
    have e' : cs.length = ks.length := by simpa using e
    have hg : fastGrid x v (k :: ks) (c :: cs) =
        ⟨x + 2, x + 2, fun i j => (c * v) * (pokeGrid x k).px i j + (fastGrid x v ks cs).px i j⟩ := by
      simp only [fastGrid, pokeGrid, List.zipWith_cons_cons, List.sum_cons]
      congr 1
      funext a b
      split_ifs <;> simp
    rw [hg, h, List.length_cons, Finset.sum_range_succ']
    have ih := spline_fast spl h x v p q ks cs e'
    have e1 : (⟨x + 2, x + 2, (fastGrid x v ks cs).px⟩ : Arr2) = fastGrid x v ks cs := rfl
    have e2 : (⟨x + 2, x + 2, (pokeGrid x k).px⟩ : Arr2) = pokeGrid x k := rfl
    rw [e1, e2, ih]
    simp only [List.getD_cons_succ, List.getD_cons_zero]
    ring

/-- The surface of a `FastPiezo` on its screen. -/
theorem fast_run (spl : Arr2 → ℚ → ℚ → ℚ) (scrn dm x : ℕ) (v : ℚ) (heven : (scrn + dm) % 2 = 0) (acts : List ℕ) (c : List ℚ)
    (hl : c.length = acts.length) : ∀ (history : List (List ℚ)), (∀ h ∈ history, h.length = acts.length) → ∀ s : Arr2, ScreenInv scrn dm s →
    ∃ s', runFast spl scrn dm x v acts s (history ++ [c]) = .ok s' ∧ s'.rows = scrn ∧ s'.cols = scrn ∧
      ∀ i j, i < scrn → j < scrn → s'.px i j = centred scrn dm (surface dm [zoomRbs spl (fastGrid x v acts c) dm] [1]) i j
  | [], _, s, hinv => by
    obtain ⟨s', h1, h2, h3⟩ := dmFrame_placed scrn dm heven [zoomRbs spl (fastGrid x v acts c) dm] (by simp) s hinv [1] (by simp)
    refine ⟨s', ?_, h2.1, h2.2.1, h3⟩
    simp only [List.nil_append, runFast, fastFrame, stretch_self c _ hl]
    rw [if_pos (by simp [fitsAxis, hl]), h1]
    rfl
  | d :: ds, hh, s, hinv => by
    have hd := hh d (by simp)
    obtain ⟨s1, h1, h2, _⟩ := dmFrame_placed scrn dm heven [zoomRbs spl (fastGrid x v acts d) dm] (by simp) s hinv [1] (by simp)
    obtain ⟨s', e, r⟩ := fast_run spl scrn dm x v heven acts c hl ds (fun h hm => hh h (by simp [hm])) s1 h2
    refine ⟨s', ?_, r⟩
    simp only [List.cons_append, runFast, fastFrame, stretch_self d _ hd]
    rw [if_pos (by simp [fitsAxis, hd]), h1]
    exact e

/-- **C76 (wrong number of commands).**  `FastPiezo` refuses commands for another number of actuators, unless there is only one, which is sent to all of them. -/
theorem C76_commands (spl : Arr2 → ℚ → ℚ → ℚ) (scrn dm x : ℕ) (v : ℚ) (acts : List ℕ) (s : Arr2) (c : List ℚ) (cs : List (List ℚ)) :
    (c.length ≠ acts.length → c.length ≠ 1 → runFast spl scrn dm x v acts s (c :: cs) = .error .valueError) ∧
      ∀ y, runFast spl scrn dm x v acts s ([y] :: cs) = runFast spl scrn dm x v acts s (List.replicate acts.length y :: cs) := by
  constructor
  · intro h1 h2
    rw [runFast, fastFrame, if_neg (by simp [fitsAxis, h1, h2])]
    rfl
  · intro y
    rw [runFast, runFast, fastFrame, fastFrame, if_pos (by simp [fitsAxis]), if_pos (by simp [fitsAxis]), stretch_self (List.replicate acts.length y) _ (by simp)]
    rfl

/-- **C76 (partial: even, non-zero size difference).** With the same actuators left (any list `acts` of actuator numbers) and the same commands, after any earlier commands, `Piezo` and `FastPiezo` show the same surface,
up to a piston where the enlarged mirror sticks out of the screen and exactly where it does not.
Missing: odd differences, where both fail or (`C74_piezo_dead`) only one does, and equal sizes, where only `FastPiezo` works (`C76_equal_sizes`). -/
theorem C76_partial (spl : Arr2 → ℚ → ℚ → ℚ) (hspl : LinearSpline spl) (scrn nx x : ℕ) (v : ℚ) (hx : x ≠ 0)
    (heven : (scrn + piezoSize nx x) % 2 = 0) (hne : piezoSize nx x ≠ scrn) (acts : List ℕ) (hacts : ∀ k ∈ acts, k < x * x)
    (hsome : acts ≠ []) (history history' : List (List ℚ)) (c : List ℚ) (hh : ∀ h ∈ history, h.length = acts.length)
    (hh' : ∀ h ∈ history', h.length = acts.length) (hl : c.length = acts.length) :
    ∃ shapes sp sf, piezoShapes spl scrn nx x v = .ok (scrn, shapes) ∧
      runDm scrn scrn 0 (acts.map fun k => shapes.getD k (zero2 scrn)) (zero2 scrn) (history ++ [c]) = .ok sp ∧
      runFast spl scrn (piezoSize nx x) x v acts (zero2 scrn) (history' ++ [c]) = .ok sf ∧
      (∃ m : ℚ, ∀ i j, i < scrn → j < scrn → sp.px i j = sf.px i j - m) ∧
      (piezoSize nx x < scrn → ∀ i j, i < scrn → j < scrn → sp.px i j = sf.px i j) := by
  obtain ⟨shapes, e, hlen, hpx⟩ := piezoShapes_even spl scrn nx x v hx heven hne
  set dm := piezoSize nx x with hdm
  obtain ⟨sp, e1, r1, c1, p1⟩ := C15_size_partial scrn scrn (by omega) (acts.map fun k => shapes.getD k (zero2 scrn)) (by simpa using hsome)
    history c (by simpa using hh) (by simpa using hl)
  obtain ⟨sf, e2, r2, c2, p2⟩ := fast_run spl scrn dm x v heven acts c hl history' hh' (zero2 scrn) ⟨rfl, rfl, fun _ _ _ _ _ _ => rfl⟩
  refine ⟨shapes, sp, sf, e, e1, e2, ?_⟩
  have hF : ∀ a b, superpose dm [zoomRbs spl (fastGrid x v acts c) dm] [1] a b =
      ∑ t ∈ Finset.range acts.length, c.getD t 0 * (pushed spl x dm (acts.getD t 0) a b * v) := by
    intro a b
    simp only [superpose, List.length_cons, List.length_nil, zero_add, Finset.sum_range_succ, Finset.sum_range_zero, List.getD_cons_zero, one_mul, zoomRbs]
    rw [spline_fast spl hspl x v _ _ acts c hl]
    rfl
  have hP : ∀ i j, i < scrn → j < scrn → superpose scrn (acts.map fun k => shapes.getD k (zero2 scrn)) c i j = sf.px i j := by
    intro i j hi hj
    rw [p2 i j hi hj]
    have hs : surface dm [zoomRbs spl (fastGrid x v acts c) dm] [1] = fun a b =>
        ∑ t ∈ Finset.range acts.length, c.getD t 0 * ((pushed spl x dm (acts.getD t 0) a b - mean2 dm (pushed spl x dm (acts.getD t 0))) * v) := by
      funext a b
      unfold surface
      have : superpose dm [zoomRbs spl (fastGrid x v acts c) dm] [1] =
          fun a b => ∑ t ∈ Finset.range acts.length, (c.getD t 0 * v) * pushed spl x dm (acts.getD t 0) a b := by
        funext a b
        rw [hF]
        exact Finset.sum_congr rfl fun t _ => by ring
      rw [this, mean2_sum, ← Finset.sum_sub_distrib]
      exact Finset.sum_congr rfl fun t _ => by ring
    rw [hs, ← centred_sum]
    unfold superpose
    rw [List.length_map]
    refine Finset.sum_congr rfl fun t ht => ?_
    rw [Finset.mem_range] at ht
    have hk : acts.getD t 0 < x * x := by
      rw [List.getD_eq_getElem?_getD, List.getElem?_eq_getElem ht]
      exact hacts _ (List.getElem_mem ht)
    have hget : (acts.map fun k => shapes.getD k (zero2 scrn)).getD t (zero2 scrn) = shapes.getD (acts.getD t 0) (zero2 scrn) := by
      simp [List.getD_eq_getElem?_getD, ht]
    rw [hget, hpx _ hk i j hi hj]
  have hself : ∀ (f : ℕ → ℕ → ℚ) i j, i < scrn → j < scrn → centred scrn scrn f i j = f i j := by
    intro f i j hi hj
    unfold centred
    simp [hi, hj]
  have hsp : ∀ i j, i < scrn → j < scrn → sp.px i j =
      sf.px i j - mean2 scrn (superpose scrn (acts.map fun k => shapes.getD k (zero2 scrn)) c) := by
    intro i j hi hj
    rw [p1 i j hi hj, hself _ i j hi hj, surface, hP i j hi hj]
  refine ⟨⟨_, hsp⟩, fun hlt i j hi hj => ?_⟩
  rw [hsp i j hi hj]
  have hm : mean2 scrn (superpose scrn (acts.map fun k => shapes.getD k (zero2 scrn)) c) = 0 := by
    have h0 : ∑ i ∈ Finset.range scrn, ∑ j ∈ Finset.range scrn, superpose scrn (acts.map fun k => shapes.getD k (zero2 scrn)) c i j =
        ∑ i ∈ Finset.range scrn, ∑ j ∈ Finset.range scrn, centred scrn dm (surface dm [zoomRbs spl (fastGrid x v acts c) dm] [1]) i j :=
      Finset.sum_congr rfl fun i hi => Finset.sum_congr rfl fun j hj => by
        rw [hP i j (Finset.mem_range.mp hi) (Finset.mem_range.mp hj), p2 i j (Finset.mem_range.mp hi) (Finset.mem_range.mp hj)]
    unfold mean2
    rw [h0]
    by_cases hd : dm = 0
    · rw [Finset.sum_eq_zero fun i _ => Finset.sum_eq_zero fun j _ => by unfold centred; rw [if_neg (by omega)], zero_div]
    · obtain ⟨s, es, hs0⟩ := C13_no_piston_partial scrn dm (by omega) (by omega) heven [zoomRbs spl (fastGrid x v acts c) dm] (by simp) [] [1]
        (by simp) (by simp)
      obtain ⟨s', es', _, _, ps⟩ := C15_size_partial scrn dm heven [zoomRbs spl (fastGrid x v acts c) dm] (by simp) [] [1] (by simp) (by simp)
      rw [es] at es'
      cases es'
      rw [← Finset.sum_congr rfl fun i hi => Finset.sum_congr rfl fun j hj => ps i j (Finset.mem_range.mp hi) (Finset.mem_range.mp hj), hs0, zero_div]
  rw [hm, sub_zero]

/-- **C76 is violated for equal sizes**: `Piezo` cannot be made, `FastPiezo` works. -/
theorem C76_equal_sizes (spl : Arr2 → ℚ → ℚ → ℚ) (scrn nx x : ℕ) (v : ℚ) (hx : x ≠ 0) (h : piezoSize nx x = scrn) (acts : List ℕ)
    (history : List (List ℚ)) (c : List ℚ) (hh : ∀ h ∈ history, h.length = acts.length) (hl : c.length = acts.length) :
    piezoShapes spl scrn nx x v = .error .attributeError ∧
    ∃ sf, runFast spl scrn (piezoSize nx x) x v acts (zero2 scrn) (history ++ [c]) = .ok sf := by
  refine ⟨C74_piezo_equal_fails spl scrn nx x v hx h, ?_⟩
  obtain ⟨sf, e, _⟩ := fast_run spl scrn (piezoSize nx x) x v (by omega) acts c hl history hh (zero2 scrn) ⟨rfl, rfl, fun _ _ _ _ _ _ => rfl⟩
  exact ⟨sf, e⟩

/-- A spline that is linear: the weighted corner values. -/
example : LinearSpline fun g p q => p * g.px 0 0 + q * g.px 1 2 := fun _ _ _ _ _ _ => by dsimp only; ring

/-! ### C77: custom shapes and missing data -/

/-- **C77 (numbers; partial).** With a number as missing value, the points interpolated are those of the image with another value, each at its own place.
Missing: NaN as missing value (`C77_nan_kept`), images that are not square (`C77_not_square`), enlarged images (`C77_enlarge_border`). -/
theorem C77_numeric_partial (n : ℕ) (px : ℕ → ℕ → Flt) (w : ℚ) :
    ∃ pts, missingPoints n n px (some w) = .ok pts ∧
      ∀ p q z, ((p, q), z) ∈ pts ↔ ∃ i j, i < n ∧ j < n ∧ px i j = z ∧ z ≠ some w ∧ p = cellCoord n j ∧ q = cellCoord n i := by
  unfold missingPoints
  rw [if_neg (by simp)]
  refine ⟨_, rfl, fun p q z => ?_⟩
  simp only [List.mem_flatMap, List.mem_range, List.mem_filterMap, Option.ite_none_left_eq_some, Option.some.injEq, Prod.mk.injEq]
  constructor
  · rintro ⟨i, hi, j, hj, hv, ⟨rfl, rfl⟩, rfl⟩
    refine ⟨i, j, hi, hj, rfl, ?_, rfl, rfl⟩
    intro h
    rw [h] at hv
    simp [fltEq] at hv
  · rintro ⟨i, j, hi, hj, rfl, hz, rfl, rfl⟩
    refine ⟨i, hi, j, hj, ?_, ⟨rfl, rfl⟩, rfl⟩
    cases h : px i j with
    | none => simp [fltEq]
    | some a =>
      simp only [fltEq, decide_eq_true_eq]
      rintro rfl
      exact hz h

/-- **C77 is violated for NaN**, the default, which the custom mirror uses: every point of the image is interpolated, the missing ones as NaN. -/
theorem C77_nan_kept (n : ℕ) (px : ℕ → ℕ → Flt) :
    ∃ pts, missingPoints n n px none = .ok pts ∧ pts.length = n * n ∧
      ∀ p q z, ((p, q), z) ∈ pts ↔ ∃ i j, i < n ∧ j < n ∧ px i j = z ∧ p = cellCoord n j ∧ q = cellCoord n i := by
  have hf : ∀ a, fltEq a none = false := by intro a; cases a <;> rfl
  unfold missingPoints
  rw [if_neg (by simp)]
  refine ⟨_, rfl, ?_, fun p q z => ?_⟩
  · simp [hf, List.length_flatMap]
  · simp only [List.mem_flatMap, List.mem_range, List.mem_filterMap, hf]
    constructor
    · rintro ⟨i, hi, j, hj, h⟩
      simp at h
      obtain ⟨⟨rfl, rfl⟩, rfl⟩ := h
      exact ⟨i, j, hi, hj, rfl, rfl, rfl⟩
    · rintro ⟨i, j, hi, hj, rfl, rfl, rfl⟩
      exact ⟨i, hi, j, hj, by simp⟩

/-- **C77 is violated for images that are not square.** -/
theorem C77_not_square (gd : List ((ℚ × ℚ) × Flt) → ℚ × ℚ → Flt) (rows cols : ℕ) (h : rows ≠ cols) (px : ℕ → ℕ → Flt) (w : Flt) (n nx : ℕ) :
    zoomMissing gd rows cols px w n = .error .indexError ∧ customShape gd nx rows cols px = .error .indexError := by
  refine ⟨by simp [zoomMissing, missingPoints, h, Except.bind], ?_⟩
  unfold customShape
  rw [if_pos (by omega)]
  simp [zoomMissing, missingPoints, h, Except.bind]

/-- The positions of the new image lie between those of the old one exactly if the image is not enlarged. -/
theorem C77_hull (n m : ℕ) (hn : 0 < n) (hm : 0 < m) :
    (∀ k, k < m → cellCoord n 0 ≤ cellCoord m k ∧ cellCoord m k ≤ cellCoord n (n - 1)) ↔ m ≤ n := by
  have hnq : (0 : ℚ) < n := by exact_mod_cast hn
  have hmq : (0 : ℚ) < m := by exact_mod_cast hm
  have hc : ∀ (n : ℕ), (0 : ℚ) < n → ∀ k : ℕ, cellCoord n k = (2 * k + 1) / n - 1 := by
    intro n hn k
    unfold cellCoord
    field_simp
    ring
  have hl : ((n - 1 : ℕ) : ℚ) = (n : ℚ) - 1 := by push_cast [Nat.cast_sub (show 1 ≤ n by omega)]; ring
  constructor
  · intro h
    have h0 := (h 0 hm).1
    rw [hc n hnq, hc m hmq] at h0
    have : (1 : ℚ) / n ≤ 1 / m := by simpa using h0
    rw [div_le_div_iff₀ hnq hmq] at this
    have : (m : ℚ) ≤ n := by linarith
    exact_mod_cast this
  · intro hle k hk
    have hle' : (m : ℚ) ≤ n := by exact_mod_cast hle
    have hk' : (k : ℚ) + 1 ≤ m := by exact_mod_cast hk
    have hk0 : (0 : ℚ) ≤ k := Nat.cast_nonneg k
    rw [hc n hnq, hc m hmq, hc n hnq, hl]
    constructor
    · rw [sub_le_sub_iff_right, div_le_div_iff₀ hnq hmq]
      push_cast
      nlinarith
    · rw [sub_le_sub_iff_right, div_le_div_iff₀ hmq hnq]
      nlinarith

/-- **C77 is violated when shapes are enlarged**: an interpolator that gives NaN outside the points leaves the border of every shape at zero, whatever is in the file. -/
theorem C77_enlarge_border (gd : List ((ℚ × ℚ) × Flt) → ℚ × ℚ → Flt)
    (hgd : ∀ pts p, (∀ q ∈ pts, p.2 < q.1.2) → gd pts p = none) (n nx : ℕ) (hn : 0 < n) (h : n < nx) (px : ℕ → ℕ → Flt) :
    ∃ s, customShape gd nx n n px = .ok s ∧ ∀ j, s.px 0 j = 0 := by
  have hnq : (0 : ℚ) < n := by exact_mod_cast hn
  have hmq : (0 : ℚ) < nx := by exact_mod_cast (show 0 < nx by omega)
  have hlt : (n : ℚ) < nx := by exact_mod_cast h
  unfold customShape
  rw [if_pos (by omega)]
  obtain ⟨pts, e, _, hpts⟩ := C77_nan_kept n fun i j => if fltEq (px i j) (some 0) then none else px i j
  simp only [zoomMissing, e, Except.bind]
  refine ⟨_, rfl, fun j => ?_⟩
  dsimp only
  rw [hgd pts _ ?_]
  · rfl
  · intro q hq
    obtain ⟨⟨a, b⟩, z⟩ := q
    obtain ⟨i, k, hi, _, _, rfl, rfl⟩ := (hpts a b z).mp hq
    dsimp only
    unfold cellCoord
    have hi0 : (0 : ℚ) ≤ i := Nat.cast_nonneg i
    rw [div_lt_div_iff₀ (by positivity) (by positivity)]
    push_cast
    nlinarith

/-- **C77 (same size; holds).** Shapes of the mirror's size are used as they are in the file, NaN becoming 0; those of another size never are taken from the file directly. -/
theorem C77_same_size (gd : List ((ℚ × ℚ) × Flt) → ℚ × ℚ → Flt) (nActs nx pad : ℕ) (v : ℚ) (file : List (ℕ → ℕ → Flt)) (h : nActs ≤ file.length) :
    ∃ shapes, customShapes gd nActs nx pad nx nx v file = .ok shapes ∧ shapes.length = nActs ∧
      ∀ k, k < nActs → ∀ i j, i < nx → j < nx →
        (shapes.getD k (zero2 0)).px (i + pad) (j + pad) = ((file.getD k fun _ _ => none) i j).getD 0 * v := by
  have hs : ∀ px, customShape gd nx nx nx px = .ok ⟨nx, nx, fun i j => (px i j).getD 0⟩ := by
    intro px; simp [customShape, Except.bind]
  have hm : ∀ l : List (ℕ → ℕ → Flt), l.mapM (customShape gd nx nx nx) = .ok (l.map fun px => ⟨nx, nx, fun i j => (px i j).getD 0⟩) := by
    intro l
    induction l with
    | nil => rfl
    | cons a l ih => rw [List.mapM_cons, hs, ih]; rfl
  unfold customShapes
  rw [if_neg (by omega), hm]
  refine ⟨_, rfl, by simp [modalShapes, h], fun k hk i j hi hj => ?_⟩
  have hkf : k < file.length := by omega
  simp only [modalShapes, List.getD_eq_getElem?_getD, List.getElem?_map, List.getElem?_take, hk, if_true, List.getElem?_eq_getElem hkf,
    Option.map_some, Option.getD_some, scaleShape, padShape]
  rw [if_pos (by omega), Nat.add_sub_cancel, Nat.add_sub_cancel]

/-- Two of four pixels are missing (value 0); as numbers they are left out, as NaN they are all kept. -/
example : (missingPoints 2 2 (fun i j => if i = j then some 0 else some 7) (some 0)).toOption.map List.length = some 2 ∧
    (missingPoints 2 2 (fun i j => if i = j then none else some 7) none).toOption.map List.length = some 4 := by decide +kernel

/-! ### C78: where the actuators are -/

/-- Where along an axis of an enlarged mirror of `dm` pixels actuator `k` of `x` lies. -/
def actuatorAt (dm x k : ℕ) : ℚ := ((k : ℚ) + 1) * ((dm : ℚ) - 1) / ((x : ℚ) + 1)

/-- **C78 (stack mirror: grid).** A pixel samples the spline at the row of an actuator exactly if it is at the place of the actuator; an interpolating spline then is 1 at the actuator pushed and 0 at all others. -/
theorem C78_grid (spl : Arr2 → ℚ → ℚ → ℚ) (hspl : ∀ g (a b : ℕ), a < g.rows → b < g.cols → spl g a b = g.px a b) (dm x : ℕ) (hx : 0 < x) (hdm : 2 ≤ dm)
    (k l p q : ℕ) (hl : l < x * x) (hp : (p : ℚ) = actuatorAt dm x (l / x)) (hq : (q : ℚ) = actuatorAt dm x (l % x)) :
    (zoomRbs spl (pokeGrid x k) dm).px p q = if k = l then 1 else 0 := by
  have hd : ((dm : ℚ) - 1) ≠ 0 := by
    have : (2 : ℚ) ≤ dm := by exact_mod_cast hdm
    linarith
  have hxq : ((x : ℚ) + 1) ≠ 0 := by positivity
  have hl1 : l / x < x := Nat.div_lt_of_lt_mul hl
  have hl2 : l % x < x := Nat.mod_lt _ hx
  have coord : ∀ p t : ℕ, (p : ℚ) = actuatorAt dm x t → linspace0 (x + 2) dm p = ((t + 1 : ℕ) : ℚ) := by
    intro p t h
    unfold linspace0
    rw [if_neg (by omega), h]
    unfold actuatorAt
    push_cast
    field_simp
    ring
  simp only [zoomRbs]
  rw [show (pokeGrid x k).cols = x + 2 from rfl, show (pokeGrid x k).rows = x + 2 from rfl, coord p _ hp, coord q _ hq,
    hspl _ _ _ (show _ < x + 2 by omega) (show _ < x + 2 by omega)]
  simp only [pokeGrid]
  by_cases h : k = l
  · subst h; simp
  · rw [if_neg, if_neg h]
    rintro ⟨h1, h2⟩
    apply h
    have e1 : k / x = l / x := by omega
    have e2 : k % x = l % x := by omega
    rw [← Nat.div_add_mod k x, ← Nat.div_add_mod l x, e1, e2]

/-- **C78 (stack mirror: spacing and symmetry).** -/
theorem C78_regular (dm x k : ℕ) (hk : k < x) :
    actuatorAt dm x (k + 1) - actuatorAt dm x k = ((dm : ℚ) - 1) / ((x : ℚ) + 1) ∧
    actuatorAt dm x k + actuatorAt dm x (x - 1 - k) = (dm : ℚ) - 1 := by
  have hx : ((x : ℚ) + 1) ≠ 0 := by positivity
  unfold actuatorAt
  constructor
  · push_cast; field_simp; ring
  · have : ((x - 1 - k : ℕ) : ℚ) = (x : ℚ) - 1 - k := by
      rw [Nat.cast_sub (by omega), Nat.cast_sub (by omega)]; push_cast; ring
    rw [this]
    field_simp
    ring

/-- **C78 (stack mirror: inside; partial).** The actuators are on the mirror itself (not in the extra border of `b` pixels on each side) exactly if `b` times the number of gaps is less than the number of elements.
Missing: when it is not, see `C78_violated`. -/
theorem C78_inside_partial (nx x b : ℕ) (hx : 0 < x) (hnx : 0 < nx) :
    (∀ k, k < x → (b : ℚ) ≤ actuatorAt (nx + 2 * b) x k ∧ actuatorAt (nx + 2 * b) x k ≤ (b : ℚ) + nx - 1) ↔ b * (x - 1) < nx := by
  have hxq : (0 : ℚ) < (x : ℚ) + 1 := by positivity
  have key : (b : ℚ) ≤ actuatorAt (nx + 2 * b) x 0 ↔ b * (x - 1) < nx := by
    unfold actuatorAt
    rw [le_div_iff₀ hxq]
    have hc : ((b * (x - 1) : ℕ) : ℚ) = b * ((x : ℚ) - 1) := by
      push_cast [Nat.cast_sub (show 1 ≤ x by omega)]; ring
    rw [Nat.lt_iff_add_one_le, ← Nat.cast_le (α := ℚ), Nat.cast_add (b * (x - 1)), hc]
    push_cast
    constructor <;> intro h <;> linarith
  constructor
  · intro h
    exact key.mp (h 0 hx).1
  · intro h k hk
    have h0 := key.mpr h
    have mono : ∀ i j : ℕ, i ≤ j → actuatorAt (nx + 2 * b) x i ≤ actuatorAt (nx + 2 * b) x j := by
      intro i j hij
      unfold actuatorAt
      have h1 : (0 : ℚ) ≤ ((nx + 2 * b : ℕ) : ℚ) - 1 := by
        have : (1 : ℚ) ≤ ((nx + 2 * b : ℕ) : ℚ) := by exact_mod_cast (show 1 ≤ nx + 2 * b by omega)
        linarith
      have h2 : (i : ℚ) ≤ j := by exact_mod_cast hij
      gcongr
    refine ⟨h0.trans (mono 0 k (Nat.zero_le k)), ?_⟩
    have hsym := (C78_regular (nx + 2 * b) x k hk).2
    have hs := mono 0 (x - 1 - k) (Nat.zero_le _)
    push_cast at hsym
    linarith

/-- **C78 (stack mirror: whole spacing).** If the actuators divide the elements, all are on the mirror. -/
theorem C78_divides (x b : ℕ) (hx : 0 < x) (hb : 0 < b) :
    piezoSize (x * b) x = x * b + 2 * b ∧
    ∀ k, k < x → (b : ℚ) ≤ actuatorAt (piezoSize (x * b) x) x k ∧ actuatorAt (piezoSize (x * b) x) x k ≤ (b : ℚ) + (x * b : ℕ) - 1 := by
  have hxq : (x : ℚ) ≠ 0 := by exact_mod_cast hx.ne'
  have e : piezoSize (x * b) x = x * b + 2 * b := by
    unfold piezoSize
    have : (((x * b : ℕ) : ℚ) / x) = ((b : ℤ) : ℚ) := by push_cast; field_simp
    rw [this, pyRound_int]
    omega
  refine ⟨e, ?_⟩
  rw [e]
  refine (C78_inside_partial (x * b) x b hx (Nat.mul_pos hx hb)).mpr ?_
  obtain ⟨y, rfl⟩ : ∃ y, x = y + 1 := ⟨x - 1, by omega⟩
  rw [Nat.add_sub_cancel, Nat.add_mul, Nat.mul_comm b y]
  omega

/-- **C78 is violated** by 10 actuators over 15 elements: the spacing 1.5 is rounded to 2, and the first actuator is outside the mirror. -/
theorem C78_violated : piezoSize 15 10 = 15 + 2 * 2 ∧ actuatorAt (piezoSize 15 10) 10 0 < 2 := by decide +kernel

/-- **C78 (Gaussian stack; partial).** The actuators are equally spaced; the middle of the first and last is half the *pupil* size, so it is the middle of the mirror only for a mirror as large as the pupil.
Missing: larger mirrors (conjugated to altitude), where the stack sits in a corner: the right-hand part. -/
theorem C78_gauss_partial (pupil x nx : ℕ) (hx : 2 ≤ x) :
    (∀ k, gaussPos pupil x (k + 1) - gaussPos pupil x k = (pupil : ℚ) / ((x : ℚ) - 1)) ∧
    ((gaussPos pupil x 0 + gaussPos pupil x (x - 1)) / 2 = (nx : ℚ) / 2 ↔ nx = pupil) ∧
    (pupil < nx → ∀ k, k < x → gaussPos pupil x k < nx) := by
  have hq : (0 : ℚ) < (x : ℚ) - 1 := by
    have : (2 : ℚ) ≤ x := by exact_mod_cast hx
    linarith
  have hl : ((x - 1 : ℕ) : ℚ) = (x : ℚ) - 1 := by push_cast [Nat.cast_sub (show 1 ≤ x by omega)]; ring
  refine ⟨fun k => ?_, ?_, fun h k hk => ?_⟩
  · unfold gaussPos; push_cast; ring
  · unfold gaussPos
    rw [hl]
    have : (((0 : ℕ) : ℚ) * ((pupil : ℚ) / ((x : ℚ) - 1)) + ((x : ℚ) - 1) * ((pupil : ℚ) / ((x : ℚ) - 1))) = pupil := by
      field_simp; simp
    rw [this]
    constructor
    · intro h
      have : (pupil : ℚ) = nx := by linarith
      exact_mod_cast this.symm
    · rintro rfl; rfl
  · unfold gaussPos
    have h1 : (pupil : ℚ) < nx := by exact_mod_cast h
    have h2 : (k : ℚ) ≤ (x : ℚ) - 1 := by
      rw [← hl]; exact_mod_cast (show k ≤ x - 1 by omega)
    have h3 : (k : ℚ) * ((pupil : ℚ) / ((x : ℚ) - 1)) ≤ pupil := by
      rw [← mul_div_assoc, div_le_iff₀ hq]
      have : (0 : ℚ) ≤ pupil := Nat.cast_nonneg _
      nlinarith
    linarith

/-- 3 actuators over 9 elements, border 3 on each side of 15 pixels: at 3.5, 7, 10.5. -/
example : piezoSize 9 3 = 15 ∧ actuatorAt 15 3 0 = 7 / 2 ∧ actuatorAt 15 3 1 = 7 ∧ actuatorAt 15 3 2 = 21 / 2 := by decide +kernel

end Soapy.Props
