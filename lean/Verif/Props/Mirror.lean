/-
Property theorems C13–C15: deformable mirrors.
-/
import Verif.Lemmas.Mirror
import Mathlib.Tactic.IntervalCases

namespace Soapy.Props

open Soapy.Mirror Soapy.Vec

/-- Superposition of actuator shapes: `Σ_k command_k · shape_k` at pixel `(i, j)`. -/
def superpose (n : ℕ) (shapes : List Arr2) (cmds : List ℚ) (i j : ℕ) : ℚ :=
  ∑ k ∈ Finset.range shapes.length, cmds.getD k 0 * (shapes.getD k (zero2 n)).px i j

/-- Mean of a function over the `n × n` pixels. -/
def mean2 (n : ℕ) (f : ℕ → ℕ → ℚ) : ℚ :=
  (∑ i ∈ Finset.range n, ∑ j ∈ Finset.range n, f i j) / (n * n)

/-- The mirror surface: superposition of the actuator shapes, without its mean. -/
def surface (n : ℕ) (shapes : List Arr2) (cmds : List ℚ) (i j : ℕ) : ℚ :=
  superpose n shapes cmds i j - mean2 n (superpose n shapes cmds)

/-- An `n × n` image centred on a `scrn × scrn` screen (sizes differing by an even number): cropped or
surrounded by zeros. -/
def centred (scrn n : ℕ) (f : ℕ → ℕ → ℚ) (i j : ℕ) : ℚ :=
  let off : ℤ := ((scrn : ℤ) - n) / 2
  let a : ℤ := i - off
  let b : ℤ := j - off
  if 0 ≤ a ∧ a < n ∧ 0 ≤ b ∧ b < n then f a.toNat b.toNat else 0

theorem makeDMFrame_ok (n : ℕ) (shapes : List Arr2) (cmds : List ℚ) (hne : shapes ≠ [])
    (hl : cmds.length = shapes.length) :
    makeDMFrame n shapes cmds = .ok ⟨n, n, superpose n shapes cmds⟩ := by
  unfold makeDMFrame superpose
  rw [stretch_self shapes _ hl.symm, stretch_self cmds _ hl]
  dsimp only
  rw [if_neg (by omega), if_neg (by simpa using hne)]
  congr 2
  funext i j
  exact zipWith_sum_range shapes cmds (zero2 n) i j hl.symm

/-- Screens reachable by the mirror: right size, zero outside the mirror. -/
def ScreenInv (scrn n : ℕ) (s : Arr2) : Prop :=
  s.rows = scrn ∧ s.cols = scrn ∧ (n < scrn → ∀ i j, i < scrn → j < scrn →
    ¬ ((scrn - n) / 2 ≤ i ∧ i < (scrn - n) / 2 + n ∧ (scrn - n) / 2 ≤ j ∧ j < (scrn - n) / 2 + n) → s.px i j = 0)

theorem dmFrame_placed (scrn n : ℕ) (heven : (scrn + n) % 2 = 0) (shapes : List Arr2)
    (hne : shapes ≠ []) (screen : Arr2) (hinv : ScreenInv scrn n screen) (c : List ℚ)
    (hl : c.length = shapes.length) :
    ∃ s, dmFrame scrn n 0 shapes screen c = .ok s ∧ ScreenInv scrn n s ∧
      ∀ i j, i < scrn → j < scrn → s.px i j = centred scrn n (surface n shapes c) i j := by
  have hmk := makeDMFrame_ok n shapes c hne hl
  have hmean : (⟨n, n, superpose n shapes c⟩ : Arr2).mean = mean2 n (superpose n shapes c) := by
    simp [Arr2.mean, Arr2.total, mean2]
  obtain ⟨hr, hc, hz⟩ := hinv
  rcases lt_trichotomy n scrn with h | h | h
  · obtain ⟨p, hp⟩ : ∃ p : ℕ, scrn = n + 2 * p := ⟨(scrn - n) / 2, by omega⟩
    have e := (dmFrame_even scrn n p shapes screen c _ hmk hr hc).2.2 (by omega) hp
    have hpp : (scrn - n) / 2 = p := by omega
    refine ⟨_, e, ⟨rfl, rfl, ?_⟩, ?_⟩
    · intro _ i j hi hj hout
      rw [hpp] at hout
      dsimp only
      rw [if_neg hout]
      exact hz h i j hi hj (by rwa [hpp])
    · intro i j hi hj
      dsimp only
      rw [hmean]
      unfold centred
      have hoff : ((scrn : ℤ) - n) / 2 = p := by omega
      rw [hoff]
      by_cases hin : p ≤ i ∧ i < p + n ∧ p ≤ j ∧ j < p + n
      · rw [if_pos hin, if_pos (by omega)]
        unfold surface
        rw [show ((i : ℤ) - p).toNat = i - p by omega, show ((j : ℤ) - p).toNat = j - p by omega]
      · rw [if_neg hin, if_neg (by omega)]
        exact hz h i j hi hj (by rwa [hpp])
  · have e := (dmFrame_even scrn n 0 shapes screen c _ hmk hr hc).1 h
    refine ⟨_, e, ⟨h, h, fun h' => by omega⟩, ?_⟩
    intro i j hi hj
    dsimp only
    rw [hmean]
    unfold centred
    have hoff : ((scrn : ℤ) - n) / 2 = 0 := by omega
    rw [hoff]
    dsimp only
    rw [if_pos (by omega)]
    simp [surface]
  · obtain ⟨p, hp⟩ : ∃ p : ℕ, n = scrn + 2 * p := ⟨(n - scrn) / 2, by omega⟩
    have e := (dmFrame_even scrn n p shapes screen c _ hmk hr hc).2.1 (by omega) hp
    refine ⟨_, e, ⟨rfl, rfl, fun h' => by omega⟩, ?_⟩
    intro i j hi hj
    dsimp only
    rw [hmean]
    unfold centred
    have hoff : ((scrn : ℤ) - n) / 2 = -(p : ℤ) := by omega
    rw [hoff]
    dsimp only
    rw [if_pos (by omega)]
    unfold surface
    rw [show ((i : ℤ) - -(p : ℤ)).toNat = p + i by omega,
      show ((j : ℤ) - -(p : ℤ)).toNat = p + j by omega]

/-- **C15 (partial: even size difference).** For mirror and screen sizes that differ by an even number, and
after any history of commands, the screen returned has exactly the screen size and shows the mirror surface
centred on it: cropped if the mirror is larger, surrounded by zeros if it is smaller.
Missing: an odd difference, for which `C15_odd_fails` shows that no surface is returned at all. -/
theorem C15_size_partial (scrn n : ℕ) (heven : (scrn + n) % 2 = 0) (shapes : List Arr2)
    (hne : shapes ≠ []) (history : List (List ℚ)) (c : List ℚ)
    (hh : ∀ h ∈ history, h.length = shapes.length) (hl : c.length = shapes.length) :
    ∃ s, runDm scrn n 0 shapes (zero2 scrn) (history ++ [c]) = .ok s ∧ s.rows = scrn ∧ s.cols = scrn ∧
      ∀ i j, i < scrn → j < scrn → s.px i j = centred scrn n (surface n shapes c) i j := by
  have gen : ∀ (history : List (List ℚ)) (screen : Arr2), ScreenInv scrn n screen →
      (∀ h ∈ history, h.length = shapes.length) →
      ∃ s, runDm scrn n 0 shapes screen (history ++ [c]) = .ok s ∧ s.rows = scrn ∧ s.cols = scrn ∧
      ∀ i j, i < scrn → j < scrn → s.px i j = centred scrn n (surface n shapes c) i j := by
    intro history
    induction history with
    | nil =>
      intro screen hinv _
      obtain ⟨s, h1, h2, h3⟩ := dmFrame_placed scrn n heven shapes hne screen hinv c hl
      exact ⟨s, by simp [runDm, h1], h2.1, h2.2.1, h3⟩
    | cons h hs ih =>
      intro screen hinv hlen
      obtain ⟨s, h1, h2, _⟩ := dmFrame_placed scrn n heven shapes hne screen hinv h (hlen h (by simp))
      obtain ⟨s', h1', h2', h3'⟩ := ih s h2 (fun x hx => hlen x (by simp [hx]))
      exact ⟨s', by simp [runDm, h1, h1'], h2', h3'⟩
  exact gen history (zero2 scrn) ⟨rfl, rfl, fun _ i j _ _ _ => rfl⟩ hh

/-- **C15 is violated for odd size differences**: whatever the commands, the mirror raises an exception. -/
theorem C15_odd_fails (scrn n : ℕ) (hn : 2 ≤ n) (hs : 3 ≤ scrn) (hodd : (scrn + n) % 2 = 1)
    (shapes : List Arr2) (c : List ℚ) (cs : List (List ℚ)) :
    ∃ e, runDm scrn n 0 shapes (zero2 scrn) (c :: cs) = .error e := by
  obtain ⟨e, he⟩ := dmFrame_odd scrn n hn hs shapes (zero2 scrn) c rfl hodd
  exact ⟨e, by simp [runDm, he]⟩

/-- Two actuators on a 2 × 2 mirror. -/
def toyShapes : List Arr2 := [⟨2, 2, fun i _ => i⟩, ⟨2, 2, fun i j => i * j⟩]

example : ∃ s, runDm 4 2 0 toyShapes (zero2 4) [[5, 5], [1, 2]] = .ok s ∧ s.rows = 4 ∧
    s.px 2 2 = 3 - 1 ∧ s.px 1 1 = 0 - 1 ∧ s.px 0 0 = 0 := by
  obtain ⟨s, h1, h2, h3, h4⟩ := C15_size_partial 4 2 rfl toyShapes (by simp [toyShapes]) [[5, 5]] [1, 2]
    (by simp [toyShapes]) rfl
  refine ⟨s, h1, h2, ?_, ?_, ?_⟩
  · rw [h4 2 2 (by norm_num) (by norm_num)]; decide +kernel
  · rw [h4 1 1 (by norm_num) (by norm_num)]; decide +kernel
  · rw [h4 0 0 (by norm_num) (by norm_num)]; decide +kernel

example : ∃ e, runDm 5 2 0 toyShapes (zero2 5) [[1, 2]] = .error e :=
  C15_odd_fails 5 2 (by norm_num) (by norm_num) rfl _ _ _

theorem superpose_lin (n : ℕ) (shapes : List Arr2) (a b : ℚ) (x y : List ℚ)
    (hx : x.length = shapes.length) (hy : y.length = shapes.length) (i j : ℕ) :
    superpose n shapes (List.zipWith (fun u v => a * u + b * v) x y) i j =
      a * superpose n shapes x i j + b * superpose n shapes y i j := by
  unfold superpose
  rw [Finset.mul_sum, Finset.mul_sum, ← Finset.sum_add_distrib]
  apply Finset.sum_congr rfl
  intro k hk
  rw [Finset.mem_range] at hk
  have h1 : k < x.length := by omega
  have h2 : k < y.length := by omega
  have : (List.zipWith (fun u v => a * u + b * v) x y).getD k 0 = a * x.getD k 0 + b * y.getD k 0 := by
    simp [List.getD_eq_getElem?_getD, List.getElem?_zipWith, List.getElem?_eq_getElem h1,
      List.getElem?_eq_getElem h2]
  rw [this]; ring

/-- **C13 (superposition).** The screen returned is linear in the commands, whatever was commanded before.  (Sizes
as in `C15_size_partial`.) -/
theorem C13_linear (scrn n : ℕ) (heven : (scrn + n) % 2 = 0) (shapes : List Arr2) (hne : shapes ≠ [])
    (a b : ℚ) (x y : List ℚ) (hx : x.length = shapes.length) (hy : y.length = shapes.length)
    (hist₁ hist₂ hist₃ : List (List ℚ)) (h₁ : ∀ h ∈ hist₁, h.length = shapes.length)
    (h₂ : ∀ h ∈ hist₂, h.length = shapes.length) (h₃ : ∀ h ∈ hist₃, h.length = shapes.length) :
    ∃ sx sy sz, runDm scrn n 0 shapes (zero2 scrn) (hist₁ ++ [x]) = .ok sx ∧
      runDm scrn n 0 shapes (zero2 scrn) (hist₂ ++ [y]) = .ok sy ∧
      runDm scrn n 0 shapes (zero2 scrn) (hist₃ ++ [List.zipWith (fun u v => a * u + b * v) x y]) = .ok sz ∧
      ∀ i j, i < scrn → j < scrn → sz.px i j = a * sx.px i j + b * sy.px i j := by
  obtain ⟨sx, e1, _, _, p1⟩ := C15_size_partial scrn n heven shapes hne hist₁ x h₁ hx
  obtain ⟨sy, e2, _, _, p2⟩ := C15_size_partial scrn n heven shapes hne hist₂ y h₂ hy
  obtain ⟨sz, e3, _, _, p3⟩ := C15_size_partial scrn n heven shapes hne hist₃
    (List.zipWith (fun u v => a * u + b * v) x y) h₃ (by simp [hx, hy])
  refine ⟨sx, sy, sz, e1, e2, e3, fun i j hi hj => ?_⟩
  rw [p1 i j hi hj, p2 i j hi hj, p3 i j hi hj]
  have hm : mean2 n (superpose n shapes (List.zipWith (fun u v => a * u + b * v) x y)) =
      a * mean2 n (superpose n shapes x) + b * mean2 n (superpose n shapes y) := by
    unfold mean2
    simp only [superpose_lin n shapes a b x y hx hy, Finset.sum_add_distrib, ← Finset.mul_sum]
    ring
  unfold centred
  dsimp only
  split_ifs
  · unfold surface
    rw [superpose_lin n shapes a b x y hx hy, hm]; ring
  · ring

/-- **C13 (flat).** Zero commands give a flat screen. -/
theorem C13_flat (scrn n : ℕ) (heven : (scrn + n) % 2 = 0) (shapes : List Arr2) (hne : shapes ≠ [])
    (history : List (List ℚ)) (hh : ∀ h ∈ history, h.length = shapes.length) :
    ∃ s, runDm scrn n 0 shapes (zero2 scrn) (history ++ [zeros shapes.length]) = .ok s ∧
      ∀ i j, i < scrn → j < scrn → s.px i j = 0 := by
  obtain ⟨s, e, _, _, p⟩ := C15_size_partial scrn n heven shapes hne history (zeros shapes.length) hh
    (by simp [zeros])
  refine ⟨s, e, fun i j hi hj => ?_⟩
  rw [p i j hi hj]
  have hz : ∀ i j, superpose n shapes (zeros shapes.length) i j = 0 := by
    intro i j
    unfold superpose zeros
    apply Finset.sum_eq_zero
    intro k hk
    rw [Finset.mem_range] at hk
    simp [List.getD_eq_getElem?_getD, hk]
  unfold centred surface
  simp [hz, mean2]

/-- **C13 (no piston, partial: mirror not larger than the screen).** The screen returned has zero mean.
Missing: a mirror larger than the screen, where only the uncropped surface has zero mean, see
`C13_crop_has_piston`. -/
theorem C13_no_piston_partial (scrn n : ℕ) (hn : 1 ≤ n) (hle : n ≤ scrn) (heven : (scrn + n) % 2 = 0)
    (shapes : List Arr2) (hne : shapes ≠ []) (history : List (List ℚ)) (c : List ℚ)
    (hh : ∀ h ∈ history, h.length = shapes.length) (hl : c.length = shapes.length) :
    ∃ s, runDm scrn n 0 shapes (zero2 scrn) (history ++ [c]) = .ok s ∧
      ∑ i ∈ Finset.range scrn, ∑ j ∈ Finset.range scrn, s.px i j = 0 := by
  obtain ⟨s, e, _, _, p⟩ := C15_size_partial scrn n heven shapes hne history c hh hl
  refine ⟨s, e, ?_⟩
  have h1 : ∑ i ∈ Finset.range scrn, ∑ j ∈ Finset.range scrn, s.px i j =
      ∑ i ∈ Finset.range scrn, ∑ j ∈ Finset.range scrn, centred scrn n (surface n shapes c) i j :=
    Finset.sum_congr rfl fun i hi => Finset.sum_congr rfl fun j hj =>
      p i j (Finset.mem_range.mp hi) (Finset.mem_range.mp hj)
  obtain ⟨q, hq⟩ : ∃ q : ℕ, scrn = n + 2 * q := ⟨(scrn - n) / 2, by omega⟩
  have hoff : ((scrn : ℤ) - n) / 2 = q := by omega
  -- one axis
  have axis : ∀ g : ℕ → ℚ, (∑ i ∈ Finset.range scrn,
      if q ≤ i ∧ i < q + n then g (i - q) else 0) = ∑ i ∈ Finset.range n, g i := by
    intro g
    have : scrn = q + n + q := by omega
    rw [this, Finset.sum_range_add, Finset.sum_range_add]
    rw [Finset.sum_eq_zero (s := Finset.range q) (fun i hi => by
      rw [Finset.mem_range] at hi; rw [if_neg (by omega)])]
    rw [Finset.sum_eq_zero (s := Finset.range q) (fun i hi => by
      rw [Finset.mem_range] at hi; rw [if_neg (by omega)])]
    rw [zero_add, add_zero]
    apply Finset.sum_congr rfl
    intro i hi
    rw [Finset.mem_range] at hi
    rw [if_pos (by omega), Nat.add_sub_cancel_left]
  have h2 : ∀ i j, centred scrn n (surface n shapes c) i j =
      if q ≤ i ∧ i < q + n then (if q ≤ j ∧ j < q + n then surface n shapes c (i - q) (j - q) else 0) else 0 := by
    intro i j
    unfold centred
    rw [hoff]
    dsimp only
    by_cases hi : q ≤ i ∧ i < q + n
    · by_cases hj : q ≤ j ∧ j < q + n
      · rw [if_pos hi, if_pos hj, if_pos (by omega)]
        rw [show ((i : ℤ) - q).toNat = i - q by omega, show ((j : ℤ) - q).toNat = j - q by omega]
      · rw [if_pos hi, if_neg hj, if_neg (by omega)]
    · rw [if_neg hi, if_neg (by omega)]
  have h3 : ∀ i, ∑ j ∈ Finset.range scrn, centred scrn n (surface n shapes c) i j =
      if q ≤ i ∧ i < q + n then ∑ j ∈ Finset.range n, surface n shapes c (i - q) j else 0 := by
    intro i
    simp only [h2]
    split_ifs with hi
    · exact axis (fun j => surface n shapes c (i - q) j)
    · simp
  rw [h1, Finset.sum_congr rfl (fun i _ => h3 i), axis (fun i => ∑ j ∈ Finset.range n, surface n shapes c i j)]
  unfold surface
  simp only [Finset.sum_sub_distrib, Finset.sum_const, Finset.card_range, nsmul_eq_mul]
  unfold mean2
  have : (n : ℚ) ≠ 0 := by exact_mod_cast (by omega : n ≠ 0)
  field_simp
  ring

/-- A 4 × 4 mirror with one actuator that pushes its central part. -/
def centreShape : Arr2 := ⟨4, 4, fun i j => if (i = 1 ∨ i = 2) ∧ (j = 1 ∨ j = 2) then 1 else 0⟩

/-- **C13 is violated for a mirror larger than the screen**: the mean is removed before cropping, so the screen
returned has a piston. -/
theorem C13_crop_has_piston :
    ∃ s, runDm 2 4 0 [centreShape] (zero2 2) [[1]] = .ok s ∧ s.rows = 2 ∧ s.cols = 2 ∧
      ∑ i ∈ Finset.range 2, ∑ j ∈ Finset.range 2, s.px i j ≠ 0 := by
  obtain ⟨s, e, hr, hc, p⟩ := C15_size_partial 2 4 rfl [centreShape] (by simp) [] [1] (by simp) rfl
  refine ⟨s, e, hr, hc, ?_⟩
  have h1 : ∑ i ∈ Finset.range 2, ∑ j ∈ Finset.range 2, s.px i j =
      ∑ i ∈ Finset.range 2, ∑ j ∈ Finset.range 2, centred 2 4 (surface 4 [centreShape] [1]) i j :=
    Finset.sum_congr rfl fun i hi => Finset.sum_congr rfl fun j hj =>
      p i j (Finset.mem_range.mp hi) (Finset.mem_range.mp hj)
  rw [h1]
  decide +kernel

/-- A mirror with a configured rotation never produces a surface. -/
theorem C13_rotation_fails (scrn n : ℕ) (rot : ℚ) (hrot : rot ≠ 0) (shapes : List Arr2) (screen : Arr2)
    (c : List ℚ) : ∃ e, dmFrame scrn n rot shapes screen c = .error e := by
  unfold dmFrame
  cases makeDMFrame n shapes c with
  | error e => exact ⟨e, rfl⟩
  | ok s => exact ⟨.indexError, by simp [hrot]⟩

/-- **C14.** Making the interaction matrix of a mirror and dropping its dead actuators: there is one strictly increasing list `idx` of physical actuators – exactly those whose largest
response exceeds one thousandth of the overall largest response – such that the `k`-th remaining shape is the shape
of actuator `idx k` and row `k` of the matrix is minus the response to poking actuator `idx k` alone. -/
theorem C14_alignment (nMeas : ℕ) (shapes : List Arr2) (surf : List ℚ → Except PyErr Arr2)
    (sense : Arr2 → List ℚ) (flags : List Bool) (imat : List (List ℚ))
    (h : makeDmIMat shapes.length nMeas surf sense = .ok (flags, imat)) :
    ∃ (idx : List ℕ) (kept : List Arr2) (resp : ℕ → List ℚ) (m : ℚ),
      -- the responses to single pokes
      (∀ a, a < shapes.length → ∃ s, surf ((List.range shapes.length).map fun k => if k = a then 1 else 0) = .ok s ∧
        resp a = (sense s).map (-·)) ∧
      -- the largest response
      (∀ a, a < shapes.length → ∀ x ∈ resp a, |x| ≤ m) ∧ (∃ a, a < shapes.length ∧ ∃ x ∈ resp a, |x| = m) ∧
      -- the surviving actuators
      idx.Pairwise (· < ·) ∧ (∀ a, a ∈ idx ↔ a < shapes.length ∧ ∃ x ∈ resp a, m / 1000 < |x|) ∧
      -- mirror and matrix agree on them
      setValid shapes flags = .ok (idx.length, kept) ∧
      kept.length = idx.length ∧ imat.length = idx.length ∧
      ∀ k a : ℕ, idx[k]? = some a → kept[k]? = shapes[a]? ∧ imat[k]? = some (resp a) := by
  unfold makeDmIMat at h
  cases hrows : (List.range shapes.length).mapM (pokeRow shapes.length surf sense) with
  | error e => rw [hrows] at h; cases h
  | ok rows =>
    rw [hrows] at h
    dsimp only at h
    cases hmax : absMax rows.flatten with
    | none => simp [validFlags, hmax] at h
    | some m =>
      simp only [validFlags, hmax, Except.ok.injEq, Prod.mk.injEq] at h
      obtain ⟨hfl, him⟩ := h
      obtain ⟨hlen, hget⟩ := mapM_ok_get _ _ _ hrows
      rw [List.length_range] at hlen
      have hget' : ∀ a, a < shapes.length → pokeRow shapes.length surf sense a = .ok (rows.getD a []) := by
        intro a ha
        obtain ⟨y, h1, h2⟩ := hget a a (by simp [ha])
        rw [h2, List.getD_eq_getElem?_getD, h1]; rfl
      have hmem : ∀ a, a < shapes.length → rows.getD a [] ∈ rows := by
        intro a ha
        obtain ⟨y, h1, _⟩ := hget a a (by simp [ha])
        rw [List.getD_eq_getElem?_getD, h1]
        exact List.mem_of_getElem? h1
      unfold absMax at hmax
      rw [List.max?_eq_some_iff] at hmax
      obtain ⟨hm1, hm2⟩ := hmax
      rw [hfl] at him
      obtain ⟨kept, hk1, hk2, hk3⟩ := setValid_go shapes flags 0 (by rw [← hfl]; simp [hlen])
      obtain ⟨o, ho1, ho2, ho3⟩ := compact_spec rows flags [] (List.replicate (flags.count true) (zeros nMeas))
        (by rw [← hfl]; simp) (by simp)
      simp only [List.nil_append, List.length_nil] at ho1
      rw [ho1] at him
      subst him
      have hbound : ∀ a, a < shapes.length → ∀ x ∈ rows.getD a [], |x| ≤ m := by
        intro a ha x hx
        exact hm2 _ (List.mem_map.mpr ⟨x, List.mem_flatten.mpr ⟨_, hmem a ha, hx⟩, rfl⟩)
      refine ⟨trueIdx 0 flags, kept, fun a => rows.getD a [], m, ?_, hbound, ?_, trueIdx_sorted _ _, ?_, ?_,
        hk2, ho2, ?_⟩
      · intro a ha
        have hp := hget' a ha
        unfold pokeRow at hp
        have hu : unit shapes.length a = (List.range shapes.length).map fun k => if k = a then 1 else 0 := by
          apply List.ext_getElem (by simp [unit, zeros])
          intro k h1 h2
          simp only [List.length_map, List.length_range] at h2
          have := unit_getD shapes.length a k ha
          rw [List.getD_eq_getElem?_getD, List.getElem?_eq_getElem h1] at this
          simpa using this
        rw [hu] at hp
        cases hsf : surf ((List.range shapes.length).map fun k => if k = a then 1 else 0) with
        | error e => rw [hsf] at hp; cases hp
        | ok s =>
          rw [hsf] at hp
          simp only [Except.ok.injEq] at hp
          exact ⟨s, rfl, by dsimp only; rw [← hp]; simp⟩
      · obtain ⟨x, hx, hxm⟩ := List.mem_map.mp hm1
        obtain ⟨row, hrow, hxr⟩ := List.mem_flatten.mp hx
        obtain ⟨a, ha, hra⟩ := List.mem_iff_getElem.mp hrow
        refine ⟨a, by omega, x, ?_, hxm⟩
        dsimp only
        rw [List.getD_eq_getElem?_getD, List.getElem?_eq_getElem ha, hra]
        exact hxr
      · intro a
        rw [mem_trueIdx]
        simp only [Nat.zero_le, true_and, Nat.sub_zero]
        rw [← hfl, List.getElem?_map]
        by_cases ha : a < shapes.length
        · rw [List.getElem?_eq_getElem (by omega : a < rows.length)]
          simp only [ha, true_and, Option.map_some, Option.some.injEq]
          have hrow : rows.getD a [] = rows[a]'(by omega) := by
            rw [List.getD_eq_getElem?_getD, List.getElem?_eq_getElem (by omega : a < rows.length)]; rfl
          rw [hrow]
          cases hmx : absMax (rows[a]'(by omega)) with
          | none =>
            unfold absMax at hmx
            rw [List.max?_eq_none_iff, List.map_eq_nil_iff] at hmx
            rw [hmx]; simp
          | some y =>
            unfold absMax at hmx
            rw [List.max?_eq_some_iff] at hmx
            simp only [decide_eq_true_eq]
            constructor
            · intro hlt
              obtain ⟨x, hx, hxy⟩ := List.mem_map.mp hmx.1
              exact ⟨x, hx, by rw [hxy]; linarith⟩
            · rintro ⟨x, hx, hlt⟩
              have := hmx.2 _ (List.mem_map.mpr ⟨x, hx, rfl⟩)
              linarith
        · rw [List.getElem?_eq_none (by omega)]
          simp [ha]
      · unfold setValid
        rw [hk1, trueIdx_length]
      · intro k a hka
        refine ⟨hk3 k a hka, ?_⟩
        rw [ho3 k a hka]
        have ha : a < rows.length := by
          have := (mem_trueIdx flags 0 a).mp (List.mem_of_getElem? hka)
          have h2 : a < flags.length := by
            by_contra hc
            rw [Nat.sub_zero, List.getElem?_eq_none (by omega)] at this
            simp at this
          rw [← hfl] at h2
          simpa using h2
        simp [List.getD_eq_getElem?_getD, List.getElem?_eq_getElem ha]

/-- A 2 × 2 mirror with three actuators of which the second does nothing. -/
def toyShapes3 : List Arr2 := [⟨2, 2, fun i _ => i⟩, ⟨2, 2, fun _ _ => 5⟩, ⟨2, 2, fun _ j => j⟩]

example : makeDmIMat toyShapes3.length 2 (dmFrame 2 2 0 toyShapes3 (zero2 2))
    (fun s => [s.px 1 0 - s.px 0 0, s.px 0 1 - s.px 0 0]) =
    .ok ([true, false, true], [[-1, 0], [0, -1]]) := by decide +kernel

/-- **C14 (surface).** The surface made by the remaining shapes from the remaining commands is the surface of the full
mirror with the dropped actuators at zero. -/
theorem C14_surface (n : ℕ) (shapes kept : List Arr2) (idx : List ℕ) (hs : idx.Pairwise (· < ·))
    (hlt : ∀ a ∈ idx, a < shapes.length) (hl : kept.length = idx.length)
    (hk : ∀ k a : ℕ, idx[k]? = some a → kept[k]? = shapes[a]?) (full cmds : List ℚ)
    (hfull : ∀ k a : ℕ, idx[k]? = some a → full.getD a 0 = cmds.getD k 0)
    (hzero : ∀ a, a ∉ idx → full.getD a 0 = 0) (i j : ℕ) :
    superpose n kept cmds i j = superpose n shapes full i j := by
  unfold superpose
  rw [hl]
  have h1 : ∑ k ∈ Finset.range shapes.length, full.getD k 0 * (shapes.getD k (zero2 n)).px i j =
      ∑ a ∈ idx.toFinset, full.getD a 0 * (shapes.getD a (zero2 n)).px i j := by
    symm
    apply Finset.sum_subset
    · intro a ha
      rw [List.mem_toFinset] at ha
      exact Finset.mem_range.mpr (hlt a ha)
    · intro a _ ha
      rw [List.mem_toFinset] at ha
      rw [hzero a ha, zero_mul]
  rw [h1, List.sum_toFinset _ (hs.imp (fun h => Nat.ne_of_lt h))]
  have h2 : (idx.map fun a => full.getD a 0 * (shapes.getD a (zero2 n)).px i j) =
      (List.range idx.length).map fun k => cmds.getD k 0 * (kept.getD k (zero2 n)).px i j := by
    apply List.ext_getElem (by simp)
    intro k h1 h2
    simp only [List.length_map] at h1
    have hka : idx[k]? = some idx[k] := List.getElem?_eq_getElem h1
    simp only [List.getElem_map, List.getElem_range]
    have hkk : kept.getD k (zero2 n) = shapes.getD idx[k] (zero2 n) := by
      rw [List.getD_eq_getElem?_getD, List.getD_eq_getElem?_getD, hk k _ hka]
    rw [hfull k _ hka, hkk]
  rw [h2]
  rfl

example (i j : ℕ) : superpose 2 [toyShapes3[0], toyShapes3[2]] [7, 8] i j =
    superpose 2 toyShapes3 [7, 0, 8] i j := by
  refine C14_surface 2 toyShapes3 [toyShapes3[0], toyShapes3[2]] [0, 2] (by simp)
    (by simp [toyShapes3]) rfl ?_ [7, 0, 8] [7, 8] ?_ ?_ i j
  · intro k a h
    match k with
    | 0 => simp at h; subst h; rfl
    | 1 => simp at h; subst h; rfl
    | k + 2 => simp at h
  · intro k a h
    match k with
    | 0 => simp at h; subst h; rfl
    | 1 => simp at h; subst h; rfl
    | k + 2 => simp at h
  · intro a ha
    match a with
    | 0 => simp at ha
    | 1 => rfl
    | 2 => simp at ha
    | a + 3 => simp

end Soapy.Props
