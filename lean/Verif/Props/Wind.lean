/-
Property theorem C98: the direction in which the turbulence moves.
-/
import Verif.Model.Wind
import Verif.Spec.Wind
import Verif.Props.Atmos
import Verif.Lemmas.Interp
import Mathlib.Tactic.LinearCombination

namespace Soapy.Props

open Soapy.Atmos Soapy.Mirror Soapy.Interp Soapy.WindSpec

/-! ### The rows of an infinite screen -/

section

variable (gen : ℕ → List (List ℚ) → List ℚ) (len : ℕ) (v : ℚ) (hv : 0 ≤ v) (init : List (List ℚ))

/-- All rows there ever were up to frame `n`, the newest first. -/
noncomputable def allRows : ℕ → List (List ℚ)
  | 0 => init
  | n + 1 => Classical.choose (C26_shift gen len v hv init n) ++ allRows n

/-- How many rows were added up to frame `n`. -/
def added (n : ℕ) : ℕ := ⌊n * v⌋.toNat

include hv in
theorem added_cast (n : ℕ) : (added v n : ℤ) = ⌊n * v⌋ := by
  unfold added
  rw [Int.toNat_of_nonneg]
  exact Int.floor_nonneg.mpr (by positivity)

theorem allRows_succ (n : ℕ) : ∃ new : List (List ℚ), new.length + added v n = added v (n + 1) ∧ allRows gen len v hv init (n + 1) = new ++ allRows gen len v hv init n := by
  obtain ⟨h1, _⟩ := Classical.choose_spec (C26_shift gen len v hv init n)
  refine ⟨_, ?_, rfl⟩
  have a := added_cast v hv n
  have b := added_cast v hv (n + 1)
  omega

theorem allRows_length (n : ℕ) : (allRows gen len v hv init n).length = added v n + init.length := by
  induction n with
  | zero => simp [allRows, added]
  | succ n ih =>
    obtain ⟨new, h1, h2⟩ := allRows_succ gen len v hv init n
    rw [h2, List.length_append, ih]
    omega

theorem scr_eq (hl : init.length ≤ len) (n : ℕ) : (runInf gen len v init n).scr = (allRows gen len v hv init n).take len := by
  induction n with
  | zero => rw [runInf, allRows, List.take_of_length_le hl]
  | succ n ih =>
    obtain ⟨_, h2⟩ := Classical.choose_spec (C26_shift gen len v hv init n)
    rw [h2, allRows]
    generalize Classical.choose (C26_shift gen len v hv init n) = new
    rw [ih]
    simp only [List.take_append, List.take_take]
    congr 2
    omega

theorem allRows_add (n k : ℕ) : ∃ new : List (List ℚ), new.length + added v n = added v (n + k) ∧ allRows gen len v hv init (n + k) = new ++ allRows gen len v hv init n := by
  induction k with
  | zero => exact ⟨[], by simp, by simp⟩
  | succ k ih =>
    obtain ⟨new, h1, h2⟩ := ih
    obtain ⟨new', h3, h4⟩ := allRows_succ gen len v hv init (n + k)
    exact ⟨new' ++ new, by rw [List.length_append]; have e : n + (k + 1) = n + k + 1 := rfl; rw [e]; omega, by rw [← Nat.add_assoc, h4, h2, List.append_assoc]⟩

open Classical in
/-- The whole turbulence: row `a`, counted from the first row of the first screen, backwards for the rows added later. -/
noncomputable def world (a : ℤ) : List ℚ :=
  if h : ∃ n, 0 ≤ a + added v n then (allRows gen len v hv init h.choose).getD (a + added v h.choose).toNat [] else []

theorem world_eq (n r : ℕ) : world gen len v hv init ((r : ℤ) - added v n) = (allRows gen len v hv init n).getD r [] := by
  have h : ∃ k, 0 ≤ ((r : ℤ) - added v n) + added v k := ⟨n, by omega⟩
  unfold world
  rw [dif_pos h]
  have hk := h.choose_spec
  generalize h.choose = k at hk
  have key : ∀ (a b : ℕ), a ≤ b → 0 ≤ ((r : ℤ) - added v n) + added v a →
      (allRows gen len v hv init b).getD (((r : ℤ) - added v n) + added v b).toNat [] = (allRows gen len v hv init a).getD (((r : ℤ) - added v n) + added v a).toNat [] := by
    intro a b hab ha
    obtain ⟨c, rfl⟩ := Nat.exists_eq_add_of_le hab
    obtain ⟨new, h1, h2⟩ := allRows_add gen len v hv init a c
    rw [h2, List.getD_eq_getElem?_getD, List.getD_eq_getElem?_getD, List.getElem?_append_right (by omega)]
    congr 2
    omega
  have hn : (((r : ℤ) - added v n) + added v n).toNat = r := by omega
  rcases Nat.le_total k n with hkn | hkn
  · rw [← key k n hkn hk, hn]
  · rw [key n k hkn (by omega), hn]

/-- Row `r` of the stored screen in frame `n`. -/
theorem infArr_px (nx : ℕ) (hl : init.length ≤ len) (n r c : ℕ) (hr : r < len) :
    (infArr len nx (runInf gen len v init n)).px r c = (world gen len v hv init ((r : ℤ) - added v n)).getD c 0 := by
  simp only [infArr]
  rw [world_eq, scr_eq gen len v hv init hl]
  congr 1
  simp [List.getD_eq_getElem?_getD, hr]

/-- Interpolation between two rows of the turbulence. -/
noncomputable def between (x : ℚ) (c : ℕ) : ℚ :=
  (world gen len v hv init ⌊x⌋).getD c 0 + ((world gen len v hv init (⌊x⌋ + 1)).getD c 0 - (world gen len v hv init ⌊x⌋).getD c 0) * (x - ⌊x⌋)

theorem outArr_px (nx : ℕ) (hl : init.length ≤ len) (n i j : ℕ) (hi : i + 2 < len) (hj : j + 2 < nx) :
    (outArr len nx (runInf gen len v init n)).px i j = between gen len v hv init ((i : ℚ) + 1 - n * v) (j + 1) := by
  obtain ⟨hd, hf⟩ := C26_rows_and_offset gen len v hv init n
  have hadd := added_cast v hv n
  have f1 := Int.floor_le ((n : ℚ) * v)
  have f2 := Int.lt_floor_add_one ((n : ℚ) * v)
  set F : ℤ := ⌊(n : ℚ) * v⌋ with hF
  set s := runInf gen len v init n with hs
  have i3 : (i : ℚ) + 3 ≤ len := by exact_mod_cast hi
  have j3 : (j : ℚ) + 3 ≤ nx := by exact_mod_cast hj
  have hout : outInf (infArr len nx s) s.fp i j = bilinAt (infArr len nx s) ((i : ℚ) + 1 - s.fp) ((j : ℚ) + 1) := by
    unfold outInf interpVal clampHi
    have e1 : (infArr len nx s).rows = len := rfl
    have e2 : (infArr len nx s).cols = nx := rfl
    rw [if_pos rfl, e1, e2, if_neg (by rw [hf]; linarith), if_neg (by linarith)]
  simp only [outArr, hout]
  -- with an offset of zero the point is on row i + 1, otherwise between i and i + 1
  by_cases h0 : s.fp = 0
  · have hx : ⌊(i : ℚ) + 1 - n * v⌋ = (i : ℤ) + 1 - F := by
      have : (n : ℚ) * v = F := by rw [h0] at hf; linarith
      rw [this]
      rw [Int.floor_eq_iff]; push_cast; constructor <;> linarith
    have hb := bilinAt_ok (infArr len nx s) ((i : ℚ) + 1 - s.fp) ((j : ℚ) + 1) (i + 1) (j + 1) (by rw [h0]; push_cast; constructor <;> linarith) (by push_cast; constructor <;> linarith)
      (by change i + 1 + 1 < len; omega) (by change j + 1 + 1 < nx; omega)
    rw [hb]
    simp only
    rw [infArr_px gen len v hv init nx hl n (i + 1) (j + 1) (by omega), infArr_px gen len v hv init nx hl n (i + 1 + 1) (j + 1) (by omega)]
    unfold between
    rw [hx, hadd]
    have : (n : ℚ) * v = F := by rw [h0] at hf; linarith
    rw [this, h0]
    push_cast
    ring_nf
  · have hpos : 0 < s.fp := lt_of_le_of_ne (by rw [hf]; linarith) (Ne.symm h0)
    have hx : ⌊(i : ℚ) + 1 - n * v⌋ = (i : ℤ) - F := by
      rw [Int.floor_eq_iff]
      have : (n : ℚ) * v = F + s.fp := by linarith
      rw [this]
      have : s.fp < 1 := by rw [hf]; linarith
      push_cast; constructor <;> linarith
    have hb := bilinAt_ok (infArr len nx s) ((i : ℚ) + 1 - s.fp) ((j : ℚ) + 1) i (j + 1) (by have : s.fp < 1 := by rw [hf]; linarith
                                                                                             constructor <;> linarith) (by push_cast; constructor <;> linarith)
      (by change i + 1 < len; omega) (by change j + 1 + 1 < nx; omega)
    rw [hb]
    simp only
    rw [infArr_px gen len v hv init nx hl n i (j + 1) (by omega), infArr_px gen len v hv init nx hl n (i + 1) (j + 1) (by omega)]
    unfold between
    rw [hx, hadd]
    have : (n : ℚ) * v = F + s.fp := by linarith
    rw [this]
    push_cast
    ring_nf

end

/-- **C98 (infinite screens, wind along an axis).** At any speed the picture moves with the configured speed in the configured direction: rows are the first coordinate, columns the second. -/
theorem C98_infinite_axis (gen : ℕ → List (List ℚ) → List ℚ) (nx : ℕ) (v : ℚ) (hv : 0 ≤ v) (init : List (List ℚ)) (hl : init.length ≤ nx) (d : Dir) (hd : d = .d0 ∨ d = .d90 ∨ d = .d180 ∨ d = .d270) :
    Moves (infOut gen nx nx nx v d init) (Inside nx) (v * d.cs.1, v * d.cs.2) := by
  rcases hd with rfl | rfl | rfl | rfl
  · refine ⟨fun x y => between gen nx v hv init (x + 1) (⌊y⌋.toNat + 1), fun n i j h => ?_⟩
    obtain ⟨h1, h2, h3, h4⟩ := h
    simp only [infOut, rotateScreen, Dir.cs, Except.ok.injEq]
    rw [outArr_px gen nx v hv init nx hl n i j h2 h4]
    congr 1
    · ring
    · simp
  · refine ⟨fun x y => between gen nx v hv init (y + 1) (nx - 1 - ⌊x⌋.toNat + 1), fun n i j h => ?_⟩
    obtain ⟨h1, h2, h3, h4⟩ := h
    simp only [infOut, rotateScreen, Dir.cs, Except.ok.injEq]
    rw [outArr_px gen nx v hv init nx hl n j (nx - 1 - i) h4 (by omega)]
    congr 1
    · ring
    · simp
  · refine ⟨fun x y => between gen nx v hv init (nx - x) (⌊y⌋.toNat + 1), fun n i j h => ?_⟩
    obtain ⟨h1, h2, h3, h4⟩ := h
    simp only [infOut, rotateScreen, Dir.cs, Except.ok.injEq]
    rw [outArr_px gen nx v hv init nx hl n (nx - 1 - i) j (by omega) h4]
    congr 1
    · rw [Nat.cast_sub (by omega), Nat.cast_sub (by omega)]; push_cast; ring
    · simp
  · refine ⟨fun x y => between gen nx v hv init (nx - y) (⌊x⌋.toNat + 1), fun n i j h => ?_⟩
    obtain ⟨h1, h2, h3, h4⟩ := h
    simp only [infOut, rotateScreen, Dir.cs, Except.ok.injEq]
    rw [outArr_px gen nx v hv init nx hl n (nx - 1 - j) i (by omega) h2]
    congr 1
    · rw [Nat.cast_sub (by omega), Nat.cast_sub (by omega)]; push_cast; ring
    · simp

/-- **C98 (infinite screens, other winds), partial**: at a whole number `k` of pixels per frame the picture moves with the configured speed in the direction *minus* the configured one. -/
theorem C98_infinite_other_partial (gen : ℕ → List (List ℚ) → List ℚ) (nx m k : ℕ) (init : List (List ℚ)) (hl : init.length ≤ nx) (hm : 3 ≤ m) (hnx : 8 * m ^ 2 ≤ nx ^ 2) (c s : ℚ) (hcs : c ^ 2 + s ^ 2 = 1) :
    Moves (infOut gen nx nx m k (.other c s) init) (Whole m) (k * c, -(k * s)) := by
  have hv : (0 : ℚ) ≤ k := by positivity
  let wd : ℤ → ℕ → ℚ := fun a b => (world gen nx k hv init a).getD b 0
  have hpx : ∀ n i j : ℕ, i + 2 < nx → j + 2 < nx → (outArr nx nx (runInf gen nx k init n)).px i j = wd ((i : ℤ) + 1 - n * k) (j + 1) := by
    intro n i j hi hj
    rw [outArr_px gen nx k hv init nx hl n i j hi hj]
    unfold between
    have e : (i : ℚ) + 1 - n * k = (((i : ℤ) + 1 - n * k : ℤ) : ℚ) := by push_cast; ring
    rw [e, Int.floor_intCast]
    simp [wd]
  let bil : ℚ → ℚ → ℚ := fun x y =>
    (1 - (x - ⌊x⌋)) * (1 - (y - ⌊y⌋)) * wd ⌊x⌋ ⌊y⌋.toNat + (x - ⌊x⌋) * (1 - (y - ⌊y⌋)) * wd (⌊x⌋ + 1) ⌊y⌋.toNat
      + (1 - (x - ⌊x⌋)) * (y - ⌊y⌋) * wd ⌊x⌋ (⌊y⌋.toNat + 1) + (x - ⌊x⌋) * (y - ⌊y⌋) * wd (⌊x⌋ + 1) (⌊y⌋.toNat + 1)
  let h : ℚ := (m : ℚ) / 2 - 1 / 2
  let H : ℚ := (nx : ℚ) / 2 - 1 / 2
  refine ⟨fun p q => bil ((p - h) * c - (q - h) * s + H + 1) ((p - h) * s + (q - h) * c + H + 1), fun n i j hij => ?_⟩
  obtain ⟨hi, hj⟩ := hij
  have hi' : (i : ℚ) + 1 ≤ m := by exact_mod_cast hi
  have hj' : (j : ℚ) + 1 ≤ m := by exact_mod_cast hj
  have i0 : (0 : ℚ) ≤ i := by positivity
  have j0 : (0 : ℚ) ≤ j := by positivity
  have hm' : (3 : ℚ) ≤ m := by exact_mod_cast hm
  have hnx' : 8 * (m : ℚ) ^ 2 ≤ (nx : ℚ) ^ 2 := by exact_mod_cast hnx
  have hnx0 : (0 : ℚ) ≤ nx := by positivity
  have hbig : 14 / 5 * (m : ℚ) ≤ nx := by
    by_contra hcon
    push Not at hcon
    nlinarith
  -- inside the screen
  have hsq : ∀ a b : ℚ, |a| ≤ (m - 1) / 2 → |b| ≤ (m - 1) / 2 → |a * c - b * s| < (nx - 5) / 2 ∧ |a * s + b * c| < (nx - 5) / 2 := by
    intro a b ha hb
    have a2 : a ^ 2 ≤ ((m - 1) / 2) ^ 2 := by rw [← sq_abs]; exact pow_le_pow_left₀ (abs_nonneg _) ha 2
    have b2 : b ^ 2 ≤ ((m - 1) / 2) ^ 2 := by rw [← sq_abs]; exact pow_le_pow_left₀ (abs_nonneg _) hb 2
    have tot : (a * c - b * s) ^ 2 + (a * s + b * c) ^ 2 = a ^ 2 + b ^ 2 := by linear_combination (a ^ 2 + b ^ 2) * hcs
    have hlin : 71 / 50 * ((m : ℚ) - 1) ≤ nx - 5 := by linarith
    have big : 2 * (((m : ℚ) - 1) / 2) ^ 2 < ((nx - 5) / 2) ^ 2 := by nlinarith
    constructor
    · apply abs_lt_of_sq_lt_sq _ (by linarith)
      nlinarith [sq_nonneg (a * s + b * c)]
    · apply abs_lt_of_sq_lt_sq _ (by linarith)
      nlinarith [sq_nonneg (a * c - b * s)]
  obtain ⟨k1, k2⟩ := hsq ((i : ℚ) - h) ((j : ℚ) - h) (by rw [abs_le]; simp only [h]; constructor <;> linarith) (by rw [abs_le]; simp only [h]; constructor <;> linarith)
  rw [abs_lt] at k1 k2
  set x : ℚ := ((i : ℚ) - h) * c - ((j : ℚ) - h) * s + H with hx
  set y : ℚ := ((i : ℚ) - h) * s + ((j : ℚ) - h) * c + H with hy
  have hHe : H = (nx : ℚ) / 2 - 1 / 2 := rfl
  have x0 : 0 ≤ x ∧ x < nx - 3 := ⟨by rw [hx, hHe]; linarith, by rw [hx, hHe]; linarith⟩
  have y0 : 0 ≤ y ∧ y < nx - 3 := ⟨by rw [hy, hHe]; linarith, by rw [hy, hHe]; linarith⟩
  have hX : ((i : ℚ) - n * (k * c) - h) * c - ((j : ℚ) - n * (-(k * s)) - h) * s + H + 1 = x + 1 - n * k := by
    rw [hx]; linear_combination (-(n : ℚ) * k) * hcs
  have hY : ((i : ℚ) - n * (k * c) - h) * s + ((j : ℚ) - n * (-(k * s)) - h) * c + H + 1 = y + 1 := by
    rw [hy]; ring
  simp only
  rw [hX, hY]
  -- the cell
  obtain ⟨a, ha, ha1, ha2⟩ := cell_exists (nx - 2) x x0.1 (by rw [Nat.cast_sub (by have : (8 : ℚ) ≤ nx := by linarith
                                                                                   have : 8 ≤ nx := by exact_mod_cast this
                                                                                   omega)]; push_cast; linarith [x0.2])
  obtain ⟨b, hb, hb1, hb2⟩ := cell_exists (nx - 2) y y0.1 (by rw [Nat.cast_sub (by have : (8 : ℚ) ≤ nx := by linarith
                                                                                   have : 8 ≤ nx := by exact_mod_cast this
                                                                                   omega)]; push_cast; linarith [y0.2])
  have hrot : infOut gen nx nx m k (.other c s) init n i j = bilinAt (outArr nx nx (runInf gen nx k init n)) x y := by
    simp only [infOut, rotateScreen, rotateVal]
    have e1 : (outArr nx nx (runInf gen nx k init n)).rows = nx := rfl
    have e2 : (outArr nx nx (runInf gen nx k init n)).cols = nx := rfl
    rw [e1, e2]
    have ex : ((i : ℚ) - ((m : ℚ) / 2 - 1 / 2)) * c - ((j : ℚ) - ((m : ℚ) / 2 - 1 / 2)) * s + ((nx : ℚ) / 2 - 1 / 2) = x := rfl
    have ey : ((i : ℚ) - ((m : ℚ) / 2 - 1 / 2)) * s + ((j : ℚ) - ((m : ℚ) / 2 - 1 / 2)) * c + ((nx : ℚ) / 2 - 1 / 2) = y := rfl
    rw [ex, ey, if_neg (by linarith [x0.2]), if_neg (by linarith [y0.2])]
  rw [hrot, bilinAt_ok _ x y a b ⟨ha1, ha2⟩ ⟨hb1, hb2⟩ (by change a + 1 < nx; omega) (by change b + 1 < nx; omega)]
  rw [hpx n a b (by omega) (by omega), hpx n (a + 1) b (by omega) (by omega), hpx n a (b + 1) (by omega) (by omega), hpx n (a + 1) (b + 1) (by omega) (by omega)]
  have fx : ⌊x + 1 - n * k⌋ = (a : ℤ) + 1 - n * k := by
    rw [Int.floor_eq_iff]; push_cast; constructor <;> linarith
  have fy : ⌊y + 1⌋ = ((b + 1 : ℕ) : ℤ) := by
    rw [Int.floor_eq_iff]; push_cast; constructor <;> linarith
  simp only [bil, fx, fy, Int.toNat_natCast, Except.ok.injEq]
  have e3 : ((a + 1 : ℕ) : ℤ) + 1 - n * k = (a : ℤ) + 1 - n * k + 1 := by push_cast; ring
  rw [e3]
  push_cast
  ring

/-- Element `(i, j)` of a finite screen handed out in frame `n`. -/
def finOut (spline : Arr2 → ℚ → ℚ → ℚ) (scale : ℚ) (W s : ℕ) (v : ℚ × ℚ) (l : Layer) (n i j : ℕ) : Except PyErr ℚ :=
  match (outLayer spline scale W s v l n)[i]? with
  | none => .error .indexError
  | some row => match row[j]? with
    | none => .error .indexError
    | some q => .ok q

/-- **C98 (finite screens), partial**: at whole numbers of pixels per frame along both axes the picture moves with the configured speed *against* the configured direction. -/
theorem C98_finite_partial (W s : ℕ) (scr : Arr2) (v c z : ℚ) (a b : ℤ) (ha : (a : ℚ) = v * c) (hb : (b : ℚ) = v * z) (l : Layer) (h : initLayer W s scr (v * c, v * z) = .ok l)
    (spline : Arr2 → ℚ → ℚ → ℚ) (hspl : ∀ (q : Arr2) (i j : ℕ), i < q.rows → j < q.cols → spline q i j = q.px i j) (scale : ℚ) :
    Moves (finOut spline scale W s (v * c, v * z) l) (Whole s) (-(v * c), -(v * z)) := by
  rw [← ha, ← hb] at h ⊢
  refine ⟨fun x y => scr.px (((if a < 0 then (W : ℤ) - s else 0) + ⌊x⌋) % W).toNat (((if b < 0 then (W : ℤ) - s else 0) + ⌊y⌋) % W).toNat * scale, fun n i j hij => ?_⟩
  obtain ⟨row, h1, h2⟩ := C25_frozen_flow_partial W s scr a b l h spline hspl scale n i j hij.1 hij.2
  have e1 : (i : ℚ) - n * -(a : ℚ) = (((i : ℤ) + n * a : ℤ) : ℚ) := by push_cast; ring
  have e2 : (j : ℚ) - n * -(b : ℚ) = (((j : ℤ) + n * b : ℤ) : ℚ) := by push_cast; ring
  simp only [finOut, h1, h2, e1, e2, Int.floor_intCast, add_assoc]

/-- **C98 is violated**: with wind from the same direction and at the same speed, infinite screens move one way and finite screens another; and an infinite screen with wind at an angle does not move in the configured direction,
which it does along the axes. -/
theorem C98_violated :
    (∃ (W s : ℕ) (scr : Arr2) (l : Layer), initLayer W s scr (1, 0) = .ok l ∧
      ∀ (spline : Arr2 → ℚ → ℚ → ℚ), (∀ (q : Arr2) (i j : ℕ), i < q.rows → j < q.cols → spline q i j = q.px i j) → ¬ Moves (finOut spline 1 W s (1, 0) l) (Inside s) (1, 0)) ∧
    (∃ (gen : ℕ → List (List ℚ) → List ℚ) (init : List (List ℚ)), init.length = 23 ∧ ¬ Moves (infOut gen 23 23 8 5 (.other (3 / 5) (4 / 5)) init) (Whole 8) (5 * (3 / 5), 5 * (4 / 5))) := by
  constructor
  · refine ⟨12, 7, ⟨12, 12, fun i _ => i⟩, _, rfl, ?_⟩
    rintro spline hs ⟨G, hG⟩
    obtain ⟨row0, a1, a2⟩ := C25_frozen_flow_partial 12 7 ⟨12, 12, fun i _ => i⟩ 1 0 _ rfl spline hs 1 0 2 2 (by norm_num) (by norm_num)
    obtain ⟨row1, b1, b2⟩ := C25_frozen_flow_partial 12 7 ⟨12, 12, fun i _ => i⟩ 1 0 _ rfl spline hs 1 1 3 2 (by norm_num) (by norm_num)
    have g0 := hG 0 2 2 (by simp [Inside])
    have g1 := hG 1 3 2 (by simp [Inside])
    simp only [Int.cast_one, Int.cast_zero] at a1 b1
    simp only [finOut, a1, a2, b1, b2, Except.ok.injEq] at g0 g1
    norm_num at g0 g1
    rw [← g1] at g0
    norm_num at g0
    exact absurd g0 (by decide)
  · refine ⟨fun k _ => List.replicate 23 (-(k : ℚ) - 1), (List.range 23).map fun r => List.replicate 23 (r : ℚ), by simp, ?_⟩
    rintro ⟨G, hG⟩
    have g0 := hG 0 0 0 (by simp [Whole])
    have g1 := hG 1 3 4 (by simp [Whole])
    have e0 : infOut (fun k _ => List.replicate 23 (-(k : ℚ) - 1)) 23 23 8 5 (.other (3 / 5) (4 / 5)) ((List.range 23).map fun r => List.replicate 23 (r : ℚ)) 0 0 0 = .ok (127 / 10) := by decide +kernel
    have e1 : infOut (fun k _ => List.replicate 23 (-(k : ℚ) - 1)) 23 23 8 5 (.other (3 / 5) (4 / 5)) ((List.range 23).map fun r => List.replicate 23 (r : ℚ)) 1 3 4 = .ok (63 / 10) := by decide +kernel
    rw [e0] at g0
    rw [e1] at g1
    norm_num at g0 g1
    rw [← g0] at g1
    norm_num at g1

/-- The hypotheses of the rotated case: a screen of 23 × 23 for an output of 8 × 8. -/
example : Moves (infOut (fun k _ => List.replicate 23 (-(k : ℚ) - 1)) 23 23 8 ((5 : ℕ) : ℚ) (.other (3 / 5) (4 / 5)) ((List.range 23).map fun r => List.replicate 23 (r : ℚ))) (Whole 8) ((5 : ℕ) * (3 / 5), -((5 : ℕ) * (4 / 5))) :=
  C98_infinite_other_partial _ 23 8 5 _ (by simp) (by norm_num) (by norm_num) _ _ (by norm_num)

end Soapy.Props
