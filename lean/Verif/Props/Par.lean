/-
Property theorems C37–C39: detector binning, in-place FFT shift, independence of the thread schedule.
-/
import Verif.Lemmas.Par
import Mathlib.Tactic.Ring

namespace Soapy.Props

open Soapy.Par Soapy.Interp Soapy.Mirror

/-! ### C37, C39: binning -/

/-- **C37, C39 (`bin_img`).** For every schedule of the threads, whatever was in the output before, every detector element holds the sum of its own `b × b` block; nothing else is written. -/
theorem C37_bin_img (img : ℕ → ℕ → ℚ) (b rows cols : ℕ) (t : List (ℕ × Op (ℕ × ℕ))) (ht : Interleaving rows (binThread img b cols) t)
    (m : ℕ × ℕ → ℚ) (i j : ℕ) :
    exec m t (i, j) = if i < rows ∧ j < cols then ∑ x ∈ Finset.range b, ∑ y ∈ Finset.range b, img (i * b + x) (j * b + y) else m (i, j) := by
  rw [exec_seq rows _ t m ht]
  · have e : (List.range rows).flatMap (binThread img b cols) =
        ((List.range rows).flatMap fun i => (List.range cols).map fun j => (i, j)).flatMap fun k => binCell k img b k.1 k.2 := by
      simp only [List.flatMap_assoc, List.flatMap_map]
      rfl
    rw [e, run_cells _ (fun k : ℕ × ℕ => binCell k img b k.1 k.2) id (fun k => blockSum img b k.1 k.2)
      (fun k _ m => run_binCell k img b k.1 k.2 m)]
    simp only [List.map_id, List.mem_flatMap, List.mem_range, List.mem_map, Prod.mk.injEq]
    by_cases h : i < rows ∧ j < cols
    · rw [if_pos h, if_pos ⟨i, h.1, j, h.2, rfl, rfl⟩]; rfl
    · rw [if_neg h, if_neg]
      rintro ⟨a, ha, c, hc, rfl, rfl⟩
      exact h ⟨ha, hc⟩
  · intro i i' _ _ hne o ho p hp
    unfold binThread at ho hp
    obtain ⟨j, _, ho⟩ := List.mem_flatMap.mp ho
    obtain ⟨j', _, hp⟩ := List.mem_flatMap.mp hp
    exact indep_of_own o p (i, j) (i', j') (by simp [hne]) (binCell_dst _ _ _ _ _ _ ho) (binCell_dst _ _ _ _ _ _ hp)

/-- **C37, C39 (`bin_imgs`).** The same for a stack of sub-aperture images. -/
theorem C37_bin_imgs (imgs : ℕ → ℕ → ℕ → ℚ) (b n rows cols : ℕ) (t : List (ℕ × Op (ℕ × ℕ × ℕ)))
    (ht : Interleaving n (binImgsThread imgs b rows cols) t) (m : ℕ × ℕ × ℕ → ℚ) (k i j : ℕ) :
    exec m t (k, i, j) = if k < n ∧ i < rows ∧ j < cols then ∑ x ∈ Finset.range b, ∑ y ∈ Finset.range b, imgs k (i * b + x) (j * b + y)
      else m (k, i, j) := by
  rw [exec_seq n _ t m ht]
  · have e : (List.range n).flatMap (binImgsThread imgs b rows cols) =
        ((List.range n).flatMap fun k => (List.range rows).flatMap fun i => (List.range cols).map fun j => (k, i, j)).flatMap
          fun q => binCell q (imgs q.1) b q.2.1 q.2.2 := by
      simp only [List.flatMap_assoc, List.flatMap_map]
      rfl
    rw [e, run_cells _ (fun q : ℕ × ℕ × ℕ => binCell q (imgs q.1) b q.2.1 q.2.2) id (fun q => blockSum (imgs q.1) b q.2.1 q.2.2)
      (fun q _ m => run_binCell q (imgs q.1) b q.2.1 q.2.2 m)]
    simp only [List.map_id, List.mem_flatMap, List.mem_range, List.mem_map, Prod.mk.injEq]
    by_cases h : k < n ∧ i < rows ∧ j < cols
    · rw [if_pos h, if_pos ⟨k, h.1, i, h.2.1, j, h.2.2, rfl, rfl, rfl⟩]; rfl
    · rw [if_neg h, if_neg]
      rintro ⟨a, ha, c, hc, d, hd, rfl, rfl, rfl⟩
      exact h ⟨ha, hc, hd⟩
  · intro i i' _ _ hne o ho p hp
    unfold binImgsThread at ho hp
    obtain ⟨j, _, ho⟩ := List.mem_flatMap.mp ho
    obtain ⟨j', _, hp⟩ := List.mem_flatMap.mp hp
    obtain ⟨l, _, ho⟩ := List.mem_flatMap.mp ho
    obtain ⟨l', _, hp⟩ := List.mem_flatMap.mp hp
    exact indep_of_own o p (i, j, l) (i', j', l') (by simp [hne]) (binCell_dst _ _ _ _ _ _ ho) (binCell_dst _ _ _ _ _ _ hp)

theorem sum_blocks (b n : ℕ) (f : ℕ → ℚ) :
    ∑ i ∈ Finset.range n, ∑ x ∈ Finset.range b, f (i * b + x) = ∑ k ∈ Finset.range (n * b), f k := by
  induction n with
  | zero => simp
  | succ n ih => rw [Finset.sum_range_succ, ih, Nat.succ_mul, Finset.sum_range_add]

/-- **C37 (flux).** An image whose size is the bin factor times the detector size keeps its total flux, under every schedule. -/
theorem C37_flux_conserved (img : ℕ → ℕ → ℚ) (b rows cols : ℕ) (t : List (ℕ × Op (ℕ × ℕ))) (ht : Interleaving rows (binThread img b cols) t)
    (m : ℕ × ℕ → ℚ) :
    ∑ i ∈ Finset.range rows, ∑ j ∈ Finset.range cols, exec m t (i, j) =
      ∑ x ∈ Finset.range (rows * b), ∑ y ∈ Finset.range (cols * b), img x y := by
  rw [← sum_blocks]
  apply Finset.sum_congr rfl
  intro i hi
  have e : ∀ x, ∑ y ∈ Finset.range (cols * b), img (i * b + x) y =
      ∑ j ∈ Finset.range cols, ∑ y ∈ Finset.range b, img (i * b + x) (j * b + y) := fun x => (sum_blocks b cols _).symm
  simp only [e]
  rw [Finset.sum_comm]
  apply Finset.sum_congr rfl
  intro j hj
  rw [C37_bin_img img b rows cols t ht, if_pos ⟨Finset.mem_range.mp hi, Finset.mem_range.mp hj⟩]

/-- Two threads, interleaved store by store. -/
def toyTrace : List (ℕ × Op (ℕ × ℕ)) :=
  ((binThread (fun i j => 10 * i + j) 2 1 0).zip (binThread (fun i j => 10 * i + j) 2 1 1)).flatMap fun p => [(1, p.2), (0, p.1)]

example : Interleaving 2 (binThread (fun i j => 10 * i + j) 2 1) toyTrace ∧
    exec (fun _ => 99) toyTrace (0, 0) = 22 ∧ exec (fun _ => 99) toyTrace (1, 0) = 102 ∧ exec (fun _ => 99) toyTrace (2, 0) = 99 := by
  refine ⟨?_, by decide +kernel, by decide +kernel, by decide +kernel⟩
  intro i
  match i with
  | 0 => rfl
  | 1 => rfl
  | i + 2 => rw [if_neg (by omega)]; simp [proj, toyTrace, binThread, binCell, List.range_succ]

/-! ### C38 -/

/-- **C38, C39 (`fftshift_2d_inplace`).** For every schedule of the threads the four quadrants of the first `2⌊r/2⌋ × 2⌊c/2⌋` elements are exchanged diagonally and everything else stays. -/
theorem C38_quadrants (rows cols : ℕ) (t : List (ℕ × Op Loc)) (ht : Interleaving (rows / 2) (shiftThread rows cols) t) (m : Loc → ℚ) (i j : ℕ) :
    exec m t (.px i j) = if i < 2 * (rows / 2) ∧ j < 2 * (cols / 2) then m (.px (swapIdx (rows / 2) i) (swapIdx (cols / 2) j)) else m (.px i j) := by
  rw [exec_seq _ _ t m ht]
  · have e : (List.range (rows / 2)).flatMap (shiftThread rows cols) =
        ((List.range (rows / 2)).flatMap fun x => (List.range (cols / 2)).map fun y => (x, y)).flatMap
          fun k => shiftCell (rows / 2) (cols / 2) k.1 k.2 := by
      simp only [List.flatMap_assoc, List.flatMap_map]
      rfl
    have mem : ∀ x y, (x, y) ∈ ((List.range (rows / 2)).flatMap fun x => (List.range (cols / 2)).map fun y => (x, y)) ↔
        x < rows / 2 ∧ y < cols / 2 := by
      intro x y
      simp only [List.mem_flatMap, List.mem_range, List.mem_map, Prod.mk.injEq]
      constructor
      · rintro ⟨a, ha, b, hb, rfl, rfl⟩; exact ⟨ha, hb⟩
      · rintro ⟨ha, hb⟩; exact ⟨x, ha, y, hb, rfl, rfl⟩
    rw [e, run_shiftCells]
    · have hb : i < 2 * (rows / 2) → baseIdx (rows / 2) i < rows / 2 := by unfold baseIdx; split_ifs <;> omega
      have hc : j < 2 * (cols / 2) → baseIdx (cols / 2) j < cols / 2 := by unfold baseIdx; split_ifs <;> omega
      by_cases h : i < 2 * (rows / 2) ∧ j < 2 * (cols / 2)
      · rw [if_pos h, if_pos ⟨h.1, h.2, (mem _ _).mpr ⟨hb h.1, hc h.2⟩⟩]
      · rw [if_neg h, if_neg (by tauto)]
    · rintro ⟨x, y⟩ h; exact (mem x y).mp h
    · rw [List.nodup_flatMap]
      refine ⟨fun x _ => List.Nodup.map (fun a b h => by injection h) List.nodup_range, ?_⟩
      apply List.Nodup.pairwise_of_forall_ne List.nodup_range
      intro a _ b _ hab
      rw [Function.onFun, List.disjoint_left]
      intro p h1 h2
      obtain ⟨_, _, rfl⟩ := List.mem_map.mp h1
      obtain ⟨_, _, h⟩ := List.mem_map.mp h2
      injection h with h _
      exact hab h.symm
  · intro x x' hx hx' hne o ho p hp
    unfold shiftThread at ho hp
    obtain ⟨y, _, ho⟩ := List.mem_flatMap.mp ho
    obtain ⟨y', _, hp⟩ := List.mem_flatMap.mp hp
    exact shift_indep _ _ _ _ _ _ hx hx' hne o p ho hp

theorem swapIdx_swapIdx (h i : ℕ) (hi : i < 2 * h) : swapIdx h (swapIdx h i) = i := by
  unfold swapIdx
  split_ifs <;> omega

/-- **C38 (involution).** Twice applied, with any schedules, the shift gives the array back: for every size. -/
theorem C38_involution (rows cols : ℕ) (t t' : List (ℕ × Op Loc)) (ht : Interleaving (rows / 2) (shiftThread rows cols) t)
    (ht' : Interleaving (rows / 2) (shiftThread rows cols) t') (m : Loc → ℚ) (i j : ℕ) : exec (exec m t) t' (.px i j) = m (.px i j) := by
  rw [C38_quadrants rows cols t' ht', C38_quadrants rows cols t ht, C38_quadrants rows cols t ht]
  by_cases h : i < 2 * (rows / 2) ∧ j < 2 * (cols / 2)
  · have b : ∀ h i : ℕ, i < 2 * h → swapIdx h i < 2 * h := by intro h i hi; unfold swapIdx; split_ifs <;> omega
    rw [if_pos h, if_pos ⟨b _ _ h.1, b _ _ h.2⟩, swapIdx_swapIdx _ _ h.1, swapIdx_swapIdx _ _ h.2]
  · rw [if_neg h, if_neg h]

/-- **C38 (even sizes).** For even sizes it is `numpy.fft.fftshift`: element `(i, j)` is taken from `((i - r/2) mod r, (j - c/2) mod c)`. -/
theorem C38_even (rows cols : ℕ) (hr : rows % 2 = 0) (hc : cols % 2 = 0) (t : List (ℕ × Op Loc))
    (ht : Interleaving (rows / 2) (shiftThread rows cols) t) (m : Loc → ℚ) (i j : ℕ) (hi : i < rows) (hj : j < cols) :
    exec m t (.px i j) = m (.px ((i + (rows - rows / 2)) % rows) ((j + (cols - cols / 2)) % cols)) := by
  have key : ∀ n k : ℕ, n % 2 = 0 → k < n → swapIdx (n / 2) k = (k + (n - n / 2)) % n := by
    intro n k hn hk
    unfold swapIdx
    by_cases h : k < n / 2
    · rw [if_pos h, Nat.mod_eq_of_lt (by omega)]; omega
    · rw [if_neg h, if_pos (by omega), Nat.mod_eq_sub_mod (by omega), Nat.mod_eq_of_lt (by omega)]; omega
  rw [C38_quadrants rows cols t ht, if_pos ⟨by omega, by omega⟩, key rows i hr hi, key cols j hc hj]

/-- For odd sizes it is not: in a 3 × 3 array the last element is never moved, while `fftshift` moves the middle one there. -/
theorem C38_odd_differs : exec (fun l => match l with | .px i j => 10 * i + j | .tmp _ => 0) (seqTrace 1 (shiftThread 3 3)) (.px 2 2) = 22 ∧
    ((2 + (3 - 3 / 2)) % 3, (2 + (3 - 3 / 2)) % 3) = (1, 1) := by
  refine ⟨by decide +kernel, by decide⟩

example : Interleaving 2 (shiftThread 4 4) (seqTrace 2 (shiftThread 4 4)) ∧
    (List.range 4).map (fun j => exec (fun l => match l with | .px i j => 10 * i + j | .tmp _ => 0) (seqTrace 2 (shiftThread 4 4)) (.px 1 j)) =
      [32, 33, 30, 31] := ⟨seq_interleaving _ _, by decide +kernel⟩

/-! ### C39: the remaining kernels -/

/-- **C39 (interpolation, zoom).** For every schedule row `i`, column `j` of the output is the value computed from the input, everything else is untouched. -/
theorem C39_map_kernels (rows cols : ℕ) (out : ℕ → ℕ → ℚ) (t : List (ℕ × Op (ℕ × ℕ))) (ht : Interleaving rows (mapThread cols out) t)
    (m : ℕ × ℕ → ℚ) (i j : ℕ) : exec m t (i, j) = if i < rows ∧ j < cols then out i j else m (i, j) := by
  rw [exec_seq rows _ t m ht]
  · have e : (List.range rows).flatMap (mapThread cols out) =
        ((List.range rows).flatMap fun i => (List.range cols).map fun j => (i, j)).flatMap fun k => [(⟨k, fun _ => out k.1 k.2⟩ : Op (ℕ × ℕ))] := by
      simp only [List.flatMap_assoc, List.flatMap_map]
      congr 1
      funext i
      unfold mapThread
      induction (List.range cols) with
      | nil => rfl
      | cons a l ih => simp [ih]
    rw [e, run_cells _ (fun k : ℕ × ℕ => [(⟨k, fun _ => out k.1 k.2⟩ : Op (ℕ × ℕ))]) id (fun k => out k.1 k.2) (fun k _ m => rfl)]
    simp only [List.map_id, List.mem_flatMap, List.mem_range, List.mem_map, Prod.mk.injEq]
    by_cases h : i < rows ∧ j < cols
    · rw [if_pos h, if_pos ⟨i, h.1, j, h.2, rfl, rfl⟩]
    · rw [if_neg h, if_neg]
      rintro ⟨a, ha, c, hc, rfl, rfl⟩
      exact h ⟨ha, hc⟩
  · intro i i' _ _ hne o ho p hp
    obtain ⟨j, _, rfl⟩ := List.mem_map.mp ho
    obtain ⟨j', _, rfl⟩ := List.mem_map.mp hp
    exact ⟨by simp [hne], fun _ _ => rfl, fun _ _ => rfl⟩

/-- **C39 (cutting out sub-apertures).** For every schedule. -/
theorem C39_chop (phase : ℕ → ℕ → ℚ) (corner : ℕ → ℕ × ℕ) (n subs : ℕ) (t : List (ℕ × Op (ℕ × ℕ × ℕ)))
    (ht : Interleaving subs (chopThread phase corner n) t) (m : ℕ × ℕ × ℕ → ℚ) (k i j : ℕ) :
    exec m t (k, i, j) = if k < subs ∧ i < n ∧ j < n then phase ((corner k).1 + i) ((corner k).2 + j) else m (k, i, j) := by
  rw [exec_seq subs _ t m ht]
  · have e : (List.range subs).flatMap (chopThread phase corner n) =
        ((List.range subs).flatMap fun k => (List.range n).flatMap fun i => (List.range n).map fun j => (k, i, j)).flatMap
          fun q => [(⟨q, fun _ => phase ((corner q.1).1 + q.2.1) ((corner q.1).2 + q.2.2)⟩ : Op (ℕ × ℕ × ℕ))] := by
      simp only [List.flatMap_assoc, List.flatMap_map]
      congr 1
      funext k
      unfold chopThread
      congr 1
      funext i
      induction (List.range n) with
      | nil => rfl
      | cons a l ih => simp [ih]
    rw [e, run_cells _ (fun q : ℕ × ℕ × ℕ => [(⟨q, fun _ => phase ((corner q.1).1 + q.2.1) ((corner q.1).2 + q.2.2)⟩ : Op (ℕ × ℕ × ℕ))]) id
      (fun q => phase ((corner q.1).1 + q.2.1) ((corner q.1).2 + q.2.2)) (fun k _ m => rfl)]
    simp only [List.map_id, List.mem_flatMap, List.mem_range, List.mem_map, Prod.mk.injEq]
    by_cases h : k < subs ∧ i < n ∧ j < n
    · rw [if_pos h, if_pos ⟨k, h.1, i, h.2.1, j, h.2.2, rfl, rfl, rfl⟩]
    · rw [if_neg h, if_neg]
      rintro ⟨a, ha, c, hc, d, hd, rfl, rfl, rfl⟩
      exact h ⟨ha, hc, hd⟩
  · intro i i' _ _ hne o ho p hp
    unfold chopThread at ho hp
    obtain ⟨j, _, ho⟩ := List.mem_flatMap.mp ho
    obtain ⟨j', _, hp⟩ := List.mem_flatMap.mp hp
    obtain ⟨l, _, rfl⟩ := List.mem_map.mp ho
    obtain ⟨l', _, rfl⟩ := List.mem_map.mp hp
    exact ⟨by simp [hne], fun _ _ => rfl, fun _ _ => rfl⟩

/-- **C39 (general).** Any kernel whose iterations write to different cells and read only what no other iteration writes gives the same memory for any two schedules. -/
theorem C39_schedule_independent {L : Type} [DecidableEq L] (n : ℕ) (threads : ℕ → List (Op L)) (t t' : List (ℕ × Op L)) (m : L → ℚ)
    (ht : Interleaving n threads t) (ht' : Interleaving n threads t')
    (hi : ∀ i j, i < n → j < n → i ≠ j → ∀ o ∈ threads i, ∀ p ∈ threads j, Indep o p) : exec m t = exec m t' := by
  rw [exec_seq n threads t m ht hi, exec_seq n threads t' m ht' hi]

/-- The hypothesis is needed: accumulating into one shared cell and reading it elsewhere depends on the schedule. -/
example : exec (L := ℕ) (fun _ => 1) [(0, ⟨0, fun m => m 1 + 1⟩), (1, ⟨1, fun m => m 0 + 1⟩)] 1 ≠
    exec (L := ℕ) (fun _ => 1) [(1, ⟨1, fun m => m 0 + 1⟩), (0, ⟨0, fun m => m 1 + 1⟩)] 1 := by decide +kernel

example : Interleaving 2 (mapThread 2 fun i j => 10 * i + j) [(1, ⟨(1, 0), fun _ => 10 * (1 : ℕ) + (0 : ℕ)⟩), (0, ⟨(0, 0), fun _ => 10 * (0 : ℕ) + (0 : ℕ)⟩),
    (1, ⟨(1, 1), fun _ => 10 * (1 : ℕ) + (1 : ℕ)⟩), (0, ⟨(0, 1), fun _ => 10 * (0 : ℕ) + (1 : ℕ)⟩)] := by
  intro i
  match i with
  | 0 => rfl
  | 1 => rfl
  | i + 2 => rw [if_neg (by omega)]; simp [proj]

end Soapy.Props
