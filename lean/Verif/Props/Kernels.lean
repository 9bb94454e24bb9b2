/-
C105: every way to bin, cut and place images gives the same.
-/
import Verif.Model.Kernels
import Verif.Props.Par
import Verif.Lemmas.Py

namespace Soapy.Props

open Soapy.Kernels Soapy.Par Soapy.Mirror

private theorem pyRound_nat (n : ℕ) : pyRound (n : ℚ) = n := by
  unfold pyRound
  simp

private theorem newSize_nat (size n : ℕ) (hn : 1 ≤ n) : newSize size (n : ℤ) = .ok (size / n) := by
  have h0 : ((n : ℕ) : ℤ) ≠ 0 := by omega
  have h1 : pyInt ((size : ℚ) / ((n : ℕ) : ℤ)) = ((size / n : ℕ) : ℤ) := by
    unfold pyInt
    rw [if_pos (by positivity)]
    have := Rat.floor_intCast_div_natCast (size : ℤ) n
    push_cast at this ⊢
    exact this
  unfold newSize
  rw [if_neg h0, h1, if_neg (not_lt.mpr (Int.natCast_nonneg _)), Int.toNat_natCast]

private theorem count_exact (k n i : ℕ) (hi : i < n) : sliceCount (k * n) i n = k := by
  unfold sliceCount
  rcases Nat.eq_zero_or_pos k with rfl | hk
  · simp only [Nat.zero_mul, Nat.zero_sub, Nat.zero_add]
    exact Nat.div_eq_of_lt (by omega)
  · have : n ≤ k * n := Nat.le_mul_of_pos_left n hk
    have e : k * n - i + n - 1 = (n - 1 - i) + n * k := by rw [Nat.mul_comm n k]; omega
    rw [e, Nat.add_mul_div_left _ _ (by omega), Nat.div_eq_of_lt (by omega)]
    omega

private theorem addSlices_exact (n k : ℕ) (a : Arr2) (ha : a.cols = k * n) :
    addSlices n k a = .ok ⟨a.rows, k, fun r j => ∑ i ∈ Finset.range n, a.px r (i + j * n)⟩ := by
  unfold addSlices
  have key : ∀ N, N ≤ n → (List.range N).foldlM (fun t i =>
      let c := sliceCount a.cols i n
      if c = k then Except.ok (ε := PyErr) (Arr2.mk a.rows k fun r j => t.px r j + a.px r (i + j * n))
      else if c = 1 then .ok ⟨a.rows, k, fun r j => t.px r j + a.px r i⟩
      else .error .valueError) ⟨a.rows, k, fun _ _ => 0⟩ = .ok ⟨a.rows, k, fun r j => ∑ i ∈ Finset.range N, a.px r (i + j * n)⟩ := by
    intro N
    induction N with
    | zero => intro _; simp; rfl
    | succ N ih =>
      intro hN
      rw [List.range_succ, List.foldlM_append, ih (by omega)]
      simp only [bind, Except.bind, List.foldlM_cons, List.foldlM_nil, ha, count_exact k n N (by omega), if_true, pure, Except.pure, Finset.sum_range_succ]
  exact key n le_rfl

private theorem addSlices_refused (n : ℕ) (a : Arr2) (hn : 1 ≤ n) (hc : n ≤ a.cols) (hd : ¬ n ∣ a.cols) : addSlices n (a.cols / n) a = .error .valueError := by
  have h : sliceCount a.cols 0 n = a.cols / n + 1 := by
    unfold sliceCount
    have e := Nat.div_add_mod a.cols n
    have hm : 0 < a.cols % n := Nat.pos_of_ne_zero fun h => hd (Nat.dvd_of_mod_eq_zero h)
    have hl := Nat.mod_lt a.cols (show 0 < n by omega)
    have : a.cols - 0 + n - 1 = (a.cols % n - 1) + n * (a.cols / n + 1) := by rw [Nat.mul_add]; omega
    rw [this, Nat.add_mul_div_left _ _ (by omega), Nat.div_eq_of_lt (by omega)]
    omega
  have h1 : 1 ≤ a.cols / n := Nat.div_pos hc (by omega)
  obtain ⟨N, rfl⟩ : ∃ N, n = N + 1 := ⟨n - 1, by omega⟩
  unfold addSlices
  rw [List.range_succ_eq_map, List.foldlM_cons]
  simp only [h]
  rw [if_neg (by omega), if_neg (by omega)]
  rfl

private theorem addSlices_small (n : ℕ) (a : Arr2) (hc : a.cols < n) : ∃ f, addSlices n 0 a = .ok ⟨a.rows, 0, f⟩ := by
  unfold addSlices
  have key : ∀ N, N ≤ n → ∃ f, (List.range N).foldlM (fun t i =>
      let c := sliceCount a.cols i n
      if c = 0 then Except.ok (ε := PyErr) (Arr2.mk a.rows 0 fun r j => t.px r j + a.px r (i + j * n))
      else if c = 1 then .ok ⟨a.rows, 0, fun r j => t.px r j + a.px r i⟩
      else .error .valueError) ⟨a.rows, 0, fun _ _ => 0⟩ = .ok ⟨a.rows, 0, f⟩ := by
    intro N
    induction N with
    | zero => intro _; exact ⟨_, rfl⟩
    | succ N ih =>
      intro hN
      obtain ⟨f, hf⟩ := ih (by omega)
      rw [List.range_succ, List.foldlM_append, hf]
      have h2 : sliceCount a.cols N n < 2 := by
        unfold sliceCount
        exact Nat.div_lt_of_lt_mul (by omega)
      simp only [bind, Except.bind, List.foldlM_cons, List.foldlM_nil, pure, Except.pure]
      rcases (show sliceCount a.cols N n = 0 ∨ sliceCount a.cols N n = 1 by omega) with h | h
      · simp only [h, if_true]; exact ⟨_, rfl⟩
      · simp only [h]; exact ⟨_, rfl⟩
  exact key n le_rfl

private theorem binImgs_unfold (a : Arr2) (n : ℕ) (hn : 1 ≤ n) :
    binImgs a n = (addSlices n (a.cols / n) a).bind fun t => (addSlices n (t.rows / n) (transpose t)).map transpose := by
  unfold binImgs
  rw [pyRound_nat]
  simp only [newSize_nat _ n hn, bind, Except.bind, Int.toNat_natCast, pure, Except.pure]
  cases addSlices n (a.cols / n) a with
  | error e => rfl
  | ok t =>
    simp only
    cases addSlices n (t.rows / n) (transpose t) <;> rfl

/-- When the factor divides both sizes, `binImgs` gives the sums of the `n × n` blocks, as `bin_img` does (`C37_bin_img`). -/
theorem C105_binImgs_partial (a : Arr2) (n : ℕ) (hn : 1 ≤ n) (hr : n ∣ a.rows) (hc : n ∣ a.cols) :
    ∃ u, binImgs a n = .ok u ∧ u.rows = a.rows / n ∧ u.cols = a.cols / n ∧ ∀ i j, u.px i j = ∑ x ∈ Finset.range n, ∑ y ∈ Finset.range n, a.px (i * n + x) (j * n + y) := by
  have e1 := addSlices_exact n (a.cols / n) a (Nat.div_mul_cancel hc).symm
  rw [binImgs_unfold a n hn, e1]
  simp only [Except.bind]
  have e2 := addSlices_exact n (a.rows / n) (transpose ⟨a.rows, a.cols / n, fun r j => ∑ i ∈ Finset.range n, a.px r (i + j * n)⟩) (Nat.div_mul_cancel hr).symm
  rw [e2]
  refine ⟨_, rfl, rfl, rfl, fun i j => ?_⟩
  simp only [transpose]
  apply Finset.sum_congr rfl
  intro x _
  apply Finset.sum_congr rfl
  intro y _
  rw [Nat.add_comm x, Nat.add_comm y]

/-- A factor that fits into a size but does not divide it is refused. -/
theorem C105_refused (a : Arr2) (n : ℕ) (hn : 1 ≤ n) (h : (n ≤ a.cols ∧ ¬ n ∣ a.cols) ∨ (n ≤ a.rows ∧ ¬ n ∣ a.rows)) : binImgs a n = .error .valueError := by
  rw [binImgs_unfold a n hn]
  by_cases h1 : n ≤ a.cols ∧ ¬ n ∣ a.cols
  · rw [addSlices_refused n a hn h1.1 h1.2]; rfl
  · have h2 : n ≤ a.rows ∧ ¬ n ∣ a.rows := h.resolve_left h1
    have : ∃ f c, addSlices n (a.cols / n) a = .ok ⟨a.rows, c, f⟩ := by
      by_cases hc : n ≤ a.cols
      · have hd : n ∣ a.cols := by by_contra hd; exact h1 ⟨hc, hd⟩
        exact ⟨_, _, addSlices_exact n (a.cols / n) a (Nat.div_mul_cancel hd).symm⟩
      · rw [Nat.div_eq_of_lt (by omega)]
        obtain ⟨f, hf⟩ := addSlices_small n a (by omega)
        exact ⟨f, 0, hf⟩
    obtain ⟨f, c, hf⟩ := this
    rw [hf]
    simp only [Except.bind]
    have e := addSlices_refused n (transpose ⟨a.rows, c, f⟩) hn h2.1 h2.2
    simp only [transpose] at e ⊢
    rw [e]
    rfl

/-- An image narrower than the factor becomes an image without columns, without complaint. -/
theorem C105_small (a : Arr2) (n : ℕ) (hc : a.cols < n) (hr : n ∣ a.rows ∨ a.rows < n) : ∃ u, binImgs a n = .ok u ∧ u.cols = 0 := by
  rw [binImgs_unfold a n (by omega), Nat.div_eq_of_lt hc]
  obtain ⟨f, hf⟩ := addSlices_small n a hc
  rw [hf]
  simp only [Except.bind]
  rcases hr with hr | hr
  · have e := addSlices_exact n (a.rows / n) (transpose ⟨a.rows, 0, f⟩) (Nat.div_mul_cancel hr).symm
    rw [e]
    exact ⟨_, rfl, rfl⟩
  · rw [Nat.div_eq_of_lt hr]
    obtain ⟨g, hg⟩ := addSlices_small n (transpose ⟨a.rows, 0, f⟩) hr
    rw [hg]
    exact ⟨_, rfl, rfl⟩

private theorem blocks (g : ℕ → ℚ) (n k : ℕ) : ∑ j ∈ Finset.range k, ∑ y ∈ Finset.range n, g (j * n + y) = ∑ c ∈ Finset.range (k * n), g c := by
  induction k with
  | zero => simp
  | succ k ih => rw [Finset.sum_range_succ, ih, Nat.succ_mul, Finset.sum_range_add]

/-- An image at least as large as the factor keeps its light or is refused. Missing: smaller images (`C105_small`). -/
theorem C105_light_partial (a u : Arr2) (n : ℕ) (hn : 1 ≤ n) (hr : n ≤ a.rows) (hc : n ≤ a.cols) (h : binImgs a n = .ok u) :
    ∑ i ∈ Finset.range u.rows, ∑ j ∈ Finset.range u.cols, u.px i j = ∑ i ∈ Finset.range a.rows, ∑ j ∈ Finset.range a.cols, a.px i j := by
  have d1 : n ∣ a.cols := by
    by_contra hd
    rw [C105_refused a n hn (Or.inl ⟨hc, hd⟩)] at h
    cases h
  have d2 : n ∣ a.rows := by
    by_contra hd
    rw [C105_refused a n hn (Or.inr ⟨hr, hd⟩)] at h
    cases h
  obtain ⟨v, hv, e1, e2, e3⟩ := C105_binImgs_partial a n hn d2 d1
  rw [hv] at h
  cases h
  simp only [e1, e2, e3]
  calc ∑ i ∈ Finset.range (a.rows / n), ∑ j ∈ Finset.range (a.cols / n), ∑ x ∈ Finset.range n, ∑ y ∈ Finset.range n, a.px (i * n + x) (j * n + y)
      = ∑ i ∈ Finset.range (a.rows / n), ∑ x ∈ Finset.range n, ∑ j ∈ Finset.range (a.cols / n), ∑ y ∈ Finset.range n, a.px (i * n + x) (j * n + y) :=
        Finset.sum_congr rfl fun i _ => Finset.sum_comm
    _ = ∑ i ∈ Finset.range (a.rows / n), ∑ x ∈ Finset.range n, ∑ c ∈ Finset.range a.cols, a.px (i * n + x) c := by
        refine Finset.sum_congr rfl fun i _ => Finset.sum_congr rfl fun x _ => ?_
        rw [blocks (a.px (i * n + x)) n (a.cols / n), Nat.div_mul_cancel d1]
    _ = _ := by
        rw [blocks (fun r => ∑ c ∈ Finset.range a.cols, a.px r c) n (a.rows / n), Nat.div_mul_cancel d2]

/-- A negative factor is refused, unless it is larger than the image. -/
theorem C105_negative (a : Arr2) (n : ℕ) (hn : 1 ≤ n) (hc : n ≤ a.cols) : binImgs a (-(n : ℚ)) = .error .valueError := by
  have e : pyRound (-(n : ℚ)) = -(n : ℤ) := by
    have := pyRound_int (-(n : ℤ))
    push_cast at this
    exact this
  have h1 : pyInt ((a.cols : ℚ) / ((-(n : ℤ) : ℤ) : ℚ)) < 0 := by
    have hq : (a.cols : ℚ) / ((-(n : ℤ) : ℤ) : ℚ) ≤ -1 := by
      have : (0 : ℚ) < n := by exact_mod_cast hn
      have h2 : (n : ℚ) ≤ a.cols := by exact_mod_cast hc
      push_cast
      rw [div_neg, neg_le_neg_iff, le_div_iff₀ this]
      linarith
    unfold pyInt
    rw [if_neg (by linarith)]
    have : ⌈(a.cols : ℚ) / ((-(n : ℤ) : ℤ) : ℚ)⌉ ≤ -1 := Int.ceil_le.mpr (by push_cast at hq ⊢; exact hq)
    omega
  unfold binImgs
  simp only [e, bind, Except.bind]
  unfold newSize
  rw [if_neg (by omega), if_pos h1]

/-- The factor is rounded to the nearest integer, halves to the even one; zero is refused. -/
theorem C105_factor (a : Arr2) (q : ℚ) : binImgs a q = binImgs a (pyRound q : ℤ) ∧ (pyRound q = 0 → ∃ e, binImgs a q = .error e) := by
  constructor
  · unfold binImgs
    have : pyRound ((pyRound q : ℤ) : ℚ) = pyRound q := by
      generalize pyRound q = z
      unfold pyRound
      simp
    rw [this]
  · intro h
    unfold binImgs
    rw [h]
    by_cases hc : a.cols = 0
    · exact ⟨.valueError, by simp [newSize, hc, bind, Except.bind]⟩
    · exact ⟨.overflowError, by simp [newSize, hc, bind, Except.bind]⟩

private theorem seq_flat {L : Type} [DecidableEq L] (th : ℕ → List (Op L)) (n : ℕ) (m : L → ℚ) :
    (List.range n).foldl (fun m i => run m (th i)) m = run m ((List.range n).flatMap th) := by
  generalize List.range n = l
  induction l generalizing m with
  | nil => rfl
  | cons i l ih =>
    rw [List.foldl_cons, ih, List.flatMap_cons]
    unfold run
    rw [List.foldl_append]

private theorem seq_trace {L : Type} [DecidableEq L] (n : ℕ) (th : ℕ → List (Op L)) : ∃ t : List (ℕ × Op L), Interleaving n th t ∧ t.map Prod.snd = (List.range n).flatMap th := by
  refine ⟨(List.range n).flatMap fun i => (th i).map fun o => (i, o), ?_, ?_⟩
  · intro i
    unfold proj
    induction n with
    | zero => simp
    | succ n ih =>
      rw [List.range_succ, List.flatMap_append, List.filter_append, List.map_append, ih]
      simp only [List.flatMap_cons, List.flatMap_nil, List.append_nil, List.filter_map, List.map_map]
      by_cases h : n = i
      · subst h
        have : List.filter ((fun p : ℕ × Op L => decide (p.1 = n)) ∘ fun o => (n, o)) (th n) = th n := by simp [Function.comp_def]
        rw [this]
        simp [Function.comp_def]
      · have : List.filter ((fun p : ℕ × Op L => decide (p.1 = i)) ∘ fun o => (n, o)) (th n) = [] := by simp [Function.comp_def, h]
        rw [this]
        by_cases h2 : i < n
        · simp [h2, Nat.lt_succ_of_lt h2]
        · simp [h2, show ¬ i < n + 1 by omega]
  · rw [List.map_flatMap]
    simp [Function.comp_def]

private theorem seq_exec {L : Type} [DecidableEq L] (n : ℕ) (th : ℕ → List (Op L)) (m : L → ℚ) :
    ∃ t : List (ℕ × Op L), Interleaving n th t ∧ (List.range n).foldl (fun m i => run m (th i)) m = exec m t := by
  obtain ⟨t, ht, e⟩ := seq_trace n th
  exact ⟨t, ht, by rw [seq_flat, exec, e]⟩

/-- The plain versions of binning and cutting give what the compiled ones give under every schedule. -/
theorem C105_slow (img phase : ℕ → ℕ → ℚ) (imgs : ℕ → ℕ → ℕ → ℚ) (corner : ℕ → ℕ × ℕ) (b n rows cols : ℕ) (m : ℕ × ℕ → ℚ) (m3 : ℕ × ℕ × ℕ → ℚ) :
    (∀ t, Interleaving rows (binThread img b cols) t → binImgSlow img b rows cols m = exec m t) ∧
    (∀ t, Interleaving n (binImgsThread imgs b rows cols) t → binImgsSlow imgs b n rows cols m3 = exec m3 t) ∧
    (∀ t, Interleaving n (chopThread phase corner b) t → chopSlow phase corner b n m3 = exec m3 t) := by
  refine ⟨fun t ht => ?_, fun t ht => ?_, fun t ht => ?_⟩
  · obtain ⟨t', ht', e⟩ := seq_exec rows (binThread img b cols) m
    rw [binImgSlow, e]
    funext ⟨i, j⟩
    rw [C37_bin_img img b rows cols t' ht' m i j, C37_bin_img img b rows cols t ht m i j]
  · obtain ⟨t', ht', e⟩ := seq_exec n (binImgsThread imgs b rows cols) m3
    rw [binImgsSlow, e]
    funext ⟨k, i, j⟩
    rw [C37_bin_imgs imgs b n rows cols t' ht' m3 k i j, C37_bin_imgs imgs b n rows cols t ht m3 k i j]
  · obtain ⟨t', ht', e⟩ := seq_exec n (chopThread phase corner b) m3
    rw [chopSlow, e]
    funext ⟨k, i, j⟩
    rw [C39_chop phase corner b n t' ht' m3 k i j, C39_chop phase corner b n t ht m3 k i j]

private theorem place_out (ws : List Window) (det : ℕ → ℕ → ℚ) (r c : ℕ) (h : ∀ w ∈ ws, ¬ w.has r c) : placeFast det ws r c = det r c ∧ placeSlow det ws r c = det r c := by
  induction ws generalizing det with
  | nil => exact ⟨rfl, rfl⟩
  | cons w ws ih =>
    have hw := h w List.mem_cons_self
    obtain ⟨e1, e2⟩ := ih (fun r c => if w.has r c then det r c + w.img (r - w.x1) (c - w.y1) else det r c) (fun w hw => h w (List.mem_cons_of_mem _ hw))
    obtain ⟨e3, e4⟩ := ih (fun r c => if w.has r c then w.img (r - w.x1) (c - w.y1) else det r c) (fun w hw => h w (List.mem_cons_of_mem _ hw))
    unfold placeFast placeSlow at *
    rw [List.foldl_cons, List.foldl_cons, e1, e4]
    simp [hw]

/-- Placing on a dark detector: both versions give the same when no pixel is in two windows.  Missing: light on the detector from before and windows that overlap (`C105_violated`). -/
theorem C105_place_partial (ws : List Window) (hd : ws.Pairwise fun v w => ∀ r c, ¬ (v.has r c ∧ w.has r c)) : placeSlow (fun _ _ => 0) ws = placeFast (fun _ _ => 0) ws := by
  have key : ∀ (ws : List Window) (d e : ℕ → ℕ → ℚ) (r c : ℕ), d r c = e r c → (∀ w ∈ ws, w.has r c → d r c = 0) → ws.Pairwise (fun v w => ∀ r c, ¬ (v.has r c ∧ w.has r c)) →
      placeSlow d ws r c = placeFast e ws r c := by
    intro ws
    induction ws with
    | nil => intro d e r c h _ _; exact h
    | cons w ws ih =>
      intro d e r c h h0 hp
      rw [List.pairwise_cons] at hp
      have s1 : placeSlow d (w :: ws) = placeSlow (fun r c => if w.has r c then w.img (r - w.x1) (c - w.y1) else d r c) ws := rfl
      have s2 : placeFast e (w :: ws) = placeFast (fun r c => if w.has r c then e r c + w.img (r - w.x1) (c - w.y1) else e r c) ws := rfl
      rw [s1, s2]
      by_cases hw : w.has r c
      · have ho : ∀ v ∈ ws, ¬ v.has r c := fun v hv hh => hp.1 v hv r c ⟨hw, hh⟩
        rw [(place_out ws _ r c ho).2, (place_out ws _ r c ho).1]
        simp only [if_pos hw]
        rw [← h, h0 w List.mem_cons_self hw, zero_add]
      · apply ih _ _ r c
        · simp only [if_neg hw, h]
        · intro v hv hh
          simp only [if_neg hw]
          exact h0 v (List.mem_cons_of_mem _ hv) hh
        · exact hp.2
  funext r c
  exact key ws _ _ r c rfl (fun _ _ _ => rfl) hd

/-- What placing does to one pixel: it receives the light of every window which covers it in both directions, and of no other. -/
theorem C105_light (ws : List Window) (det : ℕ → ℕ → ℚ) (r c : ℕ) :
    placeFast det ws r c = det r c + (ws.map fun w => if w.x1 ≤ r ∧ r < w.x2 ∧ w.y1 ≤ c ∧ c < w.y2 then w.img (r - w.x1) (c - w.y1) else 0).sum := by
  induction ws generalizing det with
  | nil => simp [placeFast]
  | cons w ws ih =>
    have s : placeFast det (w :: ws) = placeFast (fun r c => if w.has r c then det r c + w.img (r - w.x1) (c - w.y1) else det r c) ws := rfl
    rw [s, ih]
    simp only [Window.has, List.map_cons, List.sum_cons, and_assoc]
    split_ifs with h
    · rw [add_assoc]
    · rw [zero_add]

example : placeFast (fun _ _ => 0) [⟨0, 2, 0, 2, fun _ _ => 1⟩, ⟨1, 3, 1, 3, fun _ _ => 5⟩] 1 1 = 6 := by
  rw [C105_light]; norm_num

/-- Binning can lose all light without complaint, the plain version of placing forgets light where windows overlap and light from before, and cutting fields never works. -/
theorem C105_violated :
    (∃ (a : Arr2) (u : Arr2), binImgs a 3 = .ok u ∧ u.cols = 0 ∧ ∑ i ∈ Finset.range a.rows, ∑ j ∈ Finset.range a.cols, a.px i j ≠ 0) ∧
    (∃ (v w : Window), placeSlow (fun _ _ => 0) [v, w] ≠ placeFast (fun _ _ => 0) [v, w]) ∧ (∃ (w : Window), placeSlow (fun _ _ => 1) [w] ≠ placeFast (fun _ _ => 1) [w]) ∧
    ∀ phase corner n subs, ∃ e, chopEfield phase corner n subs = .error e := by
  refine ⟨?_, ⟨⟨0, 2, 0, 2, fun _ _ => 1⟩, ⟨1, 3, 1, 3, fun _ _ => 1⟩, fun h => ?_⟩, ⟨⟨0, 1, 0, 1, fun _ _ => 1⟩, fun h => ?_⟩, fun _ _ _ _ => ⟨_, rfl⟩⟩
  · obtain ⟨u, h1, h2⟩ := C105_small ⟨3, 2, fun _ _ => 1⟩ 3 (by decide) (Or.inl (by decide))
    exact ⟨⟨3, 2, fun _ _ => 1⟩, u, by exact_mod_cast h1, h2, by simp⟩
  · have := congrFun (congrFun h 1) 1
    simp [placeSlow, placeFast, Window.has] at this
  · have := congrFun (congrFun h 0) 0
    simp [placeSlow, placeFast, Window.has] at this

example : ∃ u, binImgs ⟨4, 6, fun i j => i + 10 * j⟩ (5 / 2) = .ok u ∧ u.px 1 2 = 2 + 3 + 2 + 3 + 2 * 40 + 2 * 50 := by
  rw [(C105_factor _ _).1, show pyRound (5 / 2) = ((2 : ℕ) : ℤ) by decide +kernel]
  obtain ⟨u, h, -, -, e⟩ := C105_binImgs_partial ⟨4, 6, fun i j => i + 10 * j⟩ 2 (by decide) (by decide) (by decide)
  refine ⟨u, by exact_mod_cast h, ?_⟩
  rw [e]
  norm_num [Finset.sum_range_succ]

example : List.Pairwise (fun v w : Window => ∀ r c, ¬ (v.has r c ∧ w.has r c)) [⟨0, 2, 0, 2, fun _ _ => 1⟩, ⟨2, 4, 0, 2, fun _ _ => 3⟩] := by
  simp [Window.has]
  omega

end Soapy.Props
