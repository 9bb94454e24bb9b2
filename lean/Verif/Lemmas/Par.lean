/-
Helper lemmas about interleavings.
-/
import Verif.Model.Par
import Mathlib.Algebra.BigOperators.Group.Finset.Basic
import Mathlib.Algebra.BigOperators.Intervals
import Mathlib.Data.List.Nodup

namespace Soapy.Par

variable {L : Type} [DecidableEq L]

/-- Two stores that do not interfere: different targets, and neither reads the target of the other. -/
def Indep (o p : Op L) : Prop :=
  o.dst ≠ p.dst ∧ (∀ m v, o.val (Function.update m p.dst v) = o.val m) ∧ (∀ m v, p.val (Function.update m o.dst v) = p.val m)

theorem Indep.comm {o p : Op L} (h : Indep o p) (m : L → ℚ) : o.run (p.run m) = p.run (o.run m) := by
  obtain ⟨h1, h2, h3⟩ := h
  unfold Op.run
  rw [h2, h3, Function.update_comm h1]

omit [DecidableEq L] in
theorem proj_cons (i : ℕ) (p : ℕ × Op L) (t : List (ℕ × Op L)) :
    proj i (p :: t) = if p.1 = i then p.2 :: proj i t else proj i t := by
  unfold proj
  by_cases h : p.1 = i <;> simp [h]

omit [DecidableEq L] in
theorem proj_append (i : ℕ) (s t : List (ℕ × Op L)) : proj i (s ++ t) = proj i s ++ proj i t := by simp [proj]

omit [DecidableEq L] in
theorem mem_of_proj (i : ℕ) (o : Op L) (t : List (ℕ × Op L)) (h : o ∈ proj i t) : (i, o) ∈ t := by
  unfold proj at h
  rw [List.mem_map] at h
  obtain ⟨⟨a, b⟩, h1, h2⟩ := h
  rw [List.mem_filter] at h1
  obtain ⟨h3, h4⟩ := h1
  simp at h4 h2
  subst h4 h2
  exact h3

omit [DecidableEq L] in
theorem proj_mem (p : ℕ × Op L) (t : List (ℕ × Op L)) (h : p ∈ t) : p.2 ∈ proj p.1 t := by
  unfold proj
  rw [List.mem_map]
  exact ⟨p, by simp [h], rfl⟩

omit [DecidableEq L] in
theorem split_first (i : ℕ) (o : Op L) (rest : List (Op L)) (t : List (ℕ × Op L)) (h : proj i t = o :: rest) :
    ∃ pre post, t = pre ++ (i, o) :: post ∧ ∀ q ∈ pre, q.1 ≠ i := by
  induction t with
  | nil => simp [proj] at h
  | cons p t ih =>
    rw [proj_cons] at h
    by_cases hp : p.1 = i
    · rw [if_pos hp] at h
      injection h with h1 h2
      exact ⟨[], t, by simp [← h1, ← hp], by simp⟩
    · rw [if_neg hp] at h
      obtain ⟨pre, post, e, hq⟩ := ih h
      refine ⟨p :: pre, post, by rw [e]; rfl, ?_⟩
      intro q hq'
      rcases List.mem_cons.mp hq' with rfl | h'
      · exact hp
      · exact hq q h'

theorem exec_cons (m : L → ℚ) (p : ℕ × Op L) (t : List (ℕ × Op L)) : exec m (p :: t) = exec (p.2.run m) t := rfl

theorem exec_append (m : L → ℚ) (s t : List (ℕ × Op L)) : exec m (s ++ t) = exec (exec m s) t := by
  simp [exec, run, List.foldl_append]

theorem exec_move (m : L → ℚ) (p : ℕ × Op L) (pre post : List (ℕ × Op L)) (h : ∀ q ∈ pre, Indep p.2 q.2) :
    exec m (pre ++ p :: post) = exec m (p :: (pre ++ post)) := by
  induction pre generalizing m with
  | nil => rfl
  | cons q pre ih =>
    have hq := h q (by simp)
    rw [List.cons_append, exec_cons, ih _ (fun r hr => h r (by simp [hr])), exec_cons, exec_cons, List.cons_append, exec_cons, hq.comm]

/-- Two traces with the same threads have the same effect if stores of different threads do not interfere. -/
theorem exec_unique (t1 t2 : List (ℕ × Op L)) (m : L → ℚ) (hp : ∀ i, proj i t1 = proj i t2)
    (hi : ∀ p ∈ t1, ∀ q ∈ t1, p.1 ≠ q.1 → Indep p.2 q.2) : exec m t1 = exec m t2 := by
  induction t1 generalizing t2 m with
  | nil =>
    cases t2 with
    | nil => rfl
    | cons q t2 =>
      have := hp q.1
      rw [proj_cons, if_pos rfl] at this
      simp [proj] at this
  | cons p t1 ih =>
    have h1 : proj p.1 t2 = p.2 :: proj p.1 t1 := by rw [← hp p.1, proj_cons, if_pos rfl]
    obtain ⟨pre, post, e, hq⟩ := split_first _ _ _ _ h1
    have hpre : ∀ q ∈ pre, Indep p.2 q.2 := by
      intro q hqm
      have hq2 : q ∈ t2 := by rw [e]; simp [hqm]
      have : q.2 ∈ proj q.1 (p :: t1) := by rw [hp]; exact proj_mem q t2 hq2
      have := mem_of_proj _ _ _ this
      exact hi p (by simp) q this (fun h => hq q hqm h.symm)
    rw [e, exec_move m (p.1, p.2) pre post hpre, exec_cons, exec_cons]
    apply ih
    · intro i
      have := hp i
      rw [e, proj_cons, proj_append, proj_cons] at this
      rw [proj_append]
      by_cases hpi : p.1 = i
      · rw [if_pos hpi, if_pos hpi] at this
        have hnil : proj i pre = [] := by
          by_contra hne
          obtain ⟨o, ho⟩ := List.exists_mem_of_ne_nil _ hne
          exact hq _ (mem_of_proj _ _ _ ho) hpi.symm
        rw [hnil] at this ⊢
        simpa using this
      · rw [if_neg hpi, if_neg hpi] at this
        exact this
    · intro a ha b hb
      exact hi a (by simp [ha]) b (by simp [hb])

/-- The trace that runs the threads one after the other. -/
def seqTrace (n : ℕ) (threads : ℕ → List (Op L)) : List (ℕ × Op L) :=
  (List.range n).flatMap fun i => (threads i).map fun o => (i, o)

omit [DecidableEq L] in
theorem seq_interleaving (n : ℕ) (threads : ℕ → List (Op L)) : Interleaving n threads (seqTrace n threads) := by
  intro i
  induction n with
  | zero => simp [seqTrace, proj]
  | succ n ih =>
    have e : seqTrace (n + 1) threads = seqTrace n threads ++ (threads n).map fun o => (n, o) := by
      simp [seqTrace, List.range_succ, List.flatMap_append]
    rw [e, proj_append, ih]
    have p : ∀ l : List (Op L), proj i (l.map fun o => (n, o)) = if n = i then l else [] := by
      intro l
      induction l with
      | nil => simp [proj]
      | cons a l ih =>
        rw [List.map_cons, proj_cons, ih]
        by_cases h : n = i <;> simp [h]
    rw [p]
    by_cases h1 : i < n
    · rw [if_pos h1, if_neg (by omega), if_pos (by omega)]; simp
    · rw [if_neg h1]
      by_cases h2 : n = i
      · subst h2; simp
      · rw [if_neg h2, if_neg (by omega)]; rfl

omit [DecidableEq L] in
theorem seq_ops (n : ℕ) (threads : ℕ → List (Op L)) :
    (seqTrace n threads).map Prod.snd = (List.range n).flatMap threads := by
  simp [seqTrace, List.map_flatMap, Function.comp_def]

/-- Every interleaving of non-interfering threads has the effect of running them one after the other. -/
theorem exec_seq (n : ℕ) (threads : ℕ → List (Op L)) (t : List (ℕ × Op L)) (m : L → ℚ) (ht : Interleaving n threads t)
    (hi : ∀ i j, i < n → j < n → i ≠ j → ∀ o ∈ threads i, ∀ p ∈ threads j, Indep o p) :
    exec m t = run m ((List.range n).flatMap threads) := by
  rw [← seq_ops]
  apply exec_unique
  · intro i; rw [ht i, seq_interleaving n threads i]
  · intro p hp q hq hne
    have h1 := proj_mem p t hp
    have h2 := proj_mem q t hq
    rw [ht] at h1 h2
    split_ifs at h1 with c1
    · split_ifs at h2 with c2
      · exact hi _ _ c1 c2 hne _ h1 _ h2
      · cases h2
    · cases h1

theorem run_append (m : L → ℚ) (a b : List (Op L)) : run m (a ++ b) = run (run m a) b := by simp [run, List.foldl_append]

/-- Blocks that each overwrite one cell with a value that does not depend on the memory. -/
theorem run_cells {K : Type} (ks : List K) (B : K → List (Op L)) (key : K → L) (v : L → ℚ)
    (hB : ∀ k ∈ ks, ∀ m : L → ℚ, run m (B k) = Function.update m (key k) (v (key k))) (m : L → ℚ) (l : L) :
    run m (ks.flatMap B) l = if l ∈ ks.map key then v l else m l := by
  induction ks generalizing m with
  | nil => simp [run]
  | cons k ks ih =>
    rw [List.flatMap_cons, run_append, hB k (by simp), ih (fun k' h => hB k' (by simp [h]))]
    by_cases h1 : l ∈ ks.map key
    · rw [if_pos h1, if_pos (by rw [List.map_cons]; exact List.mem_cons_of_mem _ h1)]
    · rw [if_neg h1]
      by_cases h2 : l = key k
      · subst h2; simp
      · rw [Function.update_of_ne h2, if_neg (by rw [List.map_cons, List.mem_cons]; tauto)]

theorem run_accum (key : L) (vs : List ℚ) (m : L → ℚ) :
    run m (vs.map fun v => (⟨key, fun m => m key + v⟩ : Op L)) = Function.update m key (m key + vs.sum) := by
  induction vs generalizing m with
  | nil => simp [run]
  | cons v vs ih =>
    rw [List.map_cons]
    show run (Op.run _ m) _ = _
    rw [ih]
    simp only [Op.run, Function.update_self, Function.update_idem, List.sum_cons]
    rw [add_assoc]

/-- The value of one detector element. -/
def blockSum (img : ℕ → ℕ → ℚ) (b i j : ℕ) : ℚ :=
  ∑ x ∈ Finset.range b, ∑ y ∈ Finset.range b, img (i * b + x) (j * b + y)

theorem list_sum_range (n : ℕ) (f : ℕ → ℚ) : ((List.range n).map f).sum = ∑ x ∈ Finset.range n, f x := by
  induction n with
  | zero => simp
  | succ n ih => simp [List.range_succ, Finset.sum_range_succ, ih]

theorem run_binCell (key : L) (img : ℕ → ℕ → ℚ) (b i j : ℕ) (m : L → ℚ) :
    run m (binCell key img b i j) = Function.update m key (blockSum img b i j) := by
  have e : ((List.range b).flatMap fun x => (List.range b).map fun y => (⟨key, fun m => m key + img (i * b + x) (j * b + y)⟩ : Op L)) =
      ((List.range b).flatMap fun x => (List.range b).map fun y => img (i * b + x) (j * b + y)).map
        fun v => (⟨key, fun m => m key + v⟩ : Op L) := by
    simp [List.map_flatMap, Function.comp_def]
  have s : ((List.range b).flatMap fun x => (List.range b).map fun y => img (i * b + x) (j * b + y)).sum = blockSum img b i j := by
    rw [List.flatMap, List.sum_flatten, List.map_map]
    unfold blockSum
    simp only [← list_sum_range]
    rfl
  unfold binCell
  show run (Op.run _ m) _ = _
  rw [e, run_accum, s]
  simp [Op.run]

omit [DecidableEq L] in
theorem binCell_dst (key : L) (img : ℕ → ℕ → ℚ) (b i j : ℕ) (o : Op L) (h : o ∈ binCell key img b i j) :
    o.dst = key ∧ ∀ m m' : L → ℚ, m key = m' key → o.val m = o.val m' := by
  unfold binCell at h
  rcases List.mem_cons.mp h with rfl | h
  · exact ⟨rfl, fun _ _ _ => rfl⟩
  · rw [List.mem_flatMap] at h
    obtain ⟨x, _, h⟩ := h
    obtain ⟨y, _, rfl⟩ := List.mem_map.mp h
    exact ⟨rfl, fun m m' e => by simp only; rw [e]⟩

/-- Stores confined to cells of their own do not interfere. -/
theorem indep_of_own (o p : Op L) (ko kp : L) (hk : ko ≠ kp) (ho : o.dst = ko ∧ ∀ m m' : L → ℚ, m ko = m' ko → o.val m = o.val m')
    (hp : p.dst = kp ∧ ∀ m m' : L → ℚ, m kp = m' kp → p.val m = p.val m') : Indep o p := by
  obtain ⟨rfl, h2⟩ := ho
  obtain ⟨rfl, h4⟩ := hp
  exact ⟨hk, fun m v => h2 _ _ (Function.update_of_ne hk _ _), fun m v => h4 _ _ (Function.update_of_ne hk.symm _ _)⟩

/-! ### In-place shift -/

/-- Quadrant exchange of the first `2h × 2w` elements. -/
def swapIdx (h i : ℕ) : ℕ := if i < h then i + h else if i < 2 * h then i - h else i

/-- The corner of the group of four elements to which `(i, j)` belongs. -/
def baseIdx (h i : ℕ) : ℕ := if i < h then i else i - h

set_option linter.unusedSimpArgs false in
theorem run_shiftCell (h w x y : ℕ) (hx : x < h) (hy : y < w) (m : Loc → ℚ) (i j : ℕ) :
    run m (shiftCell h w x y) (.px i j) =
      if i < 2 * h ∧ j < 2 * w ∧ baseIdx h i = x ∧ baseIdx w j = y then m (.px (swapIdx h i) (swapIdx w j)) else m (.px i j) := by
  simp only [shiftCell, run, List.foldl_cons, List.foldl_nil, Op.run]
  have ne1 : ∀ a b c, Loc.px a b ≠ Loc.tmp c := by intros; simp
  have ne2 : ∀ a b c, Loc.tmp c ≠ Loc.px a b := by intros; simp
  have ne3 : (Loc.px (x + h) y) ≠ .px (x + h) (y + w) := by simp; omega
  have ne4 : (Loc.px (x + h) y) ≠ .px x y := by simp; omega
  have ne5 : (Loc.px x (y + w)) ≠ .px (x + h) (y + w) := by simp; omega
  have ne6 : (Loc.px x (y + w)) ≠ .px x y := by simp; omega
  have ne7 : (Loc.px x (y + w)) ≠ .px (x + h) y := by simp; omega
  have ne8 : (Loc.px (x + h) (y + w)) ≠ .px x y := by simp; omega
  by_cases hc : i < 2 * h ∧ j < 2 * w ∧ baseIdx h i = x ∧ baseIdx w j = y
  · rw [if_pos hc]
    obtain ⟨a1, a2, a3, a4⟩ := hc
    unfold baseIdx at a3 a4
    unfold swapIdx
    by_cases c1 : i < h
    · rw [if_pos c1] at a3 ⊢
      subst a3
      by_cases c2 : j < w
      · rw [if_pos c2] at a4 ⊢
        subst a4
        simp [Function.update_apply, ne1, ne2, ne3.symm, ne4.symm, ne5.symm, ne6.symm, ne7, ne8]
        omega
      · rw [if_neg c2] at a4 ⊢
        rw [if_pos a2]
        obtain ⟨j', rfl⟩ : ∃ j', j = j' + w := ⟨j - w, by omega⟩
        have : j' = y := by omega
        subst this
        simp [Function.update_apply, ne1, ne2, ne3, ne4, ne5, ne6, ne7, ne8]
        try omega
    · rw [if_neg c1] at a3 ⊢
      rw [if_pos a1]
      obtain ⟨i', rfl⟩ : ∃ i', i = i' + h := ⟨i - h, by omega⟩
      have : i' = x := by omega
      subst this
      by_cases c2 : j < w
      · rw [if_pos c2] at a4 ⊢
        subst a4
        simp [Function.update_apply, ne1, ne2, ne3, ne4, ne5, ne6, ne7, ne8]
        try omega
      · rw [if_neg c2] at a4 ⊢
        rw [if_pos a2]
        obtain ⟨j', rfl⟩ : ∃ j', j = j' + w := ⟨j - w, by omega⟩
        have : j' = y := by omega
        subst this
        simp [Function.update_apply, ne1, ne2, ne3.symm, ne4.symm, ne5.symm, ne6.symm, ne7, ne8]
        try omega
  · rw [if_neg hc]
    have g1 : Loc.px i j ≠ .px x y := by
      rintro h; injection h with h1 h2; apply hc; subst h1 h2; simp [baseIdx, hx, hy]; omega
    have g2 : Loc.px i j ≠ .px (x + h) (y + w) := by
      rintro h; injection h with h1 h2; apply hc; subst h1 h2; simp [baseIdx]; omega
    have g3 : Loc.px i j ≠ .px (x + h) y := by
      rintro h; injection h with h1 h2; apply hc; subst h1 h2; simp [baseIdx, hy]; omega
    have g4 : Loc.px i j ≠ .px x (y + w) := by
      rintro h; injection h with h1 h2; apply hc; subst h1 h2; simp [baseIdx, hx]; omega
    rw [Function.update_of_ne g4, Function.update_of_ne g3, Function.update_of_ne (ne1 _ _ _), Function.update_of_ne g2,
      Function.update_of_ne g1, Function.update_of_ne (ne1 _ _ _)]

theorem run_shiftCells (h w : ℕ) (ks : List (ℕ × ℕ)) (hk : ∀ k ∈ ks, k.1 < h ∧ k.2 < w) (hn : ks.Nodup) (m : Loc → ℚ) (i j : ℕ) :
    run m (ks.flatMap fun k => shiftCell h w k.1 k.2) (.px i j) =
      if i < 2 * h ∧ j < 2 * w ∧ (baseIdx h i, baseIdx w j) ∈ ks then m (.px (swapIdx h i) (swapIdx w j)) else m (.px i j) := by
  induction ks generalizing m with
  | nil => simp [run]
  | cons k ks ih =>
    obtain ⟨hx, hy⟩ := hk k (by simp)
    rw [List.flatMap_cons, run_append, ih (fun k h => hk k (by simp [h])) (List.nodup_cons.mp hn).2]
    have hb : ∀ h i : ℕ, i < 2 * h → swapIdx h i < 2 * h ∧ baseIdx h (swapIdx h i) = baseIdx h i := by
      intro h i hi
      unfold swapIdx baseIdx
      split_ifs <;> omega
    rw [run_shiftCell h w _ _ hx hy, run_shiftCell h w _ _ hx hy]
    by_cases c1 : i < 2 * h
    · by_cases c2 : j < 2 * w
      · obtain ⟨b1, b2⟩ := hb h i c1
        obtain ⟨b3, b4⟩ := hb w j c2
        rw [b2, b4]
        simp only [c1, c2, b1, b3, true_and]
        by_cases c3 : (baseIdx h i, baseIdx w j) ∈ ks
        · have hne : ¬ (baseIdx h i = k.1 ∧ baseIdx w j = k.2) := by
            rintro ⟨e1, e2⟩
            apply (List.nodup_cons.mp hn).1
            rw [e1, e2] at c3
            exact c3
          rw [if_pos c3, if_neg hne, if_pos (List.mem_cons_of_mem _ c3)]
        · rw [if_neg c3]
          by_cases c4 : baseIdx h i = k.1 ∧ baseIdx w j = k.2
          · rw [if_pos c4, if_pos]
            rw [c4.1, c4.2]; exact List.mem_cons_self
          · rw [if_neg c4, if_neg]
            intro hm
            rcases List.mem_cons.mp hm with hm | hm
            · apply c4
              rw [← hm]; exact ⟨rfl, rfl⟩
            · exact c3 hm
      · simp [c2]
    · simp [c1]

/-- Which cells a store of iteration `x` touches. -/
theorem shiftCell_own (h w x y : ℕ) (o : Op Loc) (ho : o ∈ shiftCell h w x y) :
    (o.dst = .tmp x ∨ (∃ j, o.dst = .px x j) ∨ ∃ j, o.dst = .px (x + h) j) ∧
    ∀ m m' : Loc → ℚ, m (.tmp x) = m' (.tmp x) → (∀ j, m (.px x j) = m' (.px x j)) → (∀ j, m (.px (x + h) j) = m' (.px (x + h) j)) →
      o.val m = o.val m' := by
  simp only [shiftCell, List.mem_cons, List.not_mem_nil, or_false] at ho
  rcases ho with rfl | rfl | rfl | rfl | rfl | rfl
  · exact ⟨Or.inl rfl, fun _ _ _ b _ => b _⟩
  · exact ⟨Or.inr (Or.inl ⟨_, rfl⟩), fun _ _ _ _ c => c _⟩
  · exact ⟨Or.inr (Or.inr ⟨_, rfl⟩), fun _ _ a _ _ => a⟩
  · exact ⟨Or.inl rfl, fun _ _ _ _ c => c _⟩
  · exact ⟨Or.inr (Or.inr ⟨_, rfl⟩), fun _ _ _ b _ => b _⟩
  · exact ⟨Or.inr (Or.inl ⟨_, rfl⟩), fun _ _ a _ _ => a⟩

theorem shift_indep (h w x x' y y' : ℕ) (hx : x < h) (hx' : x' < h) (hne : x ≠ x') (o p : Op Loc)
    (ho : o ∈ shiftCell h w x y) (hp : p ∈ shiftCell h w x' y') : Indep o p := by
  obtain ⟨d1, v1⟩ := shiftCell_own _ _ _ _ _ ho
  obtain ⟨d2, v2⟩ := shiftCell_own _ _ _ _ _ hp
  have far : ∀ (l l' : Loc), (l = .tmp x ∨ (∃ j, l = .px x j) ∨ ∃ j, l = .px (x + h) j) →
      (l' = .tmp x' ∨ (∃ j, l' = .px x' j) ∨ ∃ j, l' = .px (x' + h) j) → l ≠ l' := by
    rintro l l' (rfl | ⟨j, rfl⟩ | ⟨j, rfl⟩) (rfl | ⟨j', rfl⟩ | ⟨j', rfl⟩) <;> simp <;> omega
  refine ⟨far _ _ d1 d2, fun m v => ?_, fun m v => ?_⟩
  · exact v1 _ _ (Function.update_of_ne (far _ _ (Or.inl rfl) d2) _ _)
      (fun j => Function.update_of_ne (far _ _ (Or.inr (Or.inl ⟨j, rfl⟩)) d2) _ _)
      (fun j => Function.update_of_ne (far _ _ (Or.inr (Or.inr ⟨j, rfl⟩)) d2) _ _)
  · exact v2 _ _ (Function.update_of_ne (far _ _ d1 (Or.inl rfl)).symm _ _)
      (fun j => Function.update_of_ne (far _ _ d1 (Or.inr (Or.inl ⟨j, rfl⟩))).symm _ _)
      (fun j => Function.update_of_ne (far _ _ d1 (Or.inr (Or.inr ⟨j, rfl⟩))).symm _ _)

end Soapy.Par
