/-
C107: what a frame returned stays what it was.
-/
import Verif.Model.Returned

namespace Soapy.Props

open Soapy.FftObj Soapy.Returned

/-- What the results held when they were returned. -/
def seenThen {σ ι : Type} (f : Heap → σ → ι → Heap × σ × ℕ) (h : Heap) (s : σ) : List ι → List (List ℚ)
  | [] => []
  | x :: xs => (f h s x).1.at_ (f h s x).2.2 :: seenThen f (f h s x).1 (f h s x).2.1 xs

/-- The results kept by a user still hold what they held when they were returned. -/
def Kept {σ ι : Type} (f : Heap → σ → ι → Heap × σ × ℕ) : Prop :=
  ∀ h s xs, held f h s xs = seenThen f h s xs

private theorem held_cons {σ ι : Type} (f : Heap → σ → ι → Heap × σ × ℕ) (h : Heap) (s : σ) (x : ι) (xs : List ι) :
    held f h s (x :: xs) = (collect f (f h s x).1 (f h s x).2.1 xs).1.at_ (f h s x).2.2 :: held f (f h s x).1 (f h s x).2.1 xs := rfl

private theorem collect_cons {σ ι : Type} (f : Heap → σ → ι → Heap × σ × ℕ) (h : Heap) (s : σ) (x : ι) (xs : List ι) :
    (collect f h s (x :: xs)).1 = (collect f (f h s x).1 (f h s x).2.1 xs).1 := rfl

/-- Frames that return a new array and leave every array that existed alone. -/
private def Fresh {σ ι : Type} (f : Heap → σ → ι → Heap × σ × ℕ) : Prop :=
  ∀ h s x, (f h s x).2.2 < (f h s x).1.next ∧ h.next ≤ (f h s x).1.next ∧ ∀ l, l < h.next → (f h s x).1.at_ l = h.at_ l

private theorem fresh_keeps {σ ι : Type} {f : Heap → σ → ι → Heap × σ × ℕ} (hf : Fresh f) (xs : List ι) :
    ∀ h s l, l < h.next → (collect f h s xs).1.at_ l = h.at_ l := by
  induction xs with
  | nil => intro h s l _; rfl
  | cons x xs ih =>
    intro h s l hl
    obtain ⟨_, h2, h3⟩ := hf h s x
    rw [collect_cons, ih _ _ _ (lt_of_lt_of_le hl h2), h3 l hl]

private theorem fresh_kept {σ ι : Type} {f : Heap → σ → ι → Heap × σ × ℕ} (hf : Fresh f) : Kept f := by
  intro h s xs
  induction xs generalizing h s with
  | nil => rfl
  | cons x xs ih => rw [held_cons, ih, fresh_keeps hf _ _ _ _ (hf h s x).1]; rfl

private theorem new_keeps (h : Heap) (v : List ℚ) (l : ℕ) (hl : l < h.next) : (h.new v).1.at_ l = h.at_ l := by
  simp [Mem.new, Nat.ne_of_lt hl]

/-- **C107 (pyramid, Zernike).** Measurements of a sensor that makes a new array stay. -/
theorem C107_pyramid_partial (n : ℕ) : Kept fun h s (x : Bool × List ℚ) => wfsFrame .anew n h s x.1 x.2 := by
  refine fresh_kept fun h s x => ?_
  cases hx : x.1 <;> simp only [wfsFrame, hx] <;>
    exact ⟨by simp [Mem.new], by simp [Mem.new], fun l hl => new_keeps h _ l hl⟩

example : held (fun h s (x : Bool × List ℚ) => wfsFrame .anew 1 h s x.1 x.2) ⟨fun _ => [0], 1⟩ 0 [(true, [1]), (false, [2]), (true, [3])] = [[1], [0], [3]] := by
  rw [C107_pyramid_partial]
  decide +kernel

/-- **C107 (all sensors of a simulation).** The vector with the measurements of all sensors stays. -/
theorem C107_runWfs_partial : Kept fun h (_ : Unit) v => ((runWfs h v).1, (), (runWfs h v).2) :=
  fresh_kept fun h _ _ => ⟨by simp [runWfs, Mem.new], by simp [runWfs, Mem.new], fun l hl => new_keeps h _ l hl⟩

/-- **C107 (mirror as large as the screen).** Its surfaces stay, as long as it is not reset. -/
theorem C107_mirror_partial (put : List ℚ → List ℚ) : Kept (dmFrame true put) :=
  fresh_kept fun h _ _ => ⟨by simp [dmFrame, Mem.new], by simp [dmFrame, Mem.new], fun l hl => new_keeps h _ l hl⟩

/-- … and a reset turns the last one into zeros. -/
theorem C107_mirror_reset (put : List ℚ → List ℚ) (h : Heap) (d : Dm) (v : List ℚ) :
    (dmReset (dmFrame true put h d v).1 (dmFrame true put h d v).2.1).at_ (dmFrame true put h d v).2.2 = v.map fun _ => 0 := by
  simp [dmReset, dmFrame, zero, Mem.new, Mem.set]

/-- What a mirror returns is its attribute `dm_screen`, whatever its size; and it is its `dm_shape` if it has the size of the screen, otherwise not. -/
theorem C107_mirror_screen (fits : Bool) (put : List ℚ → List ℚ) (h : Heap) (d : Dm) (hd : d.screen < h.next) (v : List ℚ) :
    let r := dmFrame fits put h d v
    r.2.1.screen = r.2.2 ∧ (r.2.1.shape = r.2.2 ↔ fits = true) ∧ r.1.at_ r.2.1.shape = v := by
  cases fits with
  | true => simp [dmFrame, Mem.new]
  | false =>
    have : h.next ≠ d.screen := by omega
    simp [dmFrame, Mem.new, Mem.set, this]

/-- A reset of a mirror of another size leaves what it returned, and `dm_screen`, alone: the last surface stays on the screen. -/
theorem C107_mirror_other_reset (put : List ℚ → List ℚ) (h : Heap) (d : Dm) (hd : d.screen < h.next) (v : List ℚ) :
    let r := dmFrame false put h d v
    (dmReset r.1 r.2.1).at_ r.2.2 = put v ∧ (dmReset r.1 r.2.1).at_ r.2.1.shape = v.map fun _ => 0 := by
  have : h.next ≠ d.screen := by omega
  simp [dmReset, dmFrame, zero, Mem.new, Mem.set, this, Ne.symm this]

example : (dmReset (dmFrame false (fun v => 0 :: v ++ [0]) ⟨fun _ => [0, 0, 0], 2⟩ ⟨0, 1⟩ [5]).1 (dmFrame false (fun v => 0 :: v ++ [0]) ⟨fun _ => [0, 0, 0], 2⟩ ⟨0, 1⟩ [5]).2.1).at_ 1 = [0, 5, 0] :=
  (C107_mirror_other_reset (fun v => 0 :: v ++ [0]) ⟨fun _ => [0, 0, 0], 2⟩ ⟨0, 1⟩ (by decide) [5]).1

/-- Frames that always write into the same array `b`. -/
private theorem buffer_last {σ ι : Type} {f : Heap → σ → ι → Heap × σ × ℕ} {b : ℕ} {g : ι → List ℚ} (Inv : Heap → σ → Prop)
    (hf : ∀ h s x, Inv h s → (f h s x).2.2 = b ∧ (f h s x).1.at_ b = g x ∧ Inv (f h s x).1 (f h s x).2.1) (xs : List ι) :
    ∀ (h : Heap) (s : σ) (x : ι), Inv h s → held f h s (x :: xs) = List.replicate (xs.length + 1) (g ((x :: xs).getLast (List.cons_ne_nil _ _))) ∧
      (collect f h s (x :: xs)).1.at_ b = g ((x :: xs).getLast (List.cons_ne_nil _ _)) ∧ Inv (collect f h s (x :: xs)).1 (collect f h s (x :: xs)).2.1 := by
  induction xs with
  | nil =>
    intro h s x hi
    obtain ⟨h1, h2, h3⟩ := hf h s x hi
    refine ⟨?_, by simpa [collect] using h2, by simpa [collect] using h3⟩
    simp [held, collect, h1, h2]
  | cons y ys ih =>
    intro h s x hi
    obtain ⟨h1, h2, h3⟩ := hf h s x hi
    obtain ⟨i1, i2, i3⟩ := ih _ _ y h3
    refine ⟨?_, ?_, i3⟩
    · rw [held_cons, h1, i1, i2, List.getLast_cons_cons]
      rfl
    · rw [collect_cons, i2, List.getLast_cons_cons]

/-- **C107 (screens).** All results of `moveScrns` are one array: after a run every one of them shows the last step. -/
theorem C107_screens (h : Heap) (scrns : ℕ) (v : List ℚ) (vs : List (List ℚ)) :
    held (fun h (_ : Unit) v => ((moveScrns h scrns v).1, (), (moveScrns h scrns v).2)) h () (v :: vs) = List.replicate (vs.length + 1) ((v :: vs).getLast (List.cons_ne_nil _ _)) :=
  (buffer_last (b := scrns) (g := id) (fun _ _ => True) (fun h s x _ => by simp [moveScrns, Mem.set]) vs h () v trivial).1

/-- **C107 (all mirrors of a simulation).** The same for the corrections returned by `runDM`. -/
theorem C107_runDM (h : Heap) (buf : ℕ) (v : List ℚ) (vs : List (List ℚ)) :
    held (fun h (_ : Unit) v => ((runDM h buf v).1, (), (runDM h buf v).2)) h () (v :: vs) = List.replicate (vs.length + 1) ((v :: vs).getLast (List.cons_ne_nil _ _)) :=
  (buffer_last (b := buf) (g := id) (fun _ _ => True) (fun h s x _ => by simp [runDM, Mem.set]) vs h () v trivial).1

/-- **C107 (mirror larger or smaller than the screen).** All its surfaces show the last command. -/
theorem C107_mirror_other (put : List ℚ → List ℚ) (h : Heap) (d : Dm) (hd : d.screen < h.next) (v : List ℚ) (vs : List (List ℚ)) :
    held (dmFrame false put) h d (v :: vs) = List.replicate (vs.length + 1) (put ((v :: vs).getLast (List.cons_ne_nil _ _))) := by
  refine (buffer_last (b := d.screen) (g := put) (fun h s => s.screen = d.screen ∧ d.screen < h.next) ?_ vs h d v ⟨rfl, hd⟩).1
  intro h s x hi
  simp only [dmFrame, Mem.new, Mem.set]
  refine ⟨by simp [hi.1], by simp [hi.1], by simp [hi.1], by simp; omega⟩

example : held (dmFrame false fun v => 0 :: v ++ [0]) ⟨fun _ => [0, 0, 0], 2⟩ ⟨0, 1⟩ [[1], [2], [3]] = [[0, 3, 0], [0, 3, 0], [0, 3, 0]] := C107_mirror_other _ _ _ (by decide) _ _

private def camInv (b : ℕ) (h : Heap) (c : Cam) : Prop := c.detector = b ∧ b < h.next ∧ c.long < h.next ∧ c.long ≠ b

private theorem camInv_frame (b : ℕ) (h : Heap) (c : Cam) (x : List ℚ × List ℚ) (hi : camInv b h c) :
    (camFrame h c x.1 x.2).2.2 = b ∧ (camFrame h c x.1 x.2).1.at_ b = x.1 ∧ camInv b (camFrame h c x.1 x.2).1 (camFrame h c x.1 x.2).2.1 := by
  obtain ⟨rfl, h2, h3, h4⟩ := hi
  simp only [camFrame, Mem.new, Mem.set, camInv]
  refine ⟨trivial, by simp [Nat.ne_of_lt h2], trivial, by omega, by omega, by omega⟩

/-- **C107 (cameras).** All images returned by a camera show the last frame … -/
theorem C107_camera (h : Heap) (c : Cam) (hc : c.detector < h.next ∧ c.long < h.next ∧ c.long ≠ c.detector) (x : List ℚ × List ℚ) (xs : List (List ℚ × List ℚ)) :
    held (fun h c (x : List ℚ × List ℚ) => camFrame h c x.1 x.2) h c (x :: xs) = List.replicate (xs.length + 1) ((x :: xs).getLast (List.cons_ne_nil _ _)).1 :=
  (buffer_last (b := c.detector) (g := Prod.fst) (camInv c.detector) (fun h s x hi => camInv_frame _ h s x hi) xs h c x ⟨rfl, hc⟩).1

example : held (fun h c (x : List ℚ × List ℚ) => camFrame h c x.1 x.2) ⟨fun _ => [0], 2⟩ ⟨0, 1⟩ [([1], [1]), ([3], [2])] = [[3], [3]] := C107_camera _ _ (by decide) _ _

/-- … and after a reset all of them, and the last long exposure, are zeros. -/
theorem C107_camera_reset (h : Heap) (c : Cam) (hc : c.detector < h.next) (v l : List ℚ) :
    let r := camFrame h c v l
    (camReset r.1 r.2.1).at_ r.2.2 = v.map (fun _ => 0) ∧ (camReset r.1 r.2.1).at_ r.2.1.long = l.map fun _ => 0 := by
  have : h.next ≠ c.detector := by omega
  simp [camReset, camFrame, zero, Mem.new, Mem.set, this, Ne.symm this]

/-- **C107 (reconstructor).** All command vectors are one array. -/
theorem C107_reconstruct (n : ℕ) (h : Heap) (a : ℕ) (fs : List (List ℚ → List ℚ)) :
    held (fun h act f => reconstruct n h act f) h (some a) fs = List.replicate fs.length (fs.foldl (fun v f => f v) (h.at_ a)) := by
  have key : ∀ (fs : List (List ℚ → List ℚ)) (h : Heap),
      held (fun h act f => reconstruct n h act f) h (some a) fs = List.replicate fs.length (fs.foldl (fun v f => f v) (h.at_ a)) ∧
        (collect (fun h act f => reconstruct n h act f) h (some a) fs).1.at_ a = fs.foldl (fun v f => f v) (h.at_ a) := by
    intro fs
    induction fs with
    | nil => intro h; exact ⟨rfl, rfl⟩
    | cons f fs ih =>
      intro h
      obtain ⟨i1, i2⟩ := ih (reconstruct n h (some a) f).1
      have e : (reconstruct n h (some a) f).1.at_ a = f (h.at_ a) := by simp [reconstruct, Mem.set]
      rw [e] at i1 i2
      refine ⟨?_, ?_⟩
      · rw [held_cons]
        have : (reconstruct n h (some a) f).2 = (some a, a) := rfl
        simp only [this]
        rw [i1, i2]
        rfl
      · rw [collect_cons]
        exact i2
  exact (key fs h).1

example : held (fun h act f => reconstruct 1 h act f) ⟨fun _ => [0], 1⟩ (some 0) [List.map (· + 1), List.map (· + 1)] = [[2], [2]] := by
  rw [C107_reconstruct]
  decide +kernel

/-- The first command vector is that array too. -/
theorem C107_reconstruct_first (n : ℕ) (h : Heap) (f : List ℚ → List ℚ) :
    (reconstruct n h none f).2 = (some h.next, h.next) ∧ (reconstruct n h none f).1.at_ h.next = f (List.replicate n 0) := by
  simp [reconstruct, Mem.new, Mem.set]

/-- A reset turns every command vector that was returned into zeros. -/
theorem C107_reconstruct_reset (n : ℕ) (h : Heap) (act : Option ℕ) (f : List ℚ → List ℚ) :
    let r := reconstruct n h act f
    (reconReset r.1 r.2.1).at_ r.2.2 = (r.1.at_ r.2.2).map fun _ => 0 := by
  cases act <;> simp [reconstruct, reconReset, zero, Mem.new, Mem.set]

private def shackF (n : ℕ) (h : Heap) (s : ℕ) (x : Bool × List ℚ) : Heap × ℕ × ℕ := wfsFrame .inPlace n h s x.1 x.2

private theorem shack_read {n : ℕ} {h : Heap} {s : ℕ} {x : Bool × List ℚ} (hx : x.1 = true) : shackF n h s x = (h.set s x.2, s, s) := by simp [shackF, wfsFrame, hx]

private theorem shack_unread {n : ℕ} {h : Heap} {s : ℕ} {x : Bool × List ℚ} (hx : x.1 = false) : shackF n h s x = ((h.new (List.replicate n 0)).1, s, h.next) := by
  simp [shackF, wfsFrame, hx, Mem.new]

private theorem shack_keep (n s : ℕ) (xs : List (Bool × List ℚ)) : ∀ (h : Heap) (l : ℕ), s < h.next → l < h.next → l ≠ s → (collect (shackF n) h s xs).1.at_ l = h.at_ l := by
  induction xs with
  | nil => intros; rfl
  | cons x xs ih =>
    intro h l hs hl hne
    rw [collect_cons]
    cases hx : x.1 with
    | true =>
      rw [shack_read hx, ih _ l (by simpa [Mem.set]) (by simpa [Mem.set]) hne]
      simp [Mem.set, hne]
    | false =>
      rw [shack_unread hx, ih _ l (by simp [Mem.new]; omega) (by simp [Mem.new]; omega) hne]
      exact new_keeps _ _ _ hl

private theorem shack_last (n s : ℕ) (xs : List (Bool × List ℚ)) : ∀ h : Heap, s < h.next →
    (collect (shackF n) h s xs).1.at_ s = ((xs.filter (·.1)).getLast?.map (·.2)).getD (h.at_ s) := by
  induction xs with
  | nil => intros; rfl
  | cons x xs ih =>
    intro h hs
    rw [collect_cons]
    cases hx : x.1 with
    | true =>
      rw [shack_read hx, ih _ (by simpa [Mem.set]), List.filter_cons_of_pos (by simpa using hx), List.getLast?_cons]
      cases (xs.filter (·.1)).getLast? <;> simp [Mem.set]
    | false =>
      rw [shack_unread hx, ih _ (by simp [Mem.new]; omega), List.filter_cons_of_neg (by simp [hx]), new_keeps _ _ _ hs]

/-- **C107 (Shack-Hartmann, gradient).** Results of frames that are read show the measurements of the last frame that was read; results of the other frames stay zero. -/
theorem C107_shack (n : ℕ) (s : ℕ) (xs : List (Bool × List ℚ)) : ∀ (h : Heap), s < h.next →
    held (fun h s (x : Bool × List ℚ) => wfsFrame .inPlace n h s x.1 x.2) h s xs =
      xs.map fun x => if x.1 then ((xs.filter (·.1)).getLast?.map (·.2)).getD [] else List.replicate n 0 := by
  change ∀ (h : Heap), s < h.next → held (shackF n) h s xs = _
  induction xs with
  | nil => intros; rfl
  | cons x xs ih =>
    intro h hs
    rw [held_cons, List.map_cons]
    cases hx : x.1 with
    | true =>
      rw [shack_read hx]
      rw [ih _ (by simpa [Mem.set]), shack_last _ _ _ _ (by simpa [Mem.set]), List.filter_cons_of_pos (by simpa using hx), List.getLast?_cons]
      simp only [if_true]
      refine congr_arg₂ _ ?_ ?_
      · cases (xs.filter (·.1)).getLast? <;> simp [Mem.set]
      · refine List.map_congr_left fun y hy => ?_
        cases hy1 : y.1 with
        | false => simp
        | true =>
          have : xs.filter (·.1) ≠ [] := by
            intro hn
            have := List.filter_eq_nil_iff.mp hn y hy
            simp [hy1] at this
          obtain ⟨z, hz⟩ := Option.ne_none_iff_exists'.mp (fun hn => this (List.getLast?_eq_none_iff.mp hn))
          simp [hz]
    | false =>
      rw [shack_unread hx]
      rw [ih _ (by simp [Mem.new]; omega), shack_keep _ _ _ _ _ (by simp [Mem.new]; omega) (by simp [Mem.new]) (Nat.ne_of_gt hs), List.filter_cons_of_neg (by simp [hx])]
      simp [Mem.new]

example : held (fun h s (x : Bool × List ℚ) => wfsFrame .inPlace 1 h s x.1 x.2) ⟨fun _ => [0], 1⟩ 0 [(true, [1]), (false, [2]), (true, [3])] = [[3], [0], [3]] := C107_shack 1 0 _ _ (by decide)

/-! ### Line of sight -/

/-- What the result of a frame without correction holds after further frames: the turbulence, in radians, of the next frame with a correction, or of the last frame. -/
def overwritten (k : ℚ) (turb : List ℚ) : List (List ℚ × Option (List ℚ)) → List ℚ
  | [] => turb.map (· * k)
  | (t, none) :: xs => overwritten k t xs
  | (t, some _) :: _ => t.map (· * k)

/-- What the results of a line of sight hold after a run. -/
def losHeld (k : ℚ) : List (List ℚ × Option (List ℚ)) → List (List ℚ)
  | [] => []
  | (t, none) :: xs => overwritten k t xs :: losHeld k xs
  | (t, some c) :: xs => List.zipWith (fun p q => (p * k - q * k) / k) t c :: losHeld k xs

private theorem zip_zero (v t : List ℚ) (k : ℚ) (hl : v.length = t.length) : List.zipWith (· + ·) (v.map fun _ => (0 : ℚ)) (t.map (· * k)) = t.map (· * k) := by
  induction v generalizing t with
  | nil => cases t <;> simp_all
  | cons a v ih =>
    cases t with
    | nil => simp at hl
    | cons b t => simp only [List.map_cons, List.zipWith_cons_cons, zero_add, ih t (by simpa using hl)]

private theorem los_none (k : ℚ) (h : Heap) (p : ℕ) (t : List ℚ) (hl : (h.at_ p).length = t.length) :
    losFrame k h p t none = ((zero h p).set p (t.map (· * k)), p, p) := by
  simp only [losFrame]
  congr 2
  simp only [zero, Mem.set, Function.update_self]
  exact zip_zero _ _ _ hl

private theorem los_some (k : ℚ) (h : Heap) (p : ℕ) (t c : List ℚ) (hl : (h.at_ p).length = t.length) :
    (losFrame k h p t (some c)).2 = (h.next + 1, h.next) ∧ (losFrame k h p t (some c)).1.next = h.next + 2 ∧
      (p < h.next → (losFrame k h p t (some c)).1.at_ p = t.map (· * k)) ∧
      (losFrame k h p t (some c)).1.at_ h.next = List.zipWith (fun x q => (x * k - q * k) / k) t c ∧
      ((losFrame k h p t (some c)).1.at_ (h.next + 1)).length = min t.length c.length ∧
      ∀ l, l < h.next → l ≠ p → (losFrame k h p t (some c)).1.at_ l = h.at_ l := by
  have e := zip_zero _ _ k hl
  simp only [losFrame, zero, Mem.set, Mem.new, Function.update_self, e]
  refine ⟨trivial, trivial, ?_, ?_, ?_, ?_⟩
  · intro hp
    rw [Function.update_of_ne (by omega), Function.update_of_ne (by omega)]
    simp
  · rw [Function.update_of_ne (by omega)]
    simp [List.zipWith_map_left]
  · simp
  · intro l hl hne
    rw [Function.update_of_ne (by omega), Function.update_of_ne (by omega), Function.update_of_ne hne, Function.update_of_ne hne]

/-- **C107 (phase and residual).**  After a frame with a correction the array of the phase holds the corrected phase in radians and the array of the residual, another one, the same in nanometres. -/
theorem C107_phase (k : ℚ) (hk : k ≠ 0) (h : Heap) (p : ℕ) (t c : List ℚ) (hl : (h.at_ p).length = t.length) :
    let r := losFrame k h p t (some c)
    r.2.1 ≠ r.2.2 ∧ r.1.at_ r.2.1 = List.zipWith (fun x q => (x - q) * k) t c ∧ r.1.at_ r.2.2 = List.zipWith (fun x q => x - q) t c := by
  have e := zip_zero _ _ k hl
  have hd : ∀ x q : ℚ, (x * k - q * k) / k = x - q := by
    intro x q
    field_simp
  simp only [losFrame, zero, Mem.set, Mem.new, Function.update_self, e]
  refine ⟨by omega, ?_, ?_⟩
  · simp [List.zipWith_map_left, List.map_zipWith, hd]
  · rw [Function.update_of_ne (by omega)]
    simp [List.zipWith_map_left, hd]

example : let r := losFrame 2 ⟨fun _ => [0], 1⟩ 0 [5] (some [4]); r.1.at_ r.2.1 = [2] ∧ r.1.at_ r.2.2 = [1] := by decide +kernel

private def losF (k : ℚ) (h : Heap) (p : ℕ) (x : List ℚ × Option (List ℚ)) : Heap × ℕ × ℕ := losFrame k h p x.1 x.2

/-- Turbulence and correction have the `n` numbers of the line of sight. -/
def Sized (n : ℕ) (xs : List (List ℚ × Option (List ℚ))) : Prop := ∀ x ∈ xs, x.1.length = n ∧ ∀ c, x.2 = some c → c.length = n

private theorem sized_tail {n : ℕ} {x : List ℚ × Option (List ℚ)} {xs : List (List ℚ × Option (List ℚ))} (h : Sized n (x :: xs)) : Sized n xs := fun y hy => h y (List.mem_cons_of_mem _ hy)

private theorem los_keep (k : ℚ) (n : ℕ) (xs : List (List ℚ × Option (List ℚ))) : ∀ (h : Heap) (p l : ℕ), Sized n xs → (h.at_ p).length = n → p < h.next → l < h.next → l ≠ p →
    (collect (losF k) h p xs).1.at_ l = h.at_ l := by
  induction xs with
  | nil => intros; rfl
  | cons x xs ih =>
    intro h p l hx hn hp hl hne
    obtain ⟨t, c⟩ := x
    have h0 := hx _ List.mem_cons_self
    rw [collect_cons]
    cases c with
    | none =>
      have e : losF k h p (t, none) = _ := los_none k h p t (by rw [hn, h0.1])
      rw [e, ih _ _ _ (sized_tail hx) (by simpa [Mem.set] using h0.1) (by simpa [Mem.set, zero]) (by simpa [Mem.set, zero]) hne]
      simp [Mem.set, zero, hne]
    | some c =>
      obtain ⟨e1, e2, -, -, e5, e6⟩ := los_some k h p t c (by rw [hn, h0.1])
      change (collect (losF k) (losFrame k h p t (some c)).1 (losFrame k h p t (some c)).2.1 xs).1.at_ l = _
      rw [e1]
      rw [ih _ _ _ (sized_tail hx) (by rw [e5, h0.1, h0.2 c rfl]; simp) (by rw [e2]; omega) (by rw [e2]; omega) (by omega)]
      exact e6 l hl hne

private theorem los_over (k : ℚ) (n : ℕ) (xs : List (List ℚ × Option (List ℚ))) : ∀ (h : Heap) (p : ℕ) (t : List ℚ), Sized n xs → t.length = n → p < h.next → h.at_ p = t.map (· * k) →
    (collect (losF k) h p xs).1.at_ p = overwritten k t xs := by
  induction xs with
  | nil => intro h p t _ _ _ h4; exact h4
  | cons x xs ih =>
    intro h p t hx ht hp hv
    obtain ⟨u, c⟩ := x
    have h0 := hx _ List.mem_cons_self
    have hn : (h.at_ p).length = u.length := by rw [hv, h0.1]; simpa using ht
    rw [collect_cons]
    cases c with
    | none =>
      have e : losF k h p (u, none) = _ := los_none k h p u hn
      rw [e]
      exact ih _ _ _ (sized_tail hx) h0.1 (by simpa [Mem.set, zero]) (by simp [Mem.set])
    | some c =>
      obtain ⟨e1, e2, e3, -, e5, e6⟩ := los_some k h p u c hn
      change (collect (losF k) (losFrame k h p u (some c)).1 (losFrame k h p u (some c)).2.1 xs).1.at_ p = _
      rw [e1]
      rw [los_keep k n xs _ _ _ (sized_tail hx) (by rw [e5, h0.1, h0.2 c rfl]; simp) (by rw [e2]; omega) (by rw [e2]; omega) (by omega), e3 hp]
      rfl

/-- **C107 (line of sight).** A result with correction stays.  A result without correction shows the turbulence alone of a later frame, the last one or the next one with a correction. -/
theorem C107_los (k : ℚ) (n : ℕ) (xs : List (List ℚ × Option (List ℚ))) : ∀ (h : Heap) (p : ℕ), Sized n xs → (h.at_ p).length = n → p < h.next →
    held (fun h p (x : List ℚ × Option (List ℚ)) => losFrame k h p x.1 x.2) h p xs = losHeld k xs := by
  change ∀ (h : Heap) (p : ℕ), Sized n xs → (h.at_ p).length = n → p < h.next → held (losF k) h p xs = losHeld k xs
  induction xs with
  | nil => intros; rfl
  | cons x xs ih =>
    intro h p hx hn hp
    obtain ⟨t, c⟩ := x
    have h0 := hx _ List.mem_cons_self
    rw [held_cons]
    cases c with
    | none =>
      have e : losF k h p (t, none) = _ := los_none k h p t (by rw [hn, h0.1])
      rw [e, losHeld]
      refine congr_arg₂ _ ?_ ?_
      · exact los_over k n xs _ _ t (sized_tail hx) h0.1 (by simpa [Mem.set, zero]) (by simp [Mem.set])
      · exact ih _ _ (sized_tail hx) (by simpa [Mem.set] using h0.1) (by simpa [Mem.set, zero])
    | some c =>
      obtain ⟨e1, e2, -, e4, e5, -⟩ := los_some k h p t c (by rw [hn, h0.1])
      change (collect (losF k) (losFrame k h p t (some c)).1 (losFrame k h p t (some c)).2.1 xs).1.at_ (losFrame k h p t (some c)).2.2 ::
        held (losF k) (losFrame k h p t (some c)).1 (losFrame k h p t (some c)).2.1 xs = _
      rw [e1, losHeld]
      have hl : ((losFrame k h p t (some c)).1.at_ (h.next + 1)).length = n := by rw [e5, h0.1, h0.2 c rfl]; simp
      refine congr_arg₂ _ ?_ ?_
      · simp only
        rw [los_keep k n xs _ _ _ (sized_tail hx) hl (by rw [e2]; omega) (by rw [e2]; omega) (by omega), e4]
      · exact ih _ _ (sized_tail hx) hl (by rw [e2]; omega)

/-- Three frames, the second with a correction: the first result ends as the turbulence of the second frame, the second is right, the third is right. -/
example : held (fun h p (x : List ℚ × Option (List ℚ)) => losFrame 2 h p x.1 x.2) ⟨fun _ => [0], 1⟩ 0 [([1], none), ([5], some [4]), ([7], none)] = [[10], [1], [14]] := by
  rw [C107_los 2 1 _ _ _ (by intro x hx; simp at hx; rcases hx with rfl | rfl | rfl <;> simp) rfl (by decide)]
  decide +kernel

/-- **C107.** The property fails for every part named here: screens, lines of sight without correction, mirrors of another size than the screen, cameras, Shack-Hartmann and gradient sensors, reconstructors. -/
theorem C107_violated :
    (∀ b, ¬ Kept fun h (_ : Unit) v => ((moveScrns h b v).1, (), (moveScrns h b v).2)) ∧
    (¬ Kept fun h p (x : List ℚ × Option (List ℚ)) => losFrame 1 h p x.1 x.2) ∧
    (¬ Kept (dmFrame false id)) ∧
    (¬ Kept fun h c (x : List ℚ × List ℚ) => camFrame h c x.1 x.2) ∧
    (∀ n, ¬ Kept fun h s (x : Bool × List ℚ) => wfsFrame .inPlace n h s x.1 x.2) ∧
    (∀ n, ¬ Kept fun h act f => reconstruct n h act f) ∧
    (∀ b, ¬ Kept fun h (_ : Unit) v => ((runDM h b v).1, (), (runDM h b v).2)) := by
  refine ⟨fun b hk => ?_, fun hk => ?_, fun hk => ?_, fun hk => ?_, fun n hk => ?_, fun n hk => ?_, fun b hk => ?_⟩
  · have := hk ⟨fun _ => [0], 1⟩ () [[1], [2]]
    simp [held, seenThen, collect, moveScrns, Mem.set] at this
  · have := hk ⟨fun _ => [0], 1⟩ 0 [([1], none), ([2], none)]
    simp [held, seenThen, collect, losFrame, Mem.set, zero] at this
  · have := hk ⟨fun _ => [0], 2⟩ ⟨0, 1⟩ [[1], [2]]
    simp [held, seenThen, collect, dmFrame, Mem.set, Mem.new] at this
  · have := hk ⟨fun _ => [0], 2⟩ ⟨0, 1⟩ [([1], [1]), ([2], [2])]
    simp [held, seenThen, collect, camFrame, Mem.set, Mem.new] at this
  · have := hk ⟨fun _ => [0], 1⟩ 0 [(true, [1]), (true, [2])]
    simp [held, seenThen, collect, wfsFrame, Mem.set] at this
  · have := hk ⟨fun _ => [0], 1⟩ (some 0) [fun _ => [1], fun _ => [2]]
    simp [held, seenThen, collect, reconstruct, Mem.set] at this
  · have := hk ⟨fun _ => [0], 1⟩ () [[1], [2]]
    simp [held, seenThen, collect, runDM, Mem.set] at this

/-- Two steps of the atmosphere, kept by the user: both show the second. -/
example : held (fun h (_ : Unit) v => ((moveScrns h 0 v).1, (), (moveScrns h 0 v).2)) ⟨fun _ => [], 1⟩ () [[1], [2]] = [[2], [2]] := C107_screens _ _ _ _

end Soapy.Props
