/-
C124: the unit in which mirrors are commanded does not matter.
-/
import Verif.Model.Units
import Verif.Props.Whole
import Verif.Props.Pinv
import Mathlib.Data.Matrix.Mul
import Mathlib.Data.Matrix.Diagonal

namespace Soapy.Props

open Soapy.Mirror Soapy.Vec Soapy.Control Soapy.Loop Soapy.Whole Soapy.Units

/-! ### The loop -/

/-- Numbers multiplied by factors that depend on their position. -/
def rescale (g : ℕ → ℚ) (xs : List ℚ) : List ℚ := xs.mapIdx fun i x => g i * x

/-- The state of a loop whose commands are expressed in other units. -/
def rescaleState {σ Surf : Type} (g : ℕ → ℚ) (s : Loop.State σ Surf) : Loop.State σ Surf :=
  { s with
    recon := ⟨s.recon.actuatorValues.map (rescale g)⟩
    dmCommands := rescale g s.dmCommands
    buffer := s.buffer.map (rescale g)
    allDmCommands := s.allDmCommands.map (rescale g) }

/-- A frame whose commands are expressed in other units: corrections and measurements are the same. -/
def rescaleTrace {Surf : Type} (g : ℕ → ℚ) (t : Trace Surf) : Trace Surf := ⟨rescale g t.cmds, t.seenByWfs, t.slopes, t.seenBySci⟩

private theorem rescale_length (g : ℕ → ℚ) (xs : List ℚ) : (rescale g xs).length = xs.length := by simp [rescale]

private theorem rescale_get (g : ℕ → ℚ) (xs : List ℚ) (i : ℕ) : (rescale g xs)[i]? = xs[i]?.map fun x => g i * x := by
  simp [rescale]

private theorem rescale_take (g : ℕ → ℚ) (xs : List ℚ) (n : ℕ) : (rescale g xs).take n = rescale g (xs.take n) := by
  apply List.ext_getElem?
  intro i
  rw [rescale_get, List.getElem?_take, List.getElem?_take, rescale_get]
  split_ifs <;> simp

private theorem rescale_drop (g : ℕ → ℚ) (xs : List ℚ) (n : ℕ) : (rescale g xs).drop n = rescale (fun i => g (n + i)) (xs.drop n) := by
  apply List.ext_getElem?
  intro i
  rw [rescale_get, List.getElem?_drop, List.getElem?_drop, rescale_get]

private theorem rescale_slice (g : ℕ → ℚ) (xs : List ℚ) (a b : ℕ) : slice (rescale g xs) a b = rescale (fun i => g (a + i)) (slice xs a b) := by
  unfold slice
  rw [rescale_take, rescale_drop]

private theorem rescale_append (g : ℕ → ℚ) (xs ys : List ℚ) : rescale g (xs ++ ys) = rescale g xs ++ rescale (fun i => g (xs.length + i)) ys := by
  simp only [rescale, List.mapIdx_append]
  congr 2
  funext i x
  rw [add_comm]

private theorem rescale_newValues (d : DmCtl) (g : ℕ → ℚ) (a u : List ℚ) : newValues d (rescale g a) (rescale g u) = rescale g (newValues d a u) := by
  apply List.ext_getElem?
  intro i
  unfold newValues
  split_ifs <;>
  · rw [List.getElem?_zipWith, rescale_get, rescale_get, rescale_get, List.getElem?_zipWith]
    cases a[i]? <;> cases u[i]? <;> simp <;> ring

private theorem newValues_length (d : DmCtl) (a u : List ℚ) (h : a.length = u.length) : (newValues d a u).length = a.length := by
  unfold newValues
  split_ifs <;> simp [h]

private theorem slice_length (xs : List ℚ) (a b : ℕ) : (slice xs a b).length = min b xs.length - a := by simp [slice]

private theorem rescale_applyGain (g : ℕ → ℚ) : ∀ (ds : List DmCtl) (n : ℕ) (act new : List ℚ),
    applyGain ds n (rescale g act) (rescale g new) = (applyGain ds n act new).map (rescale g)
  | [], _, _, _ => rfl
  | d :: ds, n, act, new => by
    simp only [applyGain]
    rw [rescale_slice, rescale_slice, rescale_newValues, rescale_length, rescale_length]
    by_cases h : (slice act n (n + d.nValid)).length = (slice new n (n + d.nValid)).length
    · rw [if_pos h, if_pos h]
      unfold assign
      rw [rescale_slice, rescale_length, rescale_length, newValues_length _ _ _ h, if_pos rfl, if_pos rfl]
      simp only
      rw [← rescale_applyGain g ds]
      congr 1
      rw [rescale_append, rescale_append, rescale_take, rescale_drop]
      by_cases hn : n ≤ act.length
      · congr 1
        · congr 2
          simp [hn]
        · congr 1
          funext i
          congr 1
          simp [hn]
          rw [newValues_length _ _ _ h]
      · have e1 : newValues d (slice act n (n + d.nValid)) (slice new n (n + d.nValid)) = [] := by
          rw [← List.length_eq_zero_iff, newValues_length _ _ _ h, slice_length]
          omega
        have e2 : ∀ k, act.drop (n + k) = [] := fun k => List.drop_of_length_le (by omega)
        rw [e1, e2]
        rfl
    · rw [if_neg h, if_neg h]
      rfl

private theorem rescale_popLoop (g : ℕ → ℚ) : ∀ (k : ℕ) (buf : List (List ℚ)) (r : Option (List ℚ)),
    Delay.popLoop k (buf.map (rescale g)) (r.map (rescale g)) = (Delay.popLoop k buf r).map fun p => (p.1.map (rescale g), p.2.map (rescale g))
  | 0, _, _ => rfl
  | _ + 1, [], _ => rfl
  | k + 1, x :: buf, _ => rescale_popLoop g k buf (some x)

private theorem rescale_delay (g : ℕ → ℚ) (buf : List (List ℚ)) (v : List ℚ) (c : ℤ) :
    Delay.delay zeroLike (buf.map (rescale g)) (rescale g v) c = (Delay.delay zeroLike buf v c).map fun p => (p.1.map (rescale g), rescale g p.2) := by
  have e : buf.map (rescale g) ++ [rescale g v] = (buf ++ [v]).map (rescale g) := by simp
  unfold Delay.delay
  simp only [e, List.length_map]
  split_ifs with h
  · simp only [Except.map]
    congr 2
    apply List.ext_getElem?
    intro i
    rw [rescale_get]
    simp only [zeroLike, List.getElem?_map, rescale_get]
    cases v[i]? <;> simp
  · have := rescale_popLoop g (((buf ++ [v]).length : ℤ) - c).toNat (buf ++ [v]) none
    simp only [Option.map_none] at this
    rw [this]
    cases Delay.popLoop (((buf ++ [v]).length : ℤ) - c).toNat (buf ++ [v]) none with
    | error e => rfl
    | ok p =>
      obtain ⟨b, r⟩ := p
      cases r <;> rfl

private theorem rescale_zeros (g : ℕ → ℚ) (n : ℕ) : rescale g (zeros n) = zeros n := by
  apply List.ext_getElem?
  intro i
  rw [rescale_get]
  simp only [zeros, List.getElem?_replicate]
  split_ifs <;> simp

private theorem rescale_reconstruct (g : ℕ → ℚ) (dms : List DmCtl) (n : ℕ) (p p' : List ℚ → Except PyErr (List ℚ)) (hp : ∀ m, p' m = (p m).map (rescale g)) (r : Recon) (m : List ℚ) :
    reconstruct dms n p' ⟨r.actuatorValues.map (rescale g)⟩ m = (reconstruct dms n p r m).map fun q => (⟨q.1.actuatorValues.map (rescale g)⟩, rescale g q.2) := by
  obtain ⟨v⟩ := r
  unfold reconstruct
  simp only [hp]
  cases p m with
  | error e => rfl
  | ok new =>
    cases v with
    | none =>
      simp only [Except.map, Option.map_none]
      rw [← rescale_zeros g n, rescale_applyGain, rescale_zeros]
      cases applyGain dms 0 (zeros n) new <;> rfl
    | some v =>
      simp only [Except.map, Option.map_some]
      rw [rescale_applyGain]
      cases applyGain dms 0 v new <;> rfl

private theorem rescale_runDM {Surf : Type} (g : ℕ → ℚ) (f f' : ℕ → List ℚ → Except PyErr Surf) (cl : Bool) (cmds : List ℚ) : ∀ (k : ℕ) (ds : List DmCtl) (as : List ℕ) (buf : List Surf),
    (∀ (m a : ℕ) (d : DmCtl), as[m]? = some a → ds[m]? = some d → ∀ c, c.length ≤ d.nValid → f' (k + m) (rescale (fun i => g (a + i)) c) = f (k + m) c) →
    runDM f' cl (rescale g cmds) k ds as buf = runDM f cl cmds k ds as buf
  | _, [], _, _, _ => rfl
  | _, _ :: _, [], _, _ => rfl
  | k, d :: ds, a :: as, buf, h => by
    have h0 := h 0 a d rfl rfl (slice cmds a (a + d.nValid)) (by rw [slice_length]; omega)
    rw [Nat.add_zero] at h0
    have hs : ∀ (m b : ℕ) (d : DmCtl), as[m]? = some b → ds[m]? = some d → ∀ c, c.length ≤ d.nValid → f' (k + 1 + m) (rescale (fun i => g (b + i)) c) = f (k + 1 + m) c := by
      intro m b d hb hd c hc
      have := h (m + 1) b d (by simpa using hb) (by simpa using hd) c hc
      rwa [show k + (m + 1) = k + 1 + m by omega] at this
    simp only [runDM, rescale_slice]
    rw [h0]
    split_ifs
    · cases f k (slice cmds a (a + d.nValid)) with
      | error e => rfl
      | ok s => exact rescale_runDM g f f' cl cmds (k + 1) ds as _ hs
    · exact rescale_runDM g f f' cl cmds (k + 1) ds as _ hs

private theorem firstActs_at : ∀ (ds : List DmCtl) (n m a : ℕ), (firstActs ds n)[m]? = some a → a = n + ((ds.map DmCtl.nValid).take m).sum
  | [], _, _, _, h => by simp [firstActs] at h
  | d :: ds, n, 0, a, h => by simpa [firstActs] using h.symm
  | d :: ds, n, m + 1, a, h => by
    rw [firstActs, List.getElem?_cons_succ] at h
    rw [firstActs_at ds _ m a h, List.map_cons, List.take_succ_cons, List.sum_cons]
    omega

private theorem rescale_storeRow (g : ℕ → ℚ) (save : Bool) (hist : List (List ℚ)) (i : ℕ) (row : List ℚ) :
    storeRow save (hist.map (rescale g)) i (rescale g row) = (storeRow save hist i row).map (List.map (rescale g)) := by
  unfold storeRow
  split_ifs
  · rw [List.getElem?_map]
    cases hist[i]? with
    | none => rfl
    | some old =>
      simp only [Option.map_some, rescale_length]
      split_ifs
      · simp [Except.map, List.map_set]
      · rfl
  · rfl

/-- The second system expresses the commands of all mirrors in other units: command `x` number `p` of the first is command `g p * x` of the second.  `sizes` are the numbers of commands of the mirrors. -/
structure SameInOtherUnits {Surf : Type} (g : ℕ → ℚ) (sizes : List ℕ) (sys sys' : Sys Surf) : Prop where
  surface : ∀ k n, sizes[k]? = some n → ∀ c, c.length ≤ n → sys'.surface k (rescale (fun i => g ((sizes.take k).sum + i)) c) = sys.surface k c
  product : ∀ m, sys'.product m = (sys.product m).map (rescale g)
  loopDelay : sys'.loopDelay = sys.loopDelay
  nIters : sys'.nIters = sys.nIters
  saveSlopes : sys'.saveSlopes = sys.saveSlopes
  saveDmCommands : sys'.saveDmCommands = sys.saveDmCommands

private theorem rescale_frame {σ Surf : Type} [Add Surf] (g : ℕ → ℚ) (sys sys' : Sys Surf) (pl : Plant σ Surf) (dms : List DmCtl) (h : SameInOtherUnits g (dms.map DmCtl.nValid) sys sys') (s : Loop.State σ Surf) :
    loopFrame sys' pl dms (rescaleState g s) = (loopFrame sys pl dms s).map fun p => (rescaleState g p.1, rescaleTrace g p.2) := by
  have hc : Loop.control sys' dms ⟨s.recon.actuatorValues.map (rescale g)⟩ (rescale g s.dmCommands) (s.buffer.map (rescale g)) s.slopes =
      (Loop.control sys dms s.recon s.dmCommands s.buffer s.slopes).map fun p => (⟨p.1.actuatorValues.map (rescale g)⟩, p.2.1.map (rescale g), rescale g p.2.2) := by
    unfold Loop.control
    by_cases h0 : dms.length = 0
    · simp only [h0, if_true, h.loopDelay, rescale_delay]
      cases Delay.delay zeroLike s.buffer s.dmCommands sys.loopDelay <;> rfl
    · simp only [h0, if_false, rescale_reconstruct g dms _ sys.product sys'.product h.product]
      cases reconstruct dms (dms.map DmCtl.nValid).sum sys.product s.recon s.slopes with
      | error e => rfl
      | ok q =>
        obtain ⟨r, new⟩ := q
        simp only [Except.map, rescale_length]
        by_cases hl : new.length = s.dmCommands.length
        · simp only [hl, if_true, h.loopDelay, rescale_delay]
          cases Delay.delay zeroLike s.buffer new sys.loopDelay <;> rfl
        · simp only [hl, if_false]
  unfold loopFrame
  simp only [rescaleState, hc]
  cases Loop.control sys dms s.recon s.dmCommands s.buffer s.slopes with
  | error e => rfl
  | ok p =>
    obtain ⟨r, b, cmds⟩ := p
    have hs : ∀ cl buf, runDM sys'.surface cl (rescale g cmds) 0 dms (firstActs dms 0) buf = runDM sys.surface cl cmds 0 dms (firstActs dms 0) buf := by
      intro cl buf
      exact rescale_runDM g sys.surface sys'.surface cl cmds 0 dms _ buf (by
        intro m a d ha hd c hc
        rw [firstActs_at dms 0 m a ha, Nat.zero_add, Nat.zero_add]
        exact h.surface m d.nValid (by simp [hd]) c hc)
    simp only [Except.map, hs, h.nIters, h.saveSlopes, h.saveDmCommands, rescale_storeRow]
    cases runDM sys.surface true cmds 0 dms (firstActs dms 0) s.closedCorr with
    | error e => rfl
    | ok cc =>
      simp only
      cases pl.sense s.plant s.iters cc with
      | error e => rfl
      | ok q =>
        obtain ⟨plant, slopes⟩ := q
        simp only
        cases runDM sys.surface false cmds 0 dms (firstActs dms 0) s.openCorr with
        | error e => rfl
        | ok oc =>
          simp only
          by_cases hn : sys.nIters = 0
          · simp only [hn, if_true]
          · simp only [hn, if_false]
            cases storeRow sys.saveSlopes s.allSlopes (s.iters % sys.nIters) slopes with
            | error e => rfl
            | ok a =>
              simp only
              cases storeRow sys.saveDmCommands s.allDmCommands (s.iters % sys.nIters) cmds <;> rfl

/-- **C124 (loop).**  A change of the units in which mirrors are commanded, made both in the mirrors and in the reconstructor, changes nothing but the numbers that are called commands: whatever the sensors, atmosphere and noise do, in every frame
corrections and measurements are the same, and if one simulation stops with an exception so does the other.  Modes, gains (which may change from frame to frame), delay and saving are arbitrary. -/
theorem C124_loop {σ Surf : Type} [Add Surf] (g : ℕ → ℚ) (sys sys' : Sys Surf) (pl : Plant σ Surf) (sizes : List ℕ) (h : SameInOtherUnits g sizes sys sys') :
    ∀ (frames : List (List DmCtl)), (∀ dms ∈ frames, dms.map DmCtl.nValid = sizes) → ∀ s : Loop.State σ Surf,
      runLoop sys' pl (rescaleState g s) frames = (runLoop sys pl s frames).map fun p => (rescaleState g p.1, p.2.map (rescaleTrace g))
  | [], _, _ => rfl
  | dms :: rest, hf, s => by
    simp only [runLoop]
    rw [rescale_frame g sys sys' pl dms (by rw [hf dms (by simp)]; exact h)]
    cases loopFrame sys pl dms s with
    | error e => rfl
    | ok p =>
      simp only [Except.map]
      rw [C124_loop g sys sys' pl sizes h rest (fun d hd => hf d (by simp [hd]))]
      cases runLoop sys pl p.1 rest <;> rfl

/-! ### The mirrors -/

private theorem stretch_map {α β : Type} (f : α → β) (xs : List α) (n : ℕ) : stretch (xs.map f) n = (stretch xs n).map f := by
  match xs with
  | [] => rfl
  | [x] => simp [stretch]
  | _ :: _ :: _ => rfl

private theorem makeDMFrame_times (n : ℕ) (v : ℚ) (shapes : List Arr2) (c : List ℚ) : makeDMFrame n (shapes.map (times v)) c = makeDMFrame n shapes (c.map (v * ·)) := by
  unfold makeDMFrame
  simp only [stretch_map, List.length_map, List.isEmpty_map, List.zipWith_map_left, List.zipWith_map_right]
  split_ifs
  · rfl
  · rfl
  · congr 2
    funext i j
    congr 2
    funext s x
    simp only [times]
    ring

/-- **C124 (surface).**  With `iMatValue` multiplied by `v` the commands `c` make the surface that `v c` made before: also with a rotation, an exception, or an old screen. -/
theorem C124_surface (scrn n : ℕ) (rotation v : ℚ) (shapes : List Arr2) (screen : Arr2) (c : List ℚ) :
    dmFrame scrn n rotation (shapes.map (times v)) screen c = dmFrame scrn n rotation shapes screen (c.map (v * ·)) := by
  unfold dmFrame
  rw [makeDMFrame_times]

private theorem times_mean (v : ℚ) (a : Arr2) : (times v a).mean = v * a.mean := by
  unfold Arr2.mean Arr2.total
  simp only [times, ← Finset.mul_sum]
  ring

private theorem makeDMFrame_commands (n : ℕ) (v : ℚ) (shapes : List Arr2) (c : List ℚ) : makeDMFrame n shapes (c.map (v * ·)) = (makeDMFrame n shapes c).map (times v) := by
  unfold makeDMFrame
  simp only [stretch_map, List.length_map, List.zipWith_map_right]
  split_ifs
  · rfl
  · rfl
  · simp only [Except.map, times]
    congr 2
    funext i j
    generalize stretch shapes c.length = ss
    generalize stretch c shapes.length = cs
    induction ss generalizing cs with
    | nil => simp
    | cons s ss ih =>
      cases cs with
      | nil => simp
      | cons x cs =>
        simp only [List.zipWith_cons_cons, List.sum_cons, ih]
        ring

private theorem ite_times (c : Prop) [i1 : Decidable c] [i2 : Decidable c] (v x : ℚ) : (@ite ℚ c i1 (v * x) 0) = v * @ite ℚ c i2 x 0 := by
  by_cases h : c <;> simp [h]

private theorem dmFrame_commands (scrn n : ℕ) (v : ℚ) (shapes : List Arr2) (c : List ℚ) :
    dmFrame scrn n 0 shapes (zero2 scrn) (c.map (v * ·)) = (dmFrame scrn n 0 shapes (zero2 scrn) c).map (times v) := by
  unfold dmFrame
  rw [makeDMFrame_commands]
  cases makeDMFrame n shapes c with
  | error e => rfl
  | ok a =>
    simp only [Except.map, times_mean, ne_eq, not_true_eq_false, if_false]
    have e : ∀ i j, v * a.px i j - v * a.mean = v * (a.px i j - a.mean) := fun i j => by ring
    simp only [times, e]
    split_ifs
    · rfl
    · rfl
    · rfl
    · simp only [zero2, Except.ok.injEq, Arr2.mk.injEq, true_and]
      funext i j
      exact ite_times _ v _
    · rfl

/-! ### The interaction matrix -/

private theorem absMax_times (v : ℚ) (xs : List ℚ) : absMax (xs.map (v * ·)) = (absMax xs).map (|v| * ·) := by
  unfold absMax
  have e : (xs.map (v * ·)).map abs = (xs.map abs).map (|v| * ·) := by simp [Function.comp_def, abs_mul]
  rw [e]
  cases xs.map abs with
  | nil => rfl
  | cons y ys =>
    simp only [List.map_cons, List.max?_cons', Option.map_some, Option.some.injEq]
    induction ys generalizing y with
    | nil => rfl
    | cons z zs ih =>
      simp only [List.map_cons, List.foldl_cons]
      rw [← mul_max_of_nonneg _ _ (abs_nonneg v)]
      exact ih _

theorem validFlags_times (v : ℚ) (hv : v ≠ 0) (m : List (List ℚ)) : validFlags (m.map (List.map (v * ·))) = validFlags m := by
  unfold validFlags
  rw [← List.map_flatten, absMax_times]
  cases absMax m.flatten with
  | none => rfl
  | some x =>
    simp only [Option.map_some, List.map_map, Except.ok.injEq]
    refine List.map_congr_left fun row _ => ?_
    simp only [Function.comp, absMax_times]
    cases absMax row with
    | none => rfl
    | some y =>
      simp only [Option.map_some, mul_assoc]
      have : 0 < |v| := abs_pos.mpr hv
      simp only [mul_lt_mul_iff_right₀ this]

theorem compact_map {α β : Type} (f : α → β) : ∀ (rows : List α) (vs : List Bool) (k : ℕ) (acc : List α), compact (rows.map f) vs k (acc.map f) = (compact rows vs k acc).map f
  | [], _, _, _ => rfl
  | _ :: _, [], _, _ => rfl
  | r :: rows, v :: vs, k, acc => by
    simp only [List.map_cons, compact]
    split_ifs
    · rw [← List.map_set]
      exact compact_map f rows vs _ _
    · exact compact_map f rows vs _ _

theorem mapM_map {α β γ : Type} (f : α → Except PyErr β) (h : β → γ) : ∀ xs : List α, xs.mapM (fun a => (f a).map h) = (xs.mapM f).map (List.map h)
  | [] => rfl
  | x :: xs => by
    rw [List.mapM_cons, List.mapM_cons, mapM_map f h xs]
    cases f x <;> cases xs.mapM f <;> rfl

private theorem makeDmIMat_times (nActs nMeas : ℕ) (v : ℚ) (hv : v ≠ 0) (f f' : List ℚ → Except PyErr Arr2) (hf : ∀ c, f' c = (f c).map (times v)) (sense : Arr2 → List ℚ)
    (hs : ∀ a, sense (times v a) = (sense a).map (v * ·)) :
    makeDmIMat nActs nMeas f' sense = (makeDmIMat nActs nMeas f sense).map fun p => (p.1, p.2.map (List.map (v * ·))) := by
  unfold makeDmIMat
  have e : pokeRow nActs f' sense = fun i => (pokeRow nActs f sense i).map (List.map (v * ·)) := by
    funext i
    unfold pokeRow
    rw [hf]
    cases f (unit nActs i) with
    | error e => rfl
    | ok a =>
      simp only [Except.map, hs, List.map_map, Except.ok.injEq]
      refine List.map_congr_left fun x _ => ?_
      simp only [Function.comp]
      ring
  rw [e, mapM_map]
  cases (List.range nActs).mapM (pokeRow nActs f sense) with
  | error e => rfl
  | ok m =>
    simp only [Except.map, validFlags_times v hv]
    cases validFlags m with
    | error e => rfl
    | ok fl =>
      simp only
      rw [← compact_map]
      congr 3
      simp [zeros]

private theorem setValid_map {α β : Type} (f : α → β) (shapes : List α) (vs : List Bool) : setValid (shapes.map f) vs = (setValid shapes vs).map fun p => (p.1, p.2.map f) := by
  have go : ∀ (vs : List Bool) (i : ℕ), setValid.go (shapes.map f) i vs = (setValid.go shapes i vs).map (List.map f) := by
    intro vs
    induction vs with
    | nil => intro i; rfl
    | cons v vs ih =>
      intro i
      simp only [setValid.go, List.getElem?_map, ih]
      split_ifs
      · cases shapes[i]? with
        | none => rfl
        | some s =>
          simp only [Option.map_some]
          cases setValid.go shapes (i + 1) vs <;> rfl
      · rfl
  unfold setValid
  rw [go]
  cases setValid.go shapes 0 vs <;> rfl

/-- The value of `iMatValue` for every row of the interaction matrix, that is for every actuator that was kept. -/
def unitOf : List ℚ → List Persist.Dm → ℕ → ℚ
  | v :: vs, d :: ds, p => if p < d.shapes.length then v else unitOf vs ds (p - d.shapes.length)
  | _, _, _ => 1

/-- Rows multiplied by factors. -/
def rescaleRows (f : ℕ → ℚ) (m : List (List ℚ)) : List (List ℚ) := m.mapIdx fun p row => row.map (f p * ·)

private theorem rescaleRows_append (f : ℕ → ℚ) (a b : List (List ℚ)) : rescaleRows f (a ++ b) = rescaleRows f a ++ rescaleRows (fun p => f (a.length + p)) b := by
  simp only [rescaleRows, List.mapIdx_append]
  congr 2
  funext i x
  rw [add_comm]

private theorem rescaleRows_const (f : ℕ → ℚ) (v : ℚ) (m : List (List ℚ)) (h : ∀ p, p < m.length → f p = v) : rescaleRows f m = m.map (List.map (v * ·)) := by
  apply List.ext_getElem (by simp [rescaleRows])
  intro p h1 h2
  simp only [rescaleRows, List.getElem_mapIdx, List.getElem_map]
  rw [h p (by simpa using h2)]

private theorem kept_length {α : Type} (shapes kept : List α) (v : List Bool) (n : ℕ) (h : setValid shapes v = .ok (n, kept)) : kept.length = v.count true := by
  have go : ∀ (vs : List Bool) (i : ℕ) (r : List α), setValid.go shapes i vs = .ok r → r.length = vs.count true := by
    intro vs
    induction vs with
    | nil => intro i r h; simp [setValid.go] at h; subst h; rfl
    | cons v vs ih =>
      intro i r h
      cases v with
      | false => simp only [setValid.go, Bool.false_eq_true, if_false] at h; simpa using ih _ _ h
      | true =>
        simp only [setValid.go, if_true] at h
        cases hs : shapes[i]? with
        | none => rw [hs] at h; cases h
        | some s =>
          rw [hs] at h
          simp only at h
          cases hg : setValid.go shapes (i + 1) vs with
          | error e => rw [hg] at h; cases h
          | ok r' =>
            rw [hg] at h
            simp only [Except.ok.injEq] at h
            subst h
            simp [ih _ _ hg]
  unfold setValid at h
  cases hg : setValid.go shapes 0 v with
  | error e => rw [hg] at h; cases h
  | ok r =>
    rw [hg] at h
    simp only [Except.ok.injEq, Prod.mk.injEq] at h
    rw [← h.2]
    exact go _ _ _ hg

private theorem rows_length (nActs nMeas : ℕ) (f : List ℚ → Except PyErr Arr2) (sense : Arr2 → List ℚ) (fl : List Bool) (rows : List (List ℚ)) (h : makeDmIMat nActs nMeas f sense = .ok (fl, rows)) :
    rows.length = fl.count true := by
  unfold makeDmIMat at h
  cases h1 : (List.range nActs).mapM (pokeRow nActs f sense) with
  | error e => rw [h1] at h; cases h
  | ok m =>
    rw [h1] at h
    simp only at h
    cases h2 : validFlags m with
    | error e => rw [h2] at h; cases h
    | ok fl' =>
      rw [h2] at h
      simp only [Except.ok.injEq, Prod.mk.injEq] at h
      obtain ⟨rfl, rfl⟩ := h
      rw [Persist.compact_length]
      simp

private theorem makeIMat_times (cfg : Persist.Cfg) (sense : ℕ → Arr2 → List ℚ) (hs : ∀ k v a, sense k (times v a) = (sense k a).map (v * ·)) :
    ∀ (vs : List ℚ) (dms : List Persist.Dm) (k : ℕ), vs.length = dms.length → (∀ v ∈ vs, v ≠ 0) →
      Persist.makeIMat cfg sense k (pushedAll vs dms) = (Persist.makeIMat cfg sense k dms).map fun p => (pushedAll vs p.1, rescaleRows (unitOf vs p.1) p.2)
  | [], [], _, _, _ => rfl
  | [], _ :: _, _, h, _ => by simp at h
  | _ :: _, [], _, h, _ => by simp at h
  | v :: vs, d :: ds, k, h, hv => by
    have hv0 : v ≠ 0 := hv v (by simp)
    have ih := makeIMat_times cfg sense hs vs ds (k + 1) (by simpa using h) (fun x hx => hv x (by simp [hx]))
    have ec : pushedAll (v :: vs) (d :: ds) = pushed v d :: pushedAll vs ds := rfl
    rw [ec]
    simp only [Persist.makeIMat]
    rw [makeDmIMat_times (pushed v d).nActs cfg.totalMeas v hv0 (fun c => dmFrame cfg.scrn d.nElem 0 d.shapes (zero2 cfg.scrn) c) _
      (by intro c; simp only [pushed]; rw [C124_surface, dmFrame_commands]) (sense k) (fun a => hs k v a)]
    have en : (pushed v d).nActs = d.nActs := rfl
    have es : (pushed v d).shapes = d.shapes.map (times v) := rfl
    rw [en]
    cases h1 : makeDmIMat d.nActs cfg.totalMeas (fun c => dmFrame cfg.scrn d.nElem 0 d.shapes (zero2 cfg.scrn) c) (sense k) with
    | error e => rfl
    | ok p =>
      obtain ⟨fl, rows⟩ := p
      simp only [Except.map, es, setValid_map]
      cases h2 : setValid d.shapes fl with
      | error e => rfl
      | ok q =>
        obtain ⟨n, kept⟩ := q
        simp only [ih]
        cases Persist.makeIMat cfg sense (k + 1) ds with
        | error e => rfl
        | ok q =>
          obtain ⟨ds', rows'⟩ := q
          simp only [Except.map, Except.ok.injEq, Prod.mk.injEq]
          refine ⟨rfl, ?_⟩
          have hl : rows.length = kept.length := by rw [rows_length _ _ _ _ _ _ h1, kept_length _ _ _ _ h2]
          rw [rescaleRows_append, rescaleRows_const _ v rows (by intro p hp; simp [unitOf, ← hl, hp])]
          congr 2
          funext p
          simp [unitOf, hl]

/-- **C124 (calibration).**  With `iMatValue` of every mirror multiplied by a non-zero number, calibration keeps the same actuators (or stops with the same exception), and the rows of the interaction matrix are multiplied by the number of their mirror. -/
theorem C124_calibration (o : Optics) (ho : Optics.Sound o) (totalActs : ℕ) (vs : List ℚ) (dms : List Persist.Dm) (hl : vs.length = dms.length) (hv : ∀ v ∈ vs, v ≠ 0) :
    o.calibrate totalActs (pushedAll vs dms) = (o.calibrate totalActs dms).map fun p => (pushedAll vs p.1, rescaleRows (unitOf vs p.1) p.2) :=
  makeIMat_times _ _ (fun k v a => C111_poke_scaled o ho k v a (times v a) fun _ _ _ _ => rfl) vs dms 0 hl hv

/-! ### The whole simulation -/

private theorem rescale_add (g : ℕ → ℚ) (a b : List ℚ) : rescale g (List.zipWith (· + ·) a b) = List.zipWith (· + ·) (rescale g a) (rescale g b) := by
  apply List.ext_getElem?
  intro i
  rw [rescale_get, List.getElem?_zipWith, List.getElem?_zipWith, rescale_get, rescale_get]
  cases a[i]? <;> cases b[i]? <;> simp
  ring

private theorem rescale_tdot (g : ℕ → ℚ) (n : ℕ) (P : List (List ℚ)) (x : List ℚ) : tdot n (P.map (rescale g)) x = (tdot n P x).map (rescale g) := by
  unfold tdot
  simp only [List.length_map]
  split_ifs
  · simp only [Except.map, Except.ok.injEq]
    rw [List.zipWith_map_left]
    have e : ∀ (row : List ℚ) (y : ℚ), (rescale g row).map (y * ·) = rescale g (row.map (y * ·)) := by
      intro row y
      apply List.ext_getElem?
      intro i
      rw [List.getElem?_map, rescale_get, rescale_get, List.getElem?_map]
      cases row[i]? <;> simp
      ring
    simp only [e]
    have : ∀ (P : List (List ℚ)) (x acc : List ℚ), (List.zipWith (fun row y => rescale g (row.map (y * ·))) P x).foldl (List.zipWith (· + ·)) (rescale g acc) =
        rescale g ((List.zipWith (fun row y => row.map (y * ·)) P x).foldl (List.zipWith (· + ·)) acc) := by
      intro P
      induction P with
      | nil => intro x acc; simp
      | cons r P ih =>
        intro x acc
        cases x with
        | nil => simp
        | cons y x =>
          simp only [List.zipWith_cons_cons, List.foldl_cons]
          rw [← rescale_add, ih]
    rw [← this, rescale_zeros]
  · rfl

private theorem unitOf_at : ∀ (vs : List ℚ) (ds : List Persist.Dm) (k : ℕ) (v : ℚ) (d : Persist.Dm), vs[k]? = some v → ds[k]? = some d → ∀ j, j < d.shapes.length →
    unitOf vs ds (((ds.map fun d => d.shapes.length).take k).sum + j) = v
  | [], _, _, _, _, h, _, _, _ => by simp at h
  | _ :: _, [], _, _, _, _, h, _, _ => by simp at h
  | w :: vs, e :: ds, 0, v, d, h1, h2, j, hj => by
    simp at h1 h2
    subst h1 h2
    simp [unitOf, hj]
  | w :: vs, e :: ds, k + 1, v, d, h1, h2, j, hj => by
    have := unitOf_at vs ds k v d (by simpa using h1) (by simpa using h2) j hj
    rw [List.map_cons, List.take_succ_cons, List.sum_cons, unitOf, if_neg (by omega), ← this]
    congr 1
    omega

/-- **C124 (whole simulation).**  The user multiplies `iMatValue` of every mirror by some non-zero number, and the columns of the control matrix are divided by the number of their mirror.  Then the simulation calibrates itself in the same way and in every
frame all corrections and measurements are what they were; only the numbers called commands are divided by the number of their mirror. -/
theorem C124_whole (o : Optics) (ho : Optics.Sound o) (totalActs : ℕ) (vs : List ℚ) (dms dms' : List Persist.Dm) (M : List (List ℚ)) (hl : vs.length = dms.length) (hv : ∀ v ∈ vs, v ≠ 0)
    (hcal : o.calibrate totalActs dms = .ok (dms', M)) (P : List (List ℚ)) (delay : ℤ) (nIters nMeas nActs : ℕ) (saveSlopes saveDm : Bool) (turb : ℕ → ℕ → ℕ → ℕ → ℚ)
    (first : List DmCtl) (frames : List (List DmCtl)) (hf : ∀ f ∈ frames, f.map DmCtl.nValid = dms'.map fun d => d.shapes.length) :
    let g : ℕ → ℚ := fun p => (unitOf vs dms' p)⁻¹
    let sys := o.sys dms' P delay nIters saveSlopes saveDm
    let sys' := o.sys (pushedAll vs dms') (P.map (rescale g)) delay nIters saveSlopes saveDm
    o.calibrate totalActs (pushedAll vs dms) = .ok (pushedAll vs dms', rescaleRows (unitOf vs dms') M) ∧
    runLoop sys' (o.plant turb) (initial sys' first nMeas nActs ()) frames =
      (runLoop sys (o.plant turb) (initial sys first nMeas nActs ()) frames).map fun p => (rescaleState g p.1, p.2.map (rescaleTrace g)) := by
  intro g sys sys'
  refine ⟨by rw [C124_calibration o ho totalActs vs dms hl hv, hcal]; rfl, ?_⟩
  have hlen : vs.length = dms'.length := by
    rw [hl]
    exact (Persist.makeIMat_filtered _ _ _ _ _ _ hcal).1.length_eq
  have hinit : initial sys' first nMeas nActs () = rescaleState g (initial sys first nMeas nActs ()) := by
    simp [initial, rescaleState, rescale_zeros, sys, sys', Optics.sys]
  rw [hinit]
  refine C124_loop g sys sys' (o.plant turb) (dms'.map fun d => d.shapes.length) ⟨?_, ?_, rfl, rfl, rfl, rfl⟩ frames hf _
  · intro k n hk c hc
    rw [List.getElem?_map] at hk
    cases hd : dms'[k]? with
    | none => rw [hd] at hk; cases hk
    | some d =>
      rw [hd, Option.map_some, Option.some.injEq] at hk
      subst hk
      have hkl : k < dms'.length := (List.getElem?_eq_some_iff.mp hd).1
      have hvk : vs[k]? = some vs[k] := List.getElem?_eq_getElem (by omega)
      have hv0 : vs[k] ≠ 0 := hv _ (List.getElem_mem _)
      have hd' : (pushedAll vs dms')[k]? = some (pushed vs[k] d) := by
        rw [pushedAll, List.getElem?_zipWith, hvk, hd]
      simp only [sys, sys', Optics.sys, hd, hd']
      have e : dmFrame o.scrn (pushed vs[k] d).nElem 0 (pushed vs[k] d).shapes (zero2 o.scrn) (rescale (fun i => g (((dms'.map fun d => d.shapes.length).take k).sum + i)) c) =
          dmFrame o.scrn d.nElem 0 d.shapes (zero2 o.scrn) c := by
        simp only [pushed]
        rw [C124_surface]
        congr 1
        apply List.ext_getElem?
        intro i
        rw [List.getElem?_map, rescale_get]
        cases hci : c[i]? with
        | none => rfl
        | some x =>
          have hi : i < c.length := (List.getElem?_eq_some_iff.mp hci).1
          simp only [Option.map_some, Option.some.injEq, g]
          rw [unitOf_at vs dms' k vs[k] d hvk hd i (by omega), mul_inv_cancel_left₀ hv0]
      rw [e]
  · intro x
    simp only [sys, sys', Optics.sys]
    have e : ((pushedAll vs dms').map fun d => d.shapes.length) = dms'.map fun d => d.shapes.length := by
      apply List.ext_getElem (by simp [pushedAll, hlen])
      intro k h1 h2
      simp [pushedAll, pushed]
    rw [e, rescale_tdot]

/-! ### The inversion -/

open Soapy.Pinv Matrix in
/-- **C124 (inversion, one mirror).**  With the interaction matrix of one mirror multiplied by a number, the control matrix is divided by it, whatever `svdConditioning` is. -/
theorem C124_inversion {a m : ℕ} (M : Matrix (Fin a) (Fin m) ℝ) (v : ℝ) (hv : v ≠ 0) (S : Svd M) (T : Svd (v • M)) (r : ℝ) (hr : 0 ≤ r) : T.pinv r = v⁻¹ • S.pinv r := C125_scaled v hv S T r hr

open Soapy.Pinv Matrix in
/-- **C124 (inversion, several mirrors).**  With rows of the interaction matrix multiplied by different numbers, the columns of the control matrix are divided by them, *if* no two commands give the same measurements and neither inversion drops anything. -/
theorem C124_inversion_partial {a m : ℕ} (M : Matrix (Fin a) (Fin m) ℝ) (f : Fin a → ℝ) (hf : ∀ p, f p ≠ 0) (S : Svd M) (T : Svd (diagonal f * M)) (r : ℝ) (hr : 0 ≤ r)
    (hinj : ∀ c, measured M c = 0 → c = 0) (hS : ∀ i, S.s i ≠ 0 → r * S.top < S.s i) (hT : ∀ i, T.s i ≠ 0 → r * T.top < T.s i) :
    T.pinv r = S.pinv r * diagonal fun p => (f p)⁻¹ := by
  have pS := C125_penrose S r hr hS
  have pT := C125_penrose T r hr hT
  have hone : M * S.pinv r = 1 := by
    have h0 : Mᵀ * (M * S.pinv r - 1)ᵀ = 0 := by
      rw [← Matrix.transpose_mul, Matrix.sub_mul, pS.one, Matrix.one_mul, sub_self, Matrix.transpose_zero]
    have : (M * S.pinv r - 1)ᵀ = 0 := by
      ext i j
      have := hinj (fun i => (M * S.pinv r - 1)ᵀ i j) (by
        funext k
        exact congrFun (congrFun h0 k) j)
      exact congrFun this i
    rw [Matrix.transpose_eq_zero, sub_eq_zero] at this
    exact this
  have hd : diagonal f * (diagonal fun p => (f p)⁻¹) = 1 := by
    rw [diagonal_mul_diagonal]
    simp [hf]
  have hd' : (diagonal fun p => (f p)⁻¹) * diagonal f = 1 := by
    rw [diagonal_mul_diagonal]
    simp [hf]
  refine penrose_unique _ _ pT ⟨?_, ?_, ?_, ?_⟩
  · rw [Matrix.mul_assoc (diagonal f) M, ← Matrix.mul_assoc M (S.pinv r), hone, Matrix.one_mul, hd, Matrix.one_mul]
  · rw [Matrix.mul_assoc _ (diagonal f * M), Matrix.mul_assoc (diagonal f) M, ← Matrix.mul_assoc M (S.pinv r), hone, Matrix.one_mul, hd, Matrix.mul_one]
  · rw [Matrix.mul_assoc (diagonal f) M, ← Matrix.mul_assoc M (S.pinv r), hone, Matrix.one_mul, hd, Matrix.transpose_one]
  · rw [Matrix.mul_assoc (S.pinv r), ← Matrix.mul_assoc _ (diagonal f) M, hd', Matrix.one_mul]
    exact pS.four

open Soapy.Pinv Matrix in
private theorem diag_injective (b : ℝ) (hb : b ≠ 0) (c : Fin 2 → ℝ) (h : measured (diagonal ![1, b]) c = 0) : c = 0 := by
  unfold measured at h
  rw [diagonal_transpose] at h
  funext i
  have := congrFun h i
  rw [mulVec_diagonal] at this
  fin_cases i
  · simpa using this
  · simpa [hb] using this

open Soapy.Pinv Matrix in
private theorem diag_times (b d : ℝ) : diagonal ![1, d] * diagonal ![1, b] = diagonal ![1, d * b] := by
  rw [diagonal_mul_diagonal]
  congr 1
  funext i
  fin_cases i <;> simp

open Soapy.Pinv Matrix in
/-- **C124 (violated).**  In general the choice of `iMatValue` for one of two mirrors does matter: with `svdConditioning` 0.05 a mirror seen a tenth as well as another is used, and with its `iMatValue` divided by ten it is never moved. -/
theorem C124_violated : ∃ (M : Matrix (Fin 2) (Fin 2) ℝ) (f : Fin 2 → ℝ), (∀ p, f p ≠ 0) ∧ (∀ c, measured M c = 0 → c = 0) ∧ Nonempty (Svd M) ∧ Nonempty (Svd (diagonal f * M)) ∧
    ∀ (S : Svd M) (T : Svd (diagonal f * M)), commands (S.pinv (1 / 20)) ![0, 1] 1 = 10 ∧ ∀ x, commands (T.pinv (1 / 20)) x 1 = 0 := by
  refine ⟨diagonal ![1, 1 / 10], ![1, 1 / 10], ?_, diag_injective _ (by norm_num), ⟨diagSvd _ (hardly _ (by norm_num))⟩, ?_, ?_⟩
  · intro p
    fin_cases p <;> norm_num
  · rw [diag_times]
    exact ⟨diagSvd _ (hardly _ (by norm_num))⟩
  · have key : ∀ N : Matrix (Fin 2) (Fin 2) ℝ, N = diagonal ![1, 1 / 10 * (1 / 10)] → ∀ (T : Svd N) (x : Fin 2 → ℝ), commands (T.pinv (1 / 20)) x 1 = 0 := by
      rintro _ rfl T x
      rw [C125_unique T (diagSvd _ (hardly _ (by norm_num))) _ (by norm_num), diagSvd_commands]
      rw [Svd.inv, if_neg, zero_mul]
      unfold Svd.kept
      rw [diagSvd_top]
      change ¬ _ < (1 / 10 * (1 / 10) : ℝ)
      norm_num
    intro S T
    refine ⟨?_, key _ (diag_times _ _) T⟩
    rw [C125_unique S (diagSvd _ (hardly _ (by norm_num))) _ (by norm_num), diagSvd_commands]
    rw [Svd.inv, if_pos]
    · change 1 / (1 / 10 : ℝ) * 1 = 10
      norm_num
    · unfold Svd.kept
      rw [diagSvd_top]
      change _ < (1 / 10 : ℝ)
      norm_num

/-! ### Examples -/

open Soapy.Pinv Matrix in
private theorem two_kept (b : ℝ) (h0 : 1 / 100 < b) (h1 : b ≤ 1) (i : Fin 2) (_ : (diagSvd ![1, b] (hardly b (by linarith))).s i ≠ 0) : 1 / 100 * (diagSvd ![1, b] (hardly b (by linarith))).top < (diagSvd ![1, b] (hardly b (by linarith))).s i := by
  rw [diagSvd_top]
  have e : max ((![1, b] : Fin 2 → ℝ) 0) ((![1, b] : Fin 2 → ℝ) 1) = 1 := by simpa using h1
  rw [e]
  fin_cases i
  · change _ < (1 : ℝ)
    norm_num
  · change _ < b
    linarith

/-- The example of C111 with `iMatValue` of the two mirrors multiplied by 10 and by -3. -/
example (turb : ℕ → ℕ → ℕ → ℕ → ℚ) : ∃ dms', wholeOptics.calibrate 4 wholeDms = .ok (dms', wholeImat) ∧
    wholeOptics.calibrate 4 (pushedAll [10, -3] wholeDms) = .ok (pushedAll [10, -3] dms', rescaleRows (unitOf [10, -3] dms') wholeImat) ∧
    rescaleRows (unitOf [10, -3] dms') wholeImat = [[20, 0, 20, 0], [0, 20, 0, 20], [-30, 0, -42, 0]] := by
  have h1 : (wholeOptics.calibrate 4 wholeDms).map Prod.snd = .ok wholeImat := by decide +kernel
  have h2 : (wholeOptics.calibrate 4 wholeDms).map (fun p => p.1.map fun d => d.shapes.length) = .ok [2, 1] := by decide +kernel
  have ho : Optics.Sound wholeOptics := by
    refine ⟨by decide, ?_⟩
    intro w hw
    simp only [wholeOptics, List.mem_cons, List.not_mem_nil, or_false] at hw
    rcases hw with rfl | rfl <;> exact ⟨rfl, by simp [wholeWfs]⟩
  cases h : wholeOptics.calibrate 4 wholeDms with
  | error e => rw [h] at h1; cases h1
  | ok p =>
    obtain ⟨ds, M⟩ := p
    rw [h] at h1 h2
    simp only [Except.map, Except.ok.injEq] at h1 h2
    subst h1
    refine ⟨ds, rfl, (C124_whole wholeOptics ho 4 [10, -3] wholeDms ds wholeImat rfl (by simp) h wholeCmat 1 100 4 4 true false turb [] [] (by simp)).1, ?_⟩
    clear h
    rcases ds with _ | ⟨d, _ | ⟨e, _ | ⟨f, ds⟩⟩⟩
    · simp at h2
    · simp at h2
    · simp only [List.map_cons, List.map_nil, List.cons.injEq, and_true] at h2
      norm_num [rescaleRows, unitOf, h2.1, h2.2, wholeImat]
    · simp at h2

open Soapy.Pinv Matrix in
/-- Two mirrors, the second seen half as well, its `iMatValue` divided by five. -/
example (T : Svd (diagonal ![1, 1 / 5] * diagonal ![1, 1 / 2])) (hT : ∀ i, T.s i ≠ 0 → 1 / 100 * T.top < T.s i) :
    T.pinv (1 / 100) = (diagSvd ![1, 1 / 2] (hardly _ (by norm_num))).pinv (1 / 100) * diagonal fun p : Fin 2 => ((![1, 1 / 5] : Fin 2 → ℝ) p)⁻¹ :=
  C124_inversion_partial (diagonal ![1, 1 / 2]) ![1, 1 / 5] (by intro p; fin_cases p <;> norm_num) (diagSvd ![1, 1 / 2] (hardly _ (by norm_num))) T (1 / 100) (by norm_num) (diag_injective _ (by norm_num))
    (two_kept _ (by norm_num) (by norm_num)) hT

end Soapy.Props
