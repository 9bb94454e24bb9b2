/-
Property theorems C139: phase screens kept on disk.
-/
import Verif.Model.ScreenFiles
import Verif.Props.Atmos
import Std.Data.String.ToNat

namespace Soapy.Props

open Soapy.Mirror Soapy.Atmos Soapy.ScreenFiles

/-- Different layers have different files. -/
theorem C139_names (dir : String) (i j : ℕ) (h : path dir i = path dir j) : i = j := by
  unfold path at h
  have h1 := congrArg String.toList h
  simp only [String.toList_append, List.append_assoc, List.append_cancel_left_eq] at h1
  rw [List.append_cancel_right_eq, String.toList_inj] at h1
  exact Nat.repr_injective h1

/-- Screens kept in different directories do not meet, and this is where they are. -/
theorem C139_directory (dir dir' : String) (i : ℕ) : (path dir i = path dir' i → dir = dir') ∧ path dir i = s!"{dir}/scrn{i}.fits" := by
  refine ⟨fun h => ?_, by simp [path, String.append_assoc]; rfl⟩
  unfold path at h
  have h1 := congrArg String.toList h
  simp only [String.toList_append, List.append_assoc, List.append_cancel_right_eq] at h1
  exact String.toList_inj.mp h1

private theorem writeTo_ok (dir : String) (i : ℕ) (f : ScrFile) (d d' : Disk) :
    writeTo dir i f d = .ok d' ↔ d.dirs dir = true ∧ d.files (path dir i) = none ∧ d' = { d with files := Function.update d.files (path dir i) (some f) } := by
  unfold writeTo
  by_cases h1 : d.dirs dir = false
  · simp [h1]
  · rw [if_neg h1]
    simp only [Bool.not_eq_false] at h1
    cases h2 : d.files (path dir i) with
    | none => simp [h1, eq_comm]
    | some g => simp

private theorem writeTo_err (dir : String) (i : ℕ) (f : ScrFile) (d : Disk) (e : PyErr) (h : writeTo dir i f d = .error e) :
    e = .ioError ∧ (d.dirs dir = false ∨ (d.files (path dir i)).isSome) := by
  unfold writeTo at h
  split_ifs at h with h1 h2
  · exact ⟨(Except.error.inj h).symm, .inl h1⟩
  · exact ⟨(Except.error.inj h).symm, .inr h2⟩

/-- The numbers dealt with, in order, until the first that cannot be written. -/
private theorem saveLoop_spec (dir : String) (card : ℚ) (whole : ℕ → Option Arr2) (is : List ℕ) (hn : is.Nodup) (d : Disk) :
    ∃ k ≤ is.length, (∀ i ∈ is.take k, d.dirs dir = true ∧ (whole i).isSome ∧ d.files (path dir i) = none) ∧
      (saveLoop dir card whole is d).1.dirs = d.dirs ∧
      (∀ i ∈ is.take k, (saveLoop dir card whole is d).1.files (path dir i) = (whole i).map fun a => ⟨a, some card⟩) ∧
      (∀ p, (∀ i ∈ is.take k, path dir i ≠ p) → (saveLoop dir card whole is d).1.files p = d.files p) ∧
      ((k = is.length ∧ (saveLoop dir card whole is d).2 = .ok ()) ∨
        ∃ i, is[k]? = some i ∧ ((whole i = none ∧ (saveLoop dir card whole is d).2 = .error .keyError) ∨
          ((whole i).isSome ∧ (d.dirs dir = false ∨ (d.files (path dir i)).isSome) ∧ (saveLoop dir card whole is d).2 = .error .ioError))) := by
  induction is generalizing d with
  | nil => exact ⟨0, le_refl _, by simp, rfl, by simp, by intros; rfl, .inl ⟨rfl, rfl⟩⟩
  | cons i is ih =>
    rw [List.nodup_cons] at hn
    unfold saveLoop
    cases hw : whole i with
    | none => exact ⟨0, by simp, by simp, rfl, by simp, by intros; rfl, .inr ⟨i, by simp, .inl ⟨hw, rfl⟩⟩⟩
    | some a =>
      dsimp only
      cases hd : writeTo dir i ⟨a, some card⟩ d with
      | error e =>
        obtain ⟨rfl, h⟩ := writeTo_err _ _ _ _ _ hd
        exact ⟨0, by simp, by simp, rfl, by simp, by intros; rfl, .inr ⟨i, by simp, .inr ⟨by simp [hw], h, rfl⟩⟩⟩
      | ok d' =>
        obtain ⟨h1, h2, rfl⟩ := (writeTo_ok _ _ _ _ _).mp hd
        obtain ⟨k, hk, a1, a2, a3, a4, a5⟩ := ih hn.2 { d with files := Function.update d.files (path dir i) (some ⟨a, some card⟩) }
        have other : ∀ j ∈ is, path dir j ≠ path dir i := by
          intro j hj e
          have := C139_names _ _ _ e
          subst this
          exact hn.1 hj
        have mem : ∀ j ∈ is.take k, j ∈ is := fun j hj => List.mem_of_mem_take hj
        refine ⟨k + 1, by simpa using hk, ?_, a2, ?_, ?_, ?_⟩
        · intro j hj
          rcases List.mem_cons.mp (by simpa using hj) with rfl | hj
          · exact ⟨h1, by simp [hw], h2⟩
          · obtain ⟨b1, b2, b3⟩ := a1 j hj
            refine ⟨b1, b2, ?_⟩
            simpa only [Function.update_of_ne (other j (mem j hj))] using b3
        · intro j hj
          rcases List.mem_cons.mp (by simpa using hj) with rfl | hj
          · rw [a4 _ (fun q hq => other q (mem q hq)), hw]
            simp
          · exact a3 j hj
        · intro p hp
          have hp' : ∀ q ∈ i :: is.take k, path dir q ≠ p := by simpa using hp
          rw [a4 p (fun q hq => hp' q (List.mem_cons_of_mem _ hq))]
          exact Function.update_of_ne (hp' i (by simp)).symm _ _
        · rcases a5 with ⟨e, r⟩ | ⟨j, e, r⟩
          · exact .inl ⟨by simp [e], r⟩
          · refine .inr ⟨j, by simpa using e, ?_⟩
            rcases r with r | ⟨r1, r2, r3⟩
            · exact .inl r
            · refine .inr ⟨r1, ?_, r3⟩
              have hj : j ∈ is := List.mem_of_getElem? e
              simpa only [Function.update_of_ne (other j hj)] using r2

/-- **C139 (when screens are saved).** `saveScrns` succeeds exactly if the atmosphere has stored screens for all its layers, and, unless there are no layers, the directory exists and holds no file of
these names. Then every layer's screen is in its file, and no other file is touched. -/
theorem C139_save (dir : String) (unit pixel : ℚ) (whole : ℕ → Option Arr2) (n : ℕ) (d : Disk) :
    ((saveScrns dir unit pixel whole n d).2 = .ok () ↔ ∀ i < n, d.dirs dir = true ∧ (whole i).isSome ∧ d.files (path dir i) = none) ∧
    ((saveScrns dir unit pixel whole n d).2 = .ok () →
      (∀ i < n, (saveScrns dir unit pixel whole n d).1.files (path dir i) = (whole i).map fun a => ⟨a, some (unit / pixel)⟩) ∧
      ∀ p, (∀ i < n, path dir i ≠ p) → (saveScrns dir unit pixel whole n d).1.files p = d.files p) := by
  obtain ⟨k, hk, a1, a2, a3, a4, a5⟩ := saveLoop_spec dir (unit / pixel) whole (List.range n) List.nodup_range d
  unfold saveScrns
  rcases a5 with ⟨e, r⟩ | ⟨j, e, r⟩
  · have ek : (List.range n).take k = List.range n := by rw [e, List.take_length]
    rw [ek] at a1 a3 a4
    simp only [List.mem_range] at a1 a3 a4
    exact ⟨⟨fun _ => a1, fun _ => r⟩, fun _ => ⟨a3, a4⟩⟩
  · have hj : j < n := by
      have := List.mem_of_getElem? e
      simpa using this
    have bad : (saveLoop dir (unit / pixel) whole (List.range n) d).2 ≠ .ok () := by
      rcases r with ⟨_, r⟩ | ⟨_, _, r⟩ <;> rw [r] <;> simp
    refine ⟨⟨fun h => absurd h bad, fun h => ?_⟩, fun h => absurd h bad⟩
    exfalso
    obtain ⟨h1, h2, h3⟩ := h j hj
    rcases r with ⟨r, _⟩ | ⟨_, r | r, _⟩
    · rw [r] at h2; simp at h2
    · rw [r] at h1; simp at h1
    · rw [h3] at r; simp at r

/-- **C139 (nothing is overwritten).** However the saving ends, a file that was there before is unchanged. -/
theorem C139_never_overwrites (dir : String) (unit pixel : ℚ) (whole : ℕ → Option Arr2) (n : ℕ) (d : Disk) (p : String) (f : ScrFile) (h : d.files p = some f) :
    (saveScrns dir unit pixel whole n d).1.files p = some f := by
  obtain ⟨k, hk, a1, a2, a3, a4, a5⟩ := saveLoop_spec dir (unit / pixel) whole (List.range n) List.nodup_range d
  unfold saveScrns
  rw [a4 p ?_, h]
  intro i hi e
  have := (a1 i hi).2.2
  rw [e, h] at this
  cases this

/-- **C139 (a failed save).** If the screen with number `k` is the first that cannot be written, because a file of its name is there, the saving ends with an error, and the screens with smaller numbers are
written already: the directory holds a mixture of this atmosphere's screens and of what was there. -/
theorem C139_mixture (dir : String) (unit pixel : ℚ) (whole : ℕ → Option Arr2) (n k : ℕ) (hk : k < n) (d : Disk) (hd : d.dirs dir = true) (hw : ∀ i ≤ k, (whole i).isSome)
    (hf : ∀ i < k, d.files (path dir i) = none) (old : ScrFile) (ho : d.files (path dir k) = some old) :
    (saveScrns dir unit pixel whole n d).2 = .error .ioError ∧
    (∀ i < k, (saveScrns dir unit pixel whole n d).1.files (path dir i) = (whole i).map fun a => ⟨a, some (unit / pixel)⟩) ∧
    (saveScrns dir unit pixel whole n d).1.files (path dir k) = some old ∧
    ∀ i, k < i → (saveScrns dir unit pixel whole n d).1.files (path dir i) = d.files (path dir i) := by
  have keep := C139_never_overwrites dir unit pixel whole n d (path dir k) old ho
  obtain ⟨m, hm, a1, a2, a3, a4, a5⟩ := saveLoop_spec dir (unit / pixel) whole (List.range n) List.nodup_range d
  have tk : (List.range n).take m = List.range m := by
    rw [List.take_range, min_eq_left (by simpa using hm)]
  rw [tk] at a1 a3 a4
  simp only [List.mem_range] at a1 a3 a4
  have hmk : ¬ k < m := by
    intro h
    have := (a1 k h).2.2
    rw [ho] at this
    cases this
  have hkm : m = k ∧ (saveLoop dir (unit / pixel) whole (List.range n) d).2 = .error .ioError := by
    rcases a5 with ⟨e, r⟩ | ⟨j, e, r⟩
    · simp only [List.length_range] at e; omega
    · have hj : j = m := by
        rw [List.getElem?_range] at e
        · simpa [eq_comm] using e
        · by_contra hc
          rw [List.getElem?_eq_none (by simpa using hc)] at e
          cases e
      subst hj
      rcases r with ⟨r, _⟩ | ⟨_, r, r3⟩
      · have := hw j (by omega)
        rw [r] at this
        simp at this
      · refine ⟨?_, r3⟩
        by_contra hc
        rcases r with r | r
        · rw [r] at hd; cases hd
        · rw [hf j (by omega)] at r; simp at r
  refine ⟨hkm.2, ?_, keep, ?_⟩
  · intro i hi
    exact a3 i (by omega)
  · intro i hi
    apply a4
    intro j hj e
    have := C139_names _ _ _ e
    omega

/-- **C139 (saving twice).** A second call for the same directory fails and changes nothing, also if the screens have changed in the meantime. -/
theorem C139_twice (dir : String) (unit pixel : ℚ) (whole whole' : ℕ → Option Arr2) (n : ℕ) (hn : 0 < n) (d : Disk) (h : (saveScrns dir unit pixel whole n d).2 = .ok ())
    (h0 : (whole' 0).isSome) :
    (saveScrns dir unit pixel whole' n (saveScrns dir unit pixel whole n d).1).2 = .error .ioError ∧
    (saveScrns dir unit pixel whole' n (saveScrns dir unit pixel whole n d).1).1.files = (saveScrns dir unit pixel whole n d).1.files := by
  obtain ⟨c1, c2⟩ := C139_save dir unit pixel whole n d
  have hw := c1.mp h
  have hf := (c2 h).1 0 hn
  obtain ⟨a, ha⟩ := Option.isSome_iff_exists.mp (hw 0 hn).2.1
  rw [ha] at hf
  obtain ⟨k, hk, a1, a2, a3, a4, a5⟩ := saveLoop_spec dir (unit / pixel) whole' (List.range n) List.nodup_range (saveScrns dir unit pixel whole n d).1
  have hk0 : k = 0 := by
    by_contra hc
    have := (a1 0 (by rw [List.take_range]; simp; omega)).2.2
    rw [hf] at this
    simp at this
  subst hk0
  refine ⟨?_, funext fun p => a4 p (by simp)⟩
  rcases a5 with ⟨e, r⟩ | ⟨j, e, r⟩
  · simp at e; omega
  · have hj : j = 0 := by
      rw [List.getElem?_range hn] at e
      simpa [eq_comm] using e
    subst hj
    rcases r with ⟨r, _⟩ | ⟨_, _, r⟩
    · rw [r] at h0; simp at h0
    · exact r

/-- **C139 (infinite screens).** An atmosphere with infinite screens cannot be saved: a KeyError, and nothing is written. -/
theorem C139_infinite (dir : String) (unit pixel : ℚ) (n : ℕ) (hn : 0 < n) (d : Disk) : saveScrns dir unit pixel wholeInfinite n d = (d, .error .keyError) := by
  obtain ⟨m, rfl⟩ : ∃ m, n = m + 1 := ⟨n - 1, by omega⟩
  simp [saveScrns, List.range_succ_eq_map, saveLoop, wholeInfinite]

/-! ### Loading -/

private theorem loadLoop_spec (f32 amp : ℚ → ℚ) (unit pixel : ℚ) (s : ℕ) (names : List String) (d : Disk) (is : List ℕ) (as : List Arr2) :
    loadLoop f32 amp unit pixel s names d is = .ok as ↔
      List.Forall₂ (fun i a => ∃ name f, names[i]? = some name ∧ d.files name = some f ∧ loadScrn f32 amp unit pixel s f = .ok a) is as := by
  induction is generalizing as with
  | nil => simp [loadLoop, eq_comm]
  | cons i is ih =>
    unfold loadLoop
    cases hn : names[i]? with
    | none =>
      simp only [reduceCtorEq, false_iff]
      intro h
      cases h with
      | cons h _ => obtain ⟨name, f, e, _⟩ := h; rw [hn] at e; cases e
    | some name =>
      dsimp only
      cases hf : d.files name with
      | none =>
        simp only [reduceCtorEq, false_iff]
        intro h
        cases h with
        | cons h _ => obtain ⟨name', f, e, e', _⟩ := h; rw [hn] at e; cases e; rw [hf] at e'; cases e'
      | some f =>
        dsimp only
        cases hl : loadScrn f32 amp unit pixel s f with
        | error e =>
          simp only [reduceCtorEq, false_iff]
          intro h
          cases h with
          | cons h _ => obtain ⟨name', f', e, e', e''⟩ := h; rw [hn] at e; cases e; rw [hf] at e'; cases e'; rw [hl] at e''; cases e''
        | ok a =>
          dsimp only
          constructor
          · intro h
            cases hr : loadLoop f32 amp unit pixel s names d is with
            | error e => rw [hr] at h; cases h
            | ok r =>
              rw [hr] at h
              cases h
              exact .cons ⟨name, f, hn, hf, hl⟩ ((ih r).mp hr)
          · intro h
            cases h with
            | cons h t =>
              obtain ⟨name', f', e, e', e''⟩ := h
              rw [hn] at e; cases e; rw [hf] at e'; cases e'; rw [hl] at e''; cases e''
              rw [(ih _).mpr t]
              rfl

private theorem initLayers_spec (W s : ℕ) (v : ℕ → ℚ × ℚ) (k : ℕ) (as : List Arr2) (ls : List Layer) :
    initLayers W s v k as = .ok ls ↔ as.length = ls.length ∧ ∀ i a l, as[i]? = some a → ls[i]? = some l → initLayer W s a (v (k + i)) = .ok l := by
  induction as generalizing k ls with
  | nil =>
    simp only [initLayers, Except.ok.injEq, List.length_nil]
    constructor
    · rintro rfl; simp
    · rintro ⟨h, _⟩; exact (List.length_eq_zero_iff.mp h.symm).symm
  | cons a as ih =>
    unfold initLayers
    cases ha : initLayer W s a (v k) with
    | error e =>
      simp only [reduceCtorEq, false_iff]
      rintro ⟨h, h'⟩
      cases ls with
      | nil => simp at h
      | cons l ls =>
        have := h' 0 a l rfl rfl
        rw [add_zero, ha] at this
        cases this
    | ok l =>
      dsimp only
      cases ls with
      | nil =>
        cases hr : initLayers W s v (k + 1) as <;> simp [Except.map]
      | cons l' ls =>
        constructor
        · intro h
          cases hr : initLayers W s v (k + 1) as with
          | error e => rw [hr] at h; cases h
          | ok r =>
            rw [hr] at h
            have h := Except.ok.inj h
            simp only [List.cons.injEq] at h
            obtain ⟨rfl, rfl⟩ := h
            obtain ⟨b1, b2⟩ := (ih (k + 1) r).mp hr
            refine ⟨by simp [b1], ?_⟩
            rintro (_ | i) x y hx hy
            · simp only [List.getElem?_cons_zero, Option.some.injEq] at hx hy
              subst hx hy
              exact ha
            · have := b2 i x y (by simpa using hx) (by simpa using hy)
              rwa [show k + (i + 1) = k + 1 + i by omega]
        · rintro ⟨h, h'⟩
          have e := h' 0 a l' rfl rfl
          rw [add_zero, ha] at e
          cases e
          rw [(ih (k + 1) ls).mpr ⟨by simpa using h, ?_⟩]
          · rfl
          · intro i x y hx hy
            have := h' (i + 1) x y (by simpa using hx) (by simpa using hy)
            rwa [show k + 1 + i = k + (i + 1) by omega]

/-- The screen that the simulation uses if it finds the file `f`. -/
def usedScrn (f32 amp : ℚ → ℚ) (unit pixel : ℚ) (f : ScrFile) : Arr2 :=
  ⟨f.data.rows, f.data.cols, fun i j => match f.r0 with | none => f32 (f.data.px i j) | some h => f32 (f32 (f.data.px i j) * amp (unit / (h * pixel)))⟩

private theorem loadScrn_ok (f32 amp : ℚ → ℚ) (unit pixel : ℚ) (s : ℕ) (f : ScrFile) (a : Arr2) :
    loadScrn f32 amp unit pixel s f = .ok a ↔ s ≤ f.data.rows ∧ s ≤ f.data.cols ∧ a = usedScrn f32 amp unit pixel f := by
  unfold loadScrn
  by_cases h : f.data.rows < s ∨ f.data.cols < s
  · rw [if_pos h]
    simp only [reduceCtorEq, false_iff]
    omega
  · rw [if_neg h]
    simp only [Except.ok.injEq]
    push Not at h
    exact ⟨fun e => ⟨h.1, h.2, e.symm⟩, fun e => e.2.2.symm⟩

private theorem loadLoop_files (f32 amp : ℚ → ℚ) (unit pixel : ℚ) (s n W : ℕ) (hW : s ≤ W) (names : List String) (d : Disk) (file : ℕ → ScrFile)
    (h : ∀ i < n, ∃ name, names[i]? = some name ∧ d.files name = some (file i) ∧ (file i).data.rows = W ∧ (file i).data.cols = W) :
    loadLoop f32 amp unit pixel s names d (List.range n) = .ok ((List.range n).map fun i => usedScrn f32 amp unit pixel (file i)) := by
  rw [loadLoop_spec, List.forall₂_map_right_iff, List.forall₂_same]
  intro i hi
  obtain ⟨name, e1, e2, e3, e4⟩ := h i (List.mem_range.mp hi)
  exact ⟨name, file i, e1, e2, (loadScrn_ok _ _ _ _ _ _ _).mpr ⟨by omega, by omega, rfl⟩⟩

private theorem initLayers_exists (W s : ℕ) (v : ℕ → ℚ × ℚ) (hW : s ≤ W) (k : ℕ) (as : List Arr2) (h : ∀ a ∈ as, a.rows = W ∧ a.cols = W) : ∃ ls, initLayers W s v k as = .ok ls := by
  induction as generalizing k with
  | nil => exact ⟨[], rfl⟩
  | cons a as ih =>
    obtain ⟨l, hl⟩ := (C24_init_iff W s a (v k)).mpr ⟨hW, h a (by simp)⟩
    obtain ⟨ls, hls⟩ := ih (k + 1) (fun x hx => h x (by simp [hx]))
    exact ⟨l :: ls, by simp [initLayers, hl, hls, Except.map]⟩

/-- **C139 (loading).** What is in the files, all squares of the same size that hold the window, is what the simulation starts with. -/
theorem C139_load (f32 amp : ℚ → ℚ) (unit pixel : ℚ) (s n W : ℕ) (hn : 0 < n) (hW : s ≤ W) (v : ℕ → ℚ × ℚ) (names : List String) (d : Disk) (file : ℕ → ScrFile)
    (h : ∀ i < n, ∃ name, names[i]? = some name ∧ d.files name = some (file i) ∧ (file i).data.rows = W ∧ (file i).data.cols = W) :
    fromFiles f32 amp unit pixel s n v names d = initLayers W s v 0 ((List.range n).map fun i => usedScrn f32 amp unit pixel (file i)) := by
  unfold fromFiles
  rw [loadLoop_files f32 amp unit pixel s n W hW names d file h]
  obtain ⟨m, rfl⟩ : ∃ m, n = m + 1 := ⟨n - 1, by omega⟩
  have hl : ((List.range (m + 1)).map fun i => usedScrn f32 amp unit pixel (file i)).getLast? = some (usedScrn f32 amp unit pixel (file m)) := by
    rw [List.range_succ, List.map_append]
    simp
  obtain ⟨_, _, _, hr, _⟩ := h m (by omega)
  dsimp only
  rw [hl]
  dsimp only
  rw [show (usedScrn f32 amp unit pixel (file m)).rows = W from hr, if_neg (by omega)]

/-- **C139 (which files are accepted).** The simulation starts from stored screens exactly if there is a layer, there is a name for every layer, every named file exists, and all screens are squares of one
size that hold the window. (Only the size of the last screen is compared with the configuration, but different sizes are refused later.) -/
theorem C139_accepts (f32 amp : ℚ → ℚ) (unit pixel : ℚ) (s n : ℕ) (v : ℕ → ℚ × ℚ) (names : List String) (d : Disk) :
    (∃ ls, fromFiles f32 amp unit pixel s n v names d = .ok ls) ↔
      0 < n ∧ ∃ W, s ≤ W ∧ ∀ i < n, ∃ name f, names[i]? = some name ∧ d.files name = some f ∧ f.data.rows = W ∧ f.data.cols = W := by
  constructor
  · rintro ⟨ls, h⟩
    unfold fromFiles at h
    cases hl : loadLoop f32 amp unit pixel s names d (List.range n) with
    | error e => rw [hl] at h; cases h
    | ok as =>
      rw [hl] at h
      dsimp only at h
      cases hg : as.getLast? with
      | none => rw [hg] at h; cases h
      | some a =>
        rw [hg] at h
        dsimp only at h
        split_ifs at h with hs
        obtain ⟨e, h⟩ := (initLayers_spec _ _ _ _ _ _).mp h
        have hf := (loadLoop_spec _ _ _ _ _ _ _ _ _).mp hl
        have hlen := hf.length_eq
        simp only [List.length_range] at hlen
        have hne : as ≠ [] := by rintro rfl; simp at hg
        refine ⟨by rw [hlen]; exact List.length_pos_of_ne_nil hne, a.rows, by omega, ?_⟩
        intro i hi
        have hi' : i < as.length := by omega
        have hl' : i < ls.length := by omega
        obtain ⟨name, f, e1, e2, e3⟩ := List.Forall₂.get hf (i := i) (by simpa using hi) hi'
        have hi2 := h i as[i] ls[i] (List.getElem?_eq_getElem hi') (List.getElem?_eq_getElem hl')
        have := ((C24_init_iff _ _ _ _).mp ⟨_, hi2⟩).2
        simp only [List.get_eq_getElem, List.getElem_range] at e1 e3
        obtain ⟨_, _, e4⟩ := (loadScrn_ok _ _ _ _ _ _ _).mp e3
        rw [e4] at this
        exact ⟨name, f, e1, e2, this⟩
  · rintro ⟨hn, W, hW, h⟩
    have h' : ∀ i, ∃ f, i < n → ∃ name, names[i]? = some name ∧ d.files name = some f ∧ f.data.rows = W ∧ f.data.cols = W := by
      intro i
      by_cases hi : i < n
      · obtain ⟨name, f, r⟩ := h i hi
        exact ⟨f, fun _ => ⟨name, r⟩⟩
      · exact ⟨⟨⟨0, 0, fun _ _ => 0⟩, none⟩, fun c => absurd c hi⟩
    choose file hfile using h'
    rw [C139_load f32 amp unit pixel s n W hn hW v names d file hfile]
    apply initLayers_exists W s v hW
    intro a ha
    obtain ⟨i, hi, rfl⟩ := List.mem_map.mp ha
    obtain ⟨_, _, _, r⟩ := hfile i (List.mem_range.mp hi)
    exact r

/-! ### Saved and loaded again -/

/-- **C139 (saved and loaded).** From the files that `saveScrns` has written a simulation with the same pixels starts with exactly the screens that were saved, rounded to single precision. -/
theorem C139_reload (f32 amp : ℚ → ℚ) (h32 : ∀ x, f32 (f32 x) = f32 x) (hamp : amp 1 = 1) (unit pixel : ℚ) (hu : unit ≠ 0) (hp : pixel ≠ 0) (s W : ℕ) (hW : s ≤ W) (v : ℕ → ℚ × ℚ)
    (dir : String) (d : Disk) (cur : List Layer) (hne : cur ≠ []) (hsq : ∀ l ∈ cur, l.scr.rows = W ∧ l.scr.cols = W)
    (hok : (saveScrns dir unit pixel (wholeOf cur) cur.length d).2 = .ok ()) :
    fromFiles f32 amp unit pixel s cur.length v ((List.range cur.length).map (path dir)) (saveScrns dir unit pixel (wholeOf cur) cur.length d).1
      = initLayers W s v 0 (cur.map fun l => rounded f32 l.scr) := by
  have hf := ((C139_save dir unit pixel (wholeOf cur) cur.length d).2 hok).1
  have e1 : unit / (unit / pixel * pixel) = 1 := by rw [div_mul_cancel₀ _ hp, div_self hu]
  have used : ∀ a : Arr2, usedScrn f32 amp unit pixel ⟨a, some (unit / pixel)⟩ = rounded f32 a := by
    intro a
    simp only [usedScrn, rounded, e1, hamp, mul_one, h32]
  rw [C139_load f32 amp unit pixel s cur.length W (List.length_pos_of_ne_nil hne) hW v _ _ (fun i => ⟨((wholeOf cur i).getD ⟨0, 0, fun _ _ => 0⟩), some (unit / pixel)⟩)]
  · congr 1
    apply List.ext_getElem
    · simp
    · intro i h1 h2
      simp only [List.getElem_map, List.getElem_range, used]
      have : i < cur.length := by simpa using h1
      simp [wholeOf, this]
  · intro i hi
    have := hsq cur[i] (List.getElem_mem hi)
    refine ⟨path dir i, by simp [hi], ?_, ?_⟩
    · rw [hf i hi]
      simp [wholeOf, hi]
    · simpa [wholeOf, hi] using this

private theorem initLayers_scr (W s : ℕ) (v : ℕ → ℚ × ℚ) (k : ℕ) (as : List Arr2) (ls : List Layer) (h : initLayers W s v k as = .ok ls) :
    ls.map Layer.scr = as ∧ (∀ l ∈ ls, l.scr.rows = W ∧ l.scr.cols = W) := by
  obtain ⟨e, h⟩ := (initLayers_spec _ _ _ _ _ _).mp h
  have one : ∀ i (hi : i < ls.length), ls[i].scr = as[i]'(by omega) ∧ ls[i].scr.rows = W ∧ ls[i].scr.cols = W := by
    intro i hi
    have hi' : i < as.length := by omega
    have := h i as[i] ls[i] (List.getElem?_eq_getElem hi') (List.getElem?_eq_getElem hi)
    have hs : ls[i].scr = as[i] := by
      unfold initLayer at this
      split_ifs at this <;> exact (congrArg Layer.scr (Except.ok.inj this)).symm
    refine ⟨hs, ?_⟩
    rw [hs]
    exact ((C24_init_iff _ _ _ _).mp ⟨_, this⟩).2
  constructor
  · apply List.ext_getElem (by simp [e])
    intro i h1 h2
    rw [List.getElem_map]
    exact (one i (by simpa using h1)).1
  · intro l hl
    obtain ⟨i, hi, rfl⟩ := List.getElem_of_mem hl
    exact (one i hi).2

/-- **C139 (the same turbulence again).** Screens in single precision that were saved when the simulation was set up give, loaded again, the same atmosphere: every layer is in the same state, so that in every
frame, for every strength, the same screen is handed out. -/
theorem C139_replay (f32 amp : ℚ → ℚ) (h32 : ∀ x, f32 (f32 x) = f32 x) (hamp : amp 1 = 1) (unit pixel : ℚ) (hu : unit ≠ 0) (hp : pixel ≠ 0) (s W : ℕ) (hW : s ≤ W) (v : ℕ → ℚ × ℚ)
    (dir : String) (d : Disk) (as : List Arr2) (hsingle : ∀ a ∈ as, ∀ i j, f32 (a.px i j) = a.px i j) (ls : List Layer) (hne : ls ≠ []) (h : initLayers W s v 0 as = .ok ls)
    (hok : (saveScrns dir unit pixel (wholeOf ls) ls.length d).2 = .ok ()) :
    fromFiles f32 amp unit pixel s ls.length v ((List.range ls.length).map (path dir)) (saveScrns dir unit pixel (wholeOf ls) ls.length d).1 = .ok ls := by
  obtain ⟨e, hsq⟩ := initLayers_scr _ _ _ _ _ _ h
  rw [C139_reload f32 amp h32 hamp unit pixel hu hp s W hW v dir d ls hne hsq hok, ← h, ← e]
  congr 1
  apply List.map_congr_left
  intro l hl
  have := hsingle l.scr (by rw [← e]; exact List.mem_map_of_mem hl)
  simp [rounded, this]

private theorem no_wrap (W s : ℕ) (v : ℚ × ℚ) (l : Layer) (h1 : 0 ≤ v.1) (h2 : 0 ≤ v.2) (hx : l.posX = 0) (hy : l.posY = 0) (n : ℕ)
    (hn : ∀ k < n, k * v.1 + s < W ∧ k * v.2 + s < W) : (runLayer W s v l n).scr = l.scr ∧ (runLayer W s v l n).posX = n * v.1 ∧ (runLayer W s v l n).posY = n * v.2 := by
  induction n with
  | zero => simp [runLayer, hx, hy]
  | succ n ih =>
    obtain ⟨a, b, c⟩ := ih (fun k hk => hn k (by omega))
    obtain ⟨m1, m2⟩ := hn n (by omega)
    have n0 : (0 : ℚ) ≤ n * v.1 := by positivity
    have n1 : (0 : ℚ) ≤ n * v.2 := by positivity
    have wx : wrapX W s (runLayer W s v l n) = runLayer W s v l n := by
      unfold wrapX
      simp only [b, not_le.mpr m1, if_false, not_lt.mpr n0]
    have wy : wrapY W s (runLayer W s v l n) = runLayer W s v l n := by
      unfold wrapY
      simp only [c, not_le.mpr m2, if_false, not_lt.mpr n1]
    simp only [runLayer, wx, wy, advance, a, b, c]
    refine ⟨trivial, ?_, ?_⟩ <;> push_cast <;> ring

/-- **C139 (saved in the middle of a run).** Where the window is on the screens is not saved. As long as no window has reached an edge, the files are the same as at the start, and a simulation that loads them
begins again with the first frame. -/
theorem C139_restart (f32 amp : ℚ → ℚ) (h32 : ∀ x, f32 (f32 x) = f32 x) (hamp : amp 1 = 1) (unit pixel : ℚ) (hu : unit ≠ 0) (hp : pixel ≠ 0) (s W : ℕ) (hW : s ≤ W) (v : ℕ → ℚ × ℚ)
    (dir : String) (d : Disk) (as : List Arr2) (hsingle : ∀ a ∈ as, ∀ i j, f32 (a.px i j) = a.px i j) (ls : List Layer) (hne : ls ≠ []) (h : initLayers W s v 0 as = .ok ls)
    (m : ℕ) (hv : ∀ i < ls.length, 0 ≤ (v i).1 ∧ 0 ≤ (v i).2 ∧ ∀ k < m, k * (v i).1 + s < W ∧ k * (v i).2 + s < W)
    (hok : (saveScrns dir unit pixel (wholeOf (runLayers W s v m ls)) ls.length d).2 = .ok ()) :
    fromFiles f32 amp unit pixel s ls.length v ((List.range ls.length).map (path dir)) (saveScrns dir unit pixel (wholeOf (runLayers W s v m ls)) ls.length d).1 = .ok ls := by
  have same : wholeOf (runLayers W s v m ls) = wholeOf ls := by
    funext i
    unfold wholeOf runLayers
    rw [List.getElem?_mapIdx]
    by_cases hi : i < ls.length
    · obtain ⟨v1, v2, v3⟩ := hv i hi
      have hi' : i < as.length := by rw [((initLayers_spec _ _ _ _ _ _).mp h).1]; exact hi
      have hl := ((initLayers_spec _ _ _ _ _ _).mp h).2 i as[i] ls[i] (List.getElem?_eq_getElem hi') (List.getElem?_eq_getElem hi)
      rw [zero_add] at hl
      obtain ⟨_, px, py, _⟩ := init_inv _ _ _ _ _ hl
      simp only [startPos, not_lt.mpr v1, not_lt.mpr v2, if_false] at px py
      rw [List.getElem?_eq_getElem hi]
      simp only [Option.map_some]
      rw [(no_wrap W s (v i) ls[i] v1 v2 px py m v3).1]
    · rw [List.getElem?_eq_none (by omega)]
      rfl
  rw [same] at hok ⊢
  exact C139_replay f32 amp h32 hamp unit pixel hu hp s W hW v dir d as hsingle ls hne h hok

/-- **C139 (saved later).** In general the files hold the original screens moved round by whole pixels. -/
theorem C139_rolled (s W : ℕ) (hW : 0 < W) (v : ℕ → ℚ × ℚ) (dir : String) (unit pixel : ℚ) (d : Disk) (as : List Arr2) (ls : List Layer) (h : initLayers W s v 0 as = .ok ls) (m : ℕ)
    (hok : (saveScrns dir unit pixel (wholeOf (runLayers W s v m ls)) ls.length d).2 = .ok ()) (i : ℕ) (a : Arr2) (hi : as[i]? = some a) :
    ∃ (f : ScrFile) (rx ry : ℤ), (saveScrns dir unit pixel (wholeOf (runLayers W s v m ls)) ls.length d).1.files (path dir i) = some f ∧ f.data.rows = W ∧ f.data.cols = W ∧
      f.r0 = some (unit / pixel) ∧ ∀ x y : ℕ, x < W → y < W → f.data.px x y = a.px (((x : ℤ) + rx) % W).toNat (((y : ℤ) + ry) % W).toNat := by
  have hf := ((C139_save dir unit pixel (wholeOf (runLayers W s v m ls)) ls.length d).2 hok).1
  obtain ⟨e, hl⟩ := (initLayers_spec _ _ _ _ _ _).mp h
  have hi' : i < ls.length := by
    rw [← e]
    by_contra hc
    rw [List.getElem?_eq_none (by omega)] at hi
    cases hi
  have hl := hl i a ls[i] hi (List.getElem?_eq_getElem hi')
  rw [zero_add] at hl
  obtain ⟨inv, _⟩ := run_inv W s hW a (v i) ls[i] hl m
  refine ⟨⟨(runLayer W s (v i) ls[i] m).scr, some (unit / pixel)⟩, _, _, ?_, inv.rows, inv.cols, rfl, inv.px⟩
  rw [hf i hi']
  simp [wholeOf, runLayers, hi']

/-! ### Screens made beforehand -/

private theorem makeLoop_none (card : ℚ) (gen : ℕ → Arr2) (is : List ℕ) (d : Disk) : makeLoop none card gen is d = (d, .ok (is.map gen)) := by
  induction is with
  | nil => rfl
  | cons i is ih => simp [makeLoop, ih, Except.map]

private theorem makeLoop_save (p : String) (card : ℚ) (gen : ℕ → Arr2) (is : List ℕ) (d : Disk) :
    makeLoop (some p) card gen is d = ((saveLoop p card (fun i => some (gen i)) is d).1, (saveLoop p card (fun i => some (gen i)) is d).2.map fun _ => is.map gen) := by
  induction is generalizing d with
  | nil => rfl
  | cons i is ih =>
    unfold makeLoop saveLoop
    dsimp only
    cases writeTo p i ⟨gen i, some card⟩ d with
    | error e => rfl
    | ok d' =>
      dsimp only
      rw [ih]
      cases (saveLoop p card (fun i => some (gen i)) is d').2 <;> rfl

/-- **C139 (screens made beforehand).** Without a directory `makePhaseScreens` returns the screens and writes nothing. With a directory (which is made if it is missing) that holds no file of these names, it
returns the screens and writes them, and a simulation that is given the files uses each of them with the one factor `amp (unit / (r0 / q * pixel))`. -/
theorem C139_make (f32 amp : ℚ → ℚ) (unit r0 q pixel : ℚ) (s n N : ℕ) (hn : 0 < n) (hs : s ≤ N) (v : ℕ → ℚ × ℚ) (gen : ℕ → Arr2) (hg : ∀ i < n, (gen i).rows = N ∧ (gen i).cols = N) (d : Disk) :
    makePhaseScreens none r0 q gen n d = (d, .ok ((List.range n).map gen)) ∧
    ∀ p, p ≠ "" → (∀ i < n, d.files (path p i) = none) →
      (makePhaseScreens (some p) r0 q gen n d).2 = .ok ((List.range n).map gen) ∧
      (∀ i < n, (makePhaseScreens (some p) r0 q gen n d).1.files (path p i) = some ⟨gen i, some (r0 / q)⟩) ∧
      fromFiles f32 amp unit pixel s n v ((List.range n).map (path p)) (makePhaseScreens (some p) r0 q gen n d).1
        = initLayers N s v 0 ((List.range n).map fun k => ⟨N, N, fun i j => f32 (f32 ((gen k).px i j) * amp (unit / (r0 / q * pixel)))⟩) := by
  refine ⟨makeLoop_none _ _ _ _, ?_⟩
  intro p hp hf
  have e : makePhaseScreens (some p) r0 q gen n d = ((saveScrns p r0 q (fun i => some (gen i)) n { d with dirs := Function.update d.dirs p true }).1,
      (saveScrns p r0 q (fun i => some (gen i)) n { d with dirs := Function.update d.dirs p true }).2.map fun _ => (List.range n).map gen) := by
    unfold makePhaseScreens saveScrns
    dsimp only
    rw [if_neg hp, makeLoop_save]
  obtain ⟨c1, c2⟩ := C139_save p r0 q (fun i => some (gen i)) n { d with dirs := Function.update d.dirs p true }
  have ok := c1.mpr (fun i hi => ⟨by simp, by simp, hf i hi⟩)
  have hfile := (c2 ok).1
  rw [e]
  refine ⟨by rw [ok]; rfl, fun i hi => by simpa using hfile i hi, ?_⟩
  rw [C139_load f32 amp unit pixel s n N hn hs v _ _ (fun i => ⟨gen i, some (r0 / q)⟩)]
  · congr 1
    apply List.map_congr_left
    intro k hk
    obtain ⟨g1, g2⟩ := hg k (List.mem_range.mp hk)
    simp [usedScrn, g1, g2]
  · intro i hi
    exact ⟨path p i, by simp [hi], by simpa using hfile i hi, hg i hi⟩

/-! ### Concrete cases -/

/-- An empty disk with the directory "screens". -/
def emptyDisk : Disk := ⟨fun p => p = "screens", fun _ => none⟩

/-- A screen of 4 × 4 pixels that rises along the first axis. -/
def rampScrn : Arr2 := ⟨4, 4, fun i _ => i⟩

example : ∃ ls, initLayers 4 2 (fun _ => (1, 0)) 0 [rampScrn, rampScrn] = .ok ls ∧ ls ≠ [] ∧ (saveScrns "screens" 1 (1 / 8) (wholeOf ls) ls.length emptyDisk).2 = .ok () := by
  refine ⟨_, rfl, by simp, ?_⟩
  rw [(C139_save _ _ _ _ _ _).1]
  intro i hi
  refine ⟨by simp [emptyDisk], ?_, rfl⟩
  simp only [wholeOf, Option.isSome_map]
  rw [List.getElem?_eq_getElem hi]
  rfl

/-- A directory that already has the second file of three. -/
example : ∃ (d : Disk) (old : ScrFile), d.dirs "screens" = true ∧ (∀ i ≤ 1, (wholeOf ([rampScrn, rampScrn, rampScrn].map fun a => ⟨a, a, 0, 0, [], []⟩) i).isSome) ∧
    (∀ i < 1, d.files (path "screens" i) = none) ∧ d.files (path "screens" 1) = some old := by
  refine ⟨⟨fun _ => true, fun p => if p = path "screens" 1 then some ⟨rampScrn, none⟩ else none⟩, ⟨rampScrn, none⟩, rfl, ?_, ?_, by simp⟩
  · intro i hi
    rcases i with _ | _ | i
    · rfl
    · rfl
    · omega
  · intro i hi
    obtain rfl : i = 0 := by omega
    dsimp only
    rw [if_neg]
    intro e
    have := C139_names _ _ _ e
    omega

example : (∀ k < 2, (k : ℚ) * (1 : ℚ) + (2 : ℕ) < (4 : ℕ) ∧ (k : ℚ) * (0 : ℚ) + (2 : ℕ) < (4 : ℕ)) := by
  intro k hk
  have : (k : ℚ) < 2 := by exact_mod_cast hk
  constructor <;> push_cast <;> linarith

/-- Saved after one frame and loaded again, the ramp is not where it would be in the next frame: the run starts again. -/
theorem C139_no_resume : ∃ l, initLayer 4 2 rampScrn (1, 0) = .ok l ∧ (runLayer 4 2 (1, 0) l 1).scr = rampScrn ∧
    outLayer (fun a x y => a.px ⌊x⌋.toNat ⌊y⌋.toNat) 1 4 2 (1, 0) l 0 = [[0, 0], [1, 1]] ∧
    outLayer (fun a x y => a.px ⌊x⌋.toNat ⌊y⌋.toNat) 1 4 2 (1, 0) l 1 = [[1, 1], [2, 2]] := by
  refine ⟨_, rfl, ?_, ?_, ?_⟩
  · simp [runLayer, wrapX, wrapY, advance, rampScrn]; norm_num
  · simp [outLayer, moveLayer, runLayer, wrapX, wrapY, coordsFrom, List.range_succ, rampScrn]; norm_num
  · simp [outLayer, moveLayer, runLayer, wrapX, wrapY, advance, coordsFrom, List.range_succ, rampScrn]; norm_num; rfl

end Soapy.Props
