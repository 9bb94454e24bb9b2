/-
C104: an FFT object gives the transform of what it is given, whatever library does the work.
-/
import Verif.Model.FftObj

namespace Soapy.Props

open Soapy.FftObj

variable {α : Type} [Zero α]

omit [Zero α] in
private theorem fill_eq {n : ℕ} {v w : List α} (h : fill n v = .ok w) : w.length = n := by
  unfold fill at h
  split at h
  · cases h; assumption
  · split at h
    · cases h; simp
    · cases h

omit [Zero α] in
private theorem fill_same {n : ℕ} {v : List α} (h : v.length = n) : fill n v = .ok v := by simp [fill, h]

omit [Zero α] in
private theorem map_ok {β γ : Type} {x : Except PyErr β} {f : β → γ} {c : γ} (h : x.map f = .ok c) : ∃ b, x = .ok b ∧ f b = c := by
  cases x with
  | error e => cases h
  | ok b => exact ⟨b, rfl, by cases h; rfl⟩

/-- scipy: the result is a new array with the transform of the data, brought to the size of the object with zeros; nothing that existed before changes. -/
theorem C104_scipy (lib : Lib α) (m : Mem α) (o : Obj) (ho : o.mode = .scipy) (l : ℕ) :
    ∃ m' o', call lib m o (some l) = .ok (m', o', m.next) ∧ m'.at_ m.next = lib.dft o.backward ((m.at_ l).take o.n ++ List.replicate (o.n - (m.at_ l).length) 0) ∧
      (∀ k, k ≠ m.next → m'.at_ k = m.at_ k) ∧ m.next < m'.next := by
  refine ⟨_, _, by simp only [call, ho]; rfl, ?_, ?_, ?_⟩
  · simp [Mem.new, resize]
  · intro k hk
    simp [Mem.new, hk]
  · simp [Mem.new]

private theorem scipy_step (lib : Lib α) (s s' : Mem α × Obj) (hs : s.2.mode = .scipy) (op : Op α) (h : step lib s op = .ok s') (r : ℕ) (hr : r < s.1.next) (hw : ∀ v, op ≠ .write r v) :
    s'.1.at_ r = s.1.at_ r ∧ s'.2.mode = .scipy ∧ r < s'.1.next := by
  obtain ⟨m, o⟩ := s
  have hn : r ≠ m.next := Nat.ne_of_lt hr
  cases op with
  | call d =>
    simp only [step] at h
    obtain ⟨b, hb, rfl⟩ := map_ok h
    simp only at hs hr
    simp only [call, hs] at hb
    cases hb
    refine ⟨by simp [Mem.new, hn], ?_, by simp only [Mem.new]; omega⟩
    cases d <;> simp [hs]
  | write l v =>
    simp only [step] at h
    obtain ⟨b, hb, rfl⟩ := map_ok h
    have : r ≠ l := fun hl => hw v (by rw [hl])
    exact ⟨by simp [Mem.set, this], hs, hr⟩
  | make v =>
    simp only [step] at h
    cases h
    exact ⟨by simp [Mem.new, hn], hs, by simp only [Mem.new]; simp only at hr; omega⟩
  | setInput l =>
    simp only [step] at h
    cases h
    exact ⟨rfl, hs, hr⟩

/-- scipy: an array that exists keeps its numbers whatever is done with the object later, unless it is written to by the user: results are never overwritten. -/
theorem C104_scipy_kept (lib : Lib α) (ops : List (Op α)) (s s' : Mem α × Obj) (hs : s.2.mode = .scipy) (r : ℕ) (hr : r < s.1.next) (hw : ∀ v, Op.write r v ∉ ops)
    (h : runOps lib s ops = .ok s') : s'.1.at_ r = s.1.at_ r := by
  induction ops generalizing s with
  | nil => cases h; rfl
  | cons op ops ih =>
    rw [runOps] at h
    cases h1 : step lib s op with
    | error e => rw [h1] at h; cases h
    | ok t =>
      rw [h1] at h
      obtain ⟨e1, e2, e3⟩ := scipy_step lib s t hs op h1 r hr (fun v hv => hw v (by rw [hv]; exact List.mem_cons_self))
      rw [← e1]
      exact ih t e2 e3 (fun v hv => hw v (List.mem_cons_of_mem _ hv)) h

/-- What holds in a pyfftw object whose attribute `inputData` was never set. -/
private def Good (n : ℕ) (b : Bool) (s : Mem α × Obj) : Prop :=
  s.2.mode = .pyfftw ∧ s.2.n = n ∧ s.2.backward = b ∧ s.2.inputData = s.2.planIn ∧ s.2.planIn ≠ s.2.planOut ∧ (s.1.at_ s.2.planIn).length = n ∧ (s.1.at_ s.2.planOut).length = n ∧
    s.2.planIn < s.1.next ∧ s.2.planOut < s.1.next

private theorem good_init (m : Mem α) (n : ℕ) (b : Bool) : Good n b (init m .pyfftw n b) := by
  refine ⟨rfl, rfl, rfl, rfl, ?_, ?_, ?_, ?_, ?_⟩ <;> simp [init, Mem.new]
  omega

private theorem good_call (lib : Lib α) (hsp : ∀ x, (lib.spoil x).length = x.length) (hd : ∀ d x, (lib.dft d x).length = x.length) {n : ℕ} {b : Bool} {s s' : Mem α × Obj} (hs : Good n b s)
    {d : Option ℕ} (h : step lib s (.call d) = .ok s') : Good n b s' ∧ s'.2 = s.2 := by
  obtain ⟨m, o⟩ := s
  obtain ⟨h1, h2, h3, h4, h5, h6, h7, h8, h9⟩ := hs
  simp only at h1 h2 h3 h4 h5 h6 h7 h8 h9
  simp only [step] at h
  obtain ⟨c, hc, rfl⟩ := map_ok h
  simp only [call, h1] at hc
  cases d with
  | none =>
    simp only [bind, Except.bind] at hc
    cases hc
    refine ⟨⟨h1, h2, h3, h4, h5, ?_, ?_, ?_, ?_⟩, rfl⟩ <;> simp [Mem.set, h5, hsp, hd, h6, h8, h9]
  | some l =>
    cases hf : fill (m.at_ o.inputData).length (m.at_ l) with
    | error e => simp only [hf, Except.map, bind, Except.bind] at hc; cases hc
    | ok w =>
      simp only [hf, Except.map, bind, Except.bind] at hc
      cases hc
      have hw := fill_eq hf
      rw [h4, h6] at hw
      refine ⟨⟨h1, h2, h3, h4, h5, ?_, ?_, ?_, ?_⟩, rfl⟩ <;> simp [Mem.set, h5, hsp, hd, h4, hw, h8, h9]

private theorem good_step (lib : Lib α) (hsp : ∀ x, (lib.spoil x).length = x.length) (hd : ∀ d x, (lib.dft d x).length = x.length) {n : ℕ} {b : Bool} {s s' : Mem α × Obj} (hs : Good n b s)
    {op : Op α} (hop : ∀ l, op ≠ .setInput l) (h : step lib s op = .ok s') : Good n b s' ∧ s'.2 = s.2 := by
  cases op with
  | call d => exact good_call lib hsp hd hs h
  | write l v =>
    obtain ⟨m, o⟩ := s
    obtain ⟨h1, h2, h3, h4, h5, h6, h7, h8, h9⟩ := hs
    simp only [step] at h
    obtain ⟨w, hw, rfl⟩ := map_ok h
    have hw := fill_eq hw
    refine ⟨⟨h1, h2, h3, h4, h5, ?_, ?_, h8, h9⟩, rfl⟩
    · by_cases hl : o.planIn = l
      · subst hl; simpa [Mem.set] using hw.trans h6
      · simpa [Mem.set, hl] using h6
    · by_cases hl : o.planOut = l
      · subst hl; simpa [Mem.set] using hw.trans h7
      · simpa [Mem.set, hl] using h7
  | make v =>
    obtain ⟨m, o⟩ := s
    obtain ⟨h1, h2, h3, h4, h5, h6, h7, h8, h9⟩ := hs
    simp only [step] at h
    cases h
    simp only at h6 h7 h8 h9
    refine ⟨⟨h1, h2, h3, h4, h5, ?_, ?_, ?_, ?_⟩, rfl⟩
    · simpa [Mem.new, Nat.ne_of_lt h8] using h6
    · simpa [Mem.new, Nat.ne_of_lt h9] using h7
    · simp only [Mem.new]; omega
    · simp only [Mem.new]; omega
  | setInput l => exact absurd rfl (hop l)

private theorem good_run (lib : Lib α) (hsp : ∀ x, (lib.spoil x).length = x.length) (hd : ∀ d x, (lib.dft d x).length = x.length) {n : ℕ} {b : Bool} (ops : List (Op α))
    (hop : ∀ l, Op.setInput l ∉ ops) (s s' : Mem α × Obj) (hs : Good n b s) (h : runOps lib s ops = .ok s') : Good n b s' ∧ s'.2 = s.2 := by
  induction ops generalizing s with
  | nil => cases h; exact ⟨hs, rfl⟩
  | cons op ops ih =>
    rw [runOps] at h
    cases h1 : step lib s op with
    | error e => rw [h1] at h; cases h
    | ok t =>
      rw [h1] at h
      obtain ⟨g, e⟩ := good_step lib hsp hd hs (fun l hl => hop l (by rw [hl]; exact List.mem_cons_self)) h1
      obtain ⟨g', e'⟩ := ih (fun l hl => hop l (List.mem_cons_of_mem _ hl)) t g h
      exact ⟨g', e'.trans e⟩

/-- pyfftw: after any use of the object that does not set `inputData`, a call with data of the size of the object returns the transform of the data; only the two arrays of the plan change.
Missing: smaller data (`C104_smaller`), and an attribute that was set (`C104_documented`). -/
theorem C104_pyfftw_partial (lib : Lib α) (hsp : ∀ x, (lib.spoil x).length = x.length) (hd : ∀ d x, (lib.dft d x).length = x.length) (m₀ : Mem α) (n : ℕ) (b : Bool) (ops : List (Op α))
    (hop : ∀ l, Op.setInput l ∉ ops) (m : Mem α) (o : Obj) (h : runOps lib (init m₀ .pyfftw n b) ops = .ok (m, o)) (l : ℕ) (hl : (m.at_ l).length = n) :
    ∃ m' r, call lib m o (some l) = .ok (m', o, r) ∧ m'.at_ r = lib.dft b (m.at_ l) ∧ ∀ k, k ≠ m₀.next → k ≠ m₀.next + 1 → m'.at_ k = m.at_ k := by
  obtain ⟨⟨h1, h2, h3, h4, h5, h6, h7, h8, h9⟩, e⟩ := good_run lib hsp hd ops hop _ _ (good_init m₀ n b) h
  simp only at h1 h2 h3 h4 h5 h6 h7 h8 h9 e
  have hf : fill (m.at_ o.inputData).length (m.at_ l) = .ok (m.at_ l) := fill_same (by rw [h4, h6, hl])
  refine ⟨_, o.planOut, by simp only [call, h1, hf, Except.map, bind, Except.bind]; rfl, ?_, ?_⟩
  · simp [Mem.set, h3, h4]
  · intro k k1 k2
    have e1 : o.planIn = m₀.next := by rw [e]; rfl
    have e2 : o.planOut = m₀.next + 1 := by rw [e]; rfl
    have e3 : o.inputData = m₀.next := by rw [h4, e1]
    simp [Mem.set, e1, e2, e3, k1, k2]

/-- pyfftw: every call returns the same array, so the result of the second call replaces that of the first. -/
theorem C104_overwritten (lib : Lib α) (m m1 m2 : Mem α) (o o1 o2 : Obj) (ho : o.mode = .pyfftw) (d1 d2 : Option ℕ) (r1 r2 : ℕ) (h1 : call lib m o d1 = .ok (m1, o1, r1))
    (h2 : call lib m1 o1 d2 = .ok (m2, o2, r2)) : r2 = r1 := by
  have key : ∀ (m m' : Mem α) (o o' : Obj) (d : Option ℕ) (r : ℕ), o.mode = .pyfftw → call lib m o d = .ok (m', o', r) → o' = o ∧ r = o.planOut := by
    intro m m' o o' d r ho h
    simp only [call, ho] at h
    cases d with
    | none => simp only [bind, Except.bind] at h; cases h; exact ⟨rfl, rfl⟩
    | some l =>
      cases hf : fill (m.at_ o.inputData).length (m.at_ l) with
      | error e => simp only [hf, Except.map, bind, Except.bind] at h; cases h
      | ok w => simp only [hf, Except.map, bind, Except.bind] at h; cases h; exact ⟨rfl, rfl⟩
  obtain ⟨rfl, rfl⟩ := key _ _ _ _ _ _ ho h1
  obtain ⟨-, rfl⟩ := key _ _ _ _ _ _ ho h2
  rfl

/-- pyfftw and GPU: data of another size are refused, except one number, which stands for a whole array of it. -/
theorem C104_smaller (lib : Lib α) (m : Mem α) (o : Obj) (ho : o.mode ≠ .scipy) (l : ℕ) (hn : (m.at_ l).length ≠ (m.at_ o.inputData).length) (h1 : (m.at_ l).length ≠ 1) :
    call lib m o (some l) = .error .valueError := by
  have hf : fill (m.at_ o.inputData).length (m.at_ l) = .error .valueError := by
    unfold fill
    rw [if_neg hn]
    split
    · rename_i x hx
      rw [hx] at h1
      exact absurd rfl h1
    · rfl
  cases hm : o.mode with
  | scipy => exact absurd hm ho
  | pyfftw => simp only [call, hm, hf, Except.map, bind, Except.bind]
  | gpu => simp only [call, hm, hf, Except.map, bind, Except.bind]

/-- GPU: the result is a new array, but a forward object does the inverse transform and a backward one the forward transform. -/
theorem C104_gpu (lib : Lib α) (m : Mem α) (o : Obj) (ho : o.mode = .gpu) (l : ℕ) (hl : (m.at_ l).length = (m.at_ o.inputData).length) :
    ∃ m', call lib m o (some l) = .ok (m', o, m.next) ∧ m'.at_ m.next = lib.dft (!o.backward) (m.at_ l) ∧ ∀ k, k ≠ m.next → k ≠ o.inputData → m'.at_ k = m.at_ k := by
  have hf : fill (m.at_ o.inputData).length (m.at_ l) = .ok (m.at_ l) := fill_same hl
  refine ⟨_, by simp only [call, ho, hf, Except.map, bind, Except.bind]; rfl, ?_, ?_⟩
  · simp [Mem.new, Mem.set]
  · intro k k1 k2
    simp [Mem.new, Mem.set, k1, k2]

/-- The documented fast way: set `inputData`, then call without data.  scipy transforms the array that was set; pyfftw transforms its own array, whatever was set. -/
theorem C104_documented (lib : Lib α) (m : Mem α) (o : Obj) (l : ℕ) :
    (o.mode = .scipy → ∃ m' o', call lib m { o with inputData := l } none = .ok (m', o', m.next) ∧ m'.at_ m.next = lib.dft o.backward (resize o.n (m.at_ l))) ∧
    (o.mode = .pyfftw → ∃ m' o', call lib m { o with inputData := l } none = .ok (m', o', o.planOut) ∧ m'.at_ o.planOut = lib.dft o.backward (m.at_ o.planIn)) := by
  constructor
  · intro ho
    exact ⟨_, _, by simp only [call, ho]; rfl, by simp [Mem.new]⟩
  · intro ho
    exact ⟨_, _, by simp only [call, ho, bind, Except.bind]; rfl, by simp [Mem.set]⟩

/-- scipy: after a call with data, writing into `inputData` writes into the caller's array. -/
theorem C104_scipy_input (lib : Lib α) (m m' : Mem α) (o o' : Obj) (ho : o.mode = .scipy) (l r : ℕ) (h : call lib m o (some l) = .ok (m', o', r)) : o'.inputData = l := by
  simp only [call, ho] at h
  cases h
  rfl

/-- Exactly when each library does the work: the GPU if reikna is installed and an interface that may be used works (with "gpu" and "gpu_ocl" also CUDA if OpenCL does not), pyfftw if it is installed and asked for or the GPU cannot be
used, scipy if it is installed and asked for or nothing better can be used. -/
theorem C104_choice (m : Machine) (a : Asked) :
    (choose m a = some .gpu ↔ m.reikna = true ∧ (((a = .gpu ∨ a = .gpuOcl) ∧ (m.ocl = true ∨ m.cuda = true)) ∨ (a = .gpuCuda ∧ m.cuda = true))) ∧
    (choose m a = some .pyfftw ↔ choose m a ≠ some .gpu ∧ m.pyfftw = true ∧ a ≠ .scipy ∧ a ≠ .other) ∧
    (choose m a = some .scipy ↔ choose m a ≠ some .gpu ∧ m.scipy = true ∧ a ≠ .other ∧ (a = .scipy ∨ m.pyfftw = false)) := by
  obtain ⟨r, ocl, cuda, p, sc⟩ := m
  cases a <;> cases r <;> cases ocl <;> cases cuda <;> cases p <;> cases sc <;> decide

/-- Which library does the work: what was asked for if it is there, else the next in the order GPU, pyfftw, scipy; the GPU only if asked for; with scipy installed every known mode works. -/
theorem C104_fallback (m : Machine) (a : Asked) :
    (choose m a = some .gpu → a = .gpu ∨ a = .gpuOcl ∨ a = .gpuCuda) ∧ (a ≠ .other → m.scipy = true → choose m a ≠ none) ∧
    (a = .pyfftw → m.pyfftw = true → choose m a = some .pyfftw) ∧ (a = .scipy → m.scipy = true → choose m a = some .scipy) ∧
    (a = .pyfftw → m.pyfftw = false → m.scipy = true → choose m a = some .scipy) ∧ (m.reikna = true → m.ocl = true → (a = .gpu ∨ a = .gpuOcl) → choose m a = some .gpu) ∧
    (m.reikna = false → choose m a ≠ some .gpu) ∧ choose m .other = none := by
  obtain ⟨r, ocl, cuda, p, sc⟩ := m
  cases a <;> cases r <;> cases ocl <;> cases cuda <;> cases p <;> cases sc <;> decide

/-- A library that turns lists round for the inverse and does nothing forward. -/
private def toyLib : Lib ℤ := ⟨fun b x => if b then x.reverse else x, fun x => x.map fun _ => 0⟩

private def toyMem : Mem ℤ := ⟨fun k => if k = 0 then [1, 2] else if k = 1 then [3, 4] else if k = 2 then [5] else [], 3⟩

/-- Same data, same direction, other answers: the array set as documented is ignored by pyfftw and used by scipy; one number is an array of it for pyfftw and is padded with zeros by scipy; the GPU
goes the other way. -/
theorem C104_violated :
    ∃ (lib : Lib ℤ) (m : Mem ℤ), (∀ x, (lib.spoil x).length = x.length) ∧ (∀ d x, (lib.dft d x).length = x.length) ∧
      (let run := fun mode b ops d => (runOps lib (init m mode 2 b) ops).bind fun s => (call lib s.1 s.2 d).map fun r => r.1.at_ r.2.2
       run .scipy false [.setInput 0] none ≠ run .pyfftw false [.setInput 0] none ∧ run .scipy false [] (some 2) ≠ run .pyfftw false [] (some 2) ∧
       run .scipy true [] (some 0) ≠ run .gpu true [] (some 0) ∧ run .scipy true [] (some 0) = run .pyfftw true [] (some 0) ∧
       run .pyfftw false [.call (some 0)] none ≠ run .pyfftw false [] (some 0)) := by
  refine ⟨toyLib, toyMem, fun x => by simp [toyLib], fun d x => by cases d <;> simp [toyLib], ?_⟩
  decide +kernel

example : ∃ m o, runOps toyLib (init toyMem .pyfftw 2 true) [.call (some 0), .make [7, 8], .write 1 [9, 9], .call none] = .ok (m, o) ∧ (m.at_ 1).length = 2 := by
  refine ⟨_, _, rfl, ?_⟩
  decide +kernel

end Soapy.Props
