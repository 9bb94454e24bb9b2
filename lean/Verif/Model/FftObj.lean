/-
Model of the FFT objects of `AOFFT.py` as users see them: arrays live at places in memory, an object keeps places, and results are places, so later calls can change what was returned earlier.

Simplifications: one axis (`inputSize = (n,)`, `axes = (-1,)`); numbers of any type with a zero; the transforms of the libraries are functions on lists (`lib.dft false` forward, `lib.dft true` inverse with
its division by `n`, as pyfftw, scipy and reikna do); no rounding to complex64.  `lib.spoil` is what FFTW leaves in its input array: with the default flag FFTW_DESTROY_INPUT anything is allowed.  Setting
`inputData` of a GPU object to an array of another size is not modelled.
-/
import Verif.Model.Py
import Mathlib.Logic.Function.Basic

namespace Soapy.FftObj

/-- What the FFT libraries do. -/
structure Lib (α : Type) where
  dft : Bool → List α → List α
  spoil : List α → List α

/-- The value of `self.FFTMODE`. -/
inductive Mode where
  | pyfftw
  | scipy
  | gpu
  deriving DecidableEq, Repr

/-- The argument `mode` (AOFFT.py:84, 93-95). -/
inductive Asked where
  | gpu
  | gpuOcl
  | gpuCuda
  | pyfftw
  | scipy
  | other
  deriving DecidableEq, Repr

/-- What is installed on the machine (AOFFT.py:31-48) and which GPU interfaces work (97-114). -/
structure Machine where
  reikna : Bool
  ocl : Bool
  cuda : Bool
  pyfftw : Bool
  scipy : Bool
  deriving DecidableEq, Repr

/-- The choice of `self.FFTMODE` (AOFFT.py:93-132).  `none`: the attribute is never set, the next line that reads it (135) raises an AttributeError.  A GPU interface that works sets it without
changing `mode` from "gpu_ocl" or "gpu_cuda", so later branches are not taken. -/
def choose (m : Machine) (a : Asked) : Option Mode :=
  let scipy := if m.scipy then some Mode.scipy else none
  let pyfftw := if m.pyfftw then some Mode.pyfftw else scipy
  let cuda := if m.cuda then some Mode.gpu else pyfftw
  match a with
  | .gpu | .gpuOcl => if m.reikna then (if m.ocl then some Mode.gpu else cuda) else pyfftw
  | .gpuCuda => if m.reikna then cuda else pyfftw
  | .pyfftw => pyfftw
  | .scipy => scipy
  | .other => none

/-- Memory: what each place holds, and the first unused place. -/
structure Mem (α : Type) where
  at_ : ℕ → List α
  next : ℕ

/-- Put a new array into memory. -/
def Mem.new {α : Type} (m : Mem α) (v : List α) : Mem α × ℕ := (⟨Function.update m.at_ m.next v, m.next + 1⟩, m.next)

/-- Overwrite the array at a place. -/
def Mem.set {α : Type} (m : Mem α) (l : ℕ) (v : List α) : Mem α := ⟨Function.update m.at_ l v, m.next⟩

/-- numpy's `a[:] = v` for an array of `n` numbers: same length, or one number for all of them; anything else is a ValueError. -/
def fill {α : Type} (n : ℕ) (v : List α) : Except PyErr (List α) :=
  if v.length = n then .ok v
  else match v with
    | [x] => .ok (List.replicate n x)
    | _ => .error .valueError

/-- The object: its mode, size, whether `direction` is "BACKWARD", the attribute `inputData`, and for pyfftw the two arrays of the plan. -/
structure Obj where
  mode : Mode
  n : ℕ
  backward : Bool
  inputData : ℕ
  planIn : ℕ
  planOut : ℕ
  deriving DecidableEq, Repr

/-- `FFT.__init__` (AOFFT.py:135-185) with the mode chosen: pyfftw gets two arrays of zeros and plans with them (151-176), scipy and the GPU one (141, 182). -/
def init {α : Type} [Zero α] (m : Mem α) (mode : Mode) (n : ℕ) (backward : Bool) : Mem α × Obj :=
  let (m1, l1) := m.new (List.replicate n 0)
  match mode with
  | .pyfftw => let (m2, l2) := m1.new (List.replicate n 0); (m2, ⟨mode, n, backward, l1, l1, l2⟩)
  | _ => (m1, ⟨mode, n, backward, l1, l1, l1⟩)

/-- scipy's `shape=self.size` (AOFFT.py:183-185, 232-236): zeros are appended, or the end is dropped. -/
def resize {α : Type} [Zero α] (n : ℕ) (v : List α) : List α := v.take n ++ List.replicate (n - v.length) 0

/-- `FFT.fft(data)` and `FFT.__call__(data)` (AOFFT.py:188-237); `none` for a call without data.  The result is the place of the returned array.  pyfftw: data are copied into `self.inputData` (205-206),
the plan transforms its own input array into its own output array and returns that (207-210).  GPU: data are copied into `self.inputData`, the result is a new array, and FORWARD asks for the inverse
transform (136-139, 214-224).  scipy: `self.inputData` becomes the caller's array, the result is a new array (229-237). -/
def call {α : Type} [Zero α] (lib : Lib α) (m : Mem α) (o : Obj) (data : Option ℕ) : Except PyErr (Mem α × Obj × ℕ) :=
  match o.mode with
  | .scipy =>
    let o' := match data with
      | some l => { o with inputData := l }
      | none => o
    let (m', r) := m.new (lib.dft o.backward (resize o.n (m.at_ o'.inputData)))
    .ok (m', o', r)
  | .pyfftw => do
    let m1 ← match data with
      | some l => (fill (m.at_ o.inputData).length (m.at_ l)).map (m.set o.inputData)
      | none => .ok m
    let x := m1.at_ o.planIn
    .ok ((m1.set o.planIn (lib.spoil x)).set o.planOut (lib.dft o.backward x), o, o.planOut)
  | .gpu => do
    let m1 ← match data with
      | some l => (fill (m.at_ o.inputData).length (m.at_ l)).map (m.set o.inputData)
      | none => .ok m
    let (m', r) := m1.new (lib.dft (!o.backward) (m1.at_ o.inputData))
    .ok (m', o, r)

/-- What a user can do with an object: call it, write into any array (also into `fftObj.inputData[:]`), make an array, set the attribute as the documentation shows (AOFFT.py:61-67). -/
inductive Op (α : Type) where
  | call (data : Option ℕ)
  | write (l : ℕ) (v : List α)
  | make (v : List α)
  | setInput (l : ℕ)

/-- One operation. -/
def step {α : Type} [Zero α] (lib : Lib α) (s : Mem α × Obj) : Op α → Except PyErr (Mem α × Obj)
  | .call d => (call lib s.1 s.2 d).map fun r => (r.1, r.2.1)
  | .write l v => (fill (s.1.at_ l).length v).map fun w => (s.1.set l w, s.2)
  | .make v => .ok ((s.1.new v).1, s.2)
  | .setInput l => .ok (s.1, { s.2 with inputData := l })

/-- A sequence of operations. -/
def runOps {α : Type} [Zero α] (lib : Lib α) (s : Mem α × Obj) : List (Op α) → Except PyErr (Mem α × Obj)
  | [] => .ok s
  | op :: ops => do
    let s' ← step lib s op
    runOps lib s' ops

end Soapy.FftObj
