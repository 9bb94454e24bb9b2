/-
Model of the multi-threaded numeric kernels (`numbalib/numbalib.py`, `numbalib/wfslib.py`).

A kernel with `numba.prange` is a family of threads, one per loop iteration (numba may put several iterations on one operating system thread,
which only removes interleavings); a thread is the list of its elementary stores.  Every store may read the whole memory.  Local variables
such as `tmp` and accumulators that numba privatises are memory cells owned by the iteration.  Assumed: stores are atomic and sequentially
consistent; input and output arrays do not overlap (except for the in-place kernel).
-/
import Verif.Model.Interp

namespace Soapy.Par

/-- One elementary store: `dst = val(memory)`. -/
structure Op (L : Type) where
  dst : L
  val : (L → ℚ) → ℚ

variable {L : Type} [DecidableEq L]

/-- The effect of one store. -/
def Op.run (o : Op L) (m : L → ℚ) : L → ℚ := Function.update m o.dst (o.val m)

/-- The effect of a sequence of stores. -/
def run (m : L → ℚ) (ops : List (Op L)) : L → ℚ := ops.foldl (fun m o => o.run m) m

/-- The stores of thread `i` in a trace of stores tagged with their thread. -/
def proj (i : ℕ) (t : List (ℕ × Op L)) : List (Op L) := (t.filter fun p => p.1 = i).map Prod.snd

/-- `t` is an interleaving of the threads `0 … n-1`: each executes its stores completely and in order, nothing else is executed. -/
def Interleaving (n : ℕ) (threads : ℕ → List (Op L)) (t : List (ℕ × Op L)) : Prop :=
  ∀ i, proj i t = if i < n then threads i else []

/-- Execution of a trace. -/
def exec (m : L → ℚ) (t : List (ℕ × Op L)) : L → ℚ := run m (t.map Prod.snd)

/-! ### The kernels -/

/-- One thread of the kernels that compute every element of row `i` from read-only input: `bilinear_interp_numba` (numbalib.py:57-75), `zoom`
(numbalib.py:198-212), `zoomtoefield` (wfslib.py:25-40): `out i j` is the computed value. -/
def mapThread (cols : ℕ) (out : ℕ → ℕ → ℚ) (i : ℕ) : List (Op (ℕ × ℕ)) :=
  (List.range cols).map fun j => ⟨(i, j), fun _ => out i j⟩

/-- The body for one detector element (numbalib.py:162-167, wfslib.py:147-152): set to zero, then add the `b × b` block. -/
def binCell (key : L) (img : ℕ → ℕ → ℚ) (b i j : ℕ) : List (Op L) :=
  ⟨key, fun _ => 0⟩ :: (List.range b).flatMap fun x => (List.range b).map fun y => ⟨key, fun m => m key + img (i * b + x) (j * b + y)⟩

/-- Iteration `i` of `bin_img(imgs, bin_size, new_img)` (numbalib.py:155-167). -/
def binThread (img : ℕ → ℕ → ℚ) (b cols i : ℕ) : List (Op (ℕ × ℕ)) :=
  (List.range cols).flatMap fun j => binCell (i, j) img b i j

/-- Iteration `n` of `bin_imgs` (wfslib.py:139-152), one sub-aperture. -/
def binImgsThread (imgs : ℕ → ℕ → ℕ → ℚ) (b rows cols n : ℕ) : List (Op (ℕ × ℕ × ℕ)) :=
  (List.range rows).flatMap fun i => (List.range cols).flatMap fun j => binCell (n, i, j) (imgs n) b i j

/-- Memory of the in-place shift: the array and the local variable of each iteration. -/
inductive Loc where
  | px (i j : ℕ)
  | tmp (x : ℕ)
  deriving DecidableEq

/-- The body of `fftshift_2d_inplace` for `(x, y)` (numbalib.py:223-229); `h`, `w` are half the numbers of rows and columns, rounded down. -/
def shiftCell (h w x y : ℕ) : List (Op Loc) :=
  [⟨.tmp x, fun m => m (.px x y)⟩,
   ⟨.px x y, fun m => m (.px (x + h) (y + w))⟩,
   ⟨.px (x + h) (y + w), fun m => m (.tmp x)⟩,
   ⟨.tmp x, fun m => m (.px (x + h) y)⟩,
   ⟨.px (x + h) y, fun m => m (.px x (y + w))⟩,
   ⟨.px x (y + w), fun m => m (.tmp x)⟩]

/-- Iteration `x` of `fftshift_2d_inplace` (numbalib.py:220-229). -/
def shiftThread (rows cols x : ℕ) : List (Op Loc) :=
  (List.range (cols / 2)).flatMap fun y => shiftCell (rows / 2) (cols / 2) x y

/-- Iteration `k` of `chop_subaps` (wfslib.py:68-76) and `chop_subaps_mask` (wfslib.py:45-55, with `phase` already multiplied by the mask): the corner of
sub-aperture `k` is `(corner k).1, (corner k).2`. -/
def chopThread (phase : ℕ → ℕ → ℚ) (corner : ℕ → ℕ × ℕ) (n k : ℕ) : List (Op (ℕ × ℕ × ℕ)) :=
  (List.range n).flatMap fun i => (List.range n).map fun j => ⟨(k, i, j), fun _ => phase ((corner k).1 + i) ((corner k).2 + j)⟩

end Soapy.Par
