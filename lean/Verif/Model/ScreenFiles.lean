/-
Model of the phase screens kept on disk: `atmos.saveScrns`, `makePhaseScreens` and the loading of screens in `atmos.__init__` (atmosphere.py).

Simplifications: a FITS file is its array and its R0 card (writing and reading a file returns what was written, and a write that is refused leaves nothing behind); a directory exists or not, parents are not
modelled.  `f32` is the rounding to single precision, `amp x` is `x ** (-5/6)`; what the random generators draw is a parameter.
-/
import Verif.Model.Atmos

namespace Soapy.ScreenFiles

open Soapy.Mirror Soapy.Atmos

/-- A file with a screen: the array of the primary HDU and the card "R0", if there is one (atmosphere.py:279-280, 463-464). -/
structure ScrFile where
  data : Arr2
  r0 : Option ℚ

/-- What is on disk: which directories exist and which files, by name. -/
structure Disk where
  dirs : String → Bool
  files : String → Option ScrFile

/-- `DIR+"/scrn{}.fits".format(i)` (atmosphere.py:282, 465). -/
def path (dir : String) (i : ℕ) : String := dir ++ "/scrn" ++ toString i ++ ".fits"

/-- `hdulist.writeto(name)` (atmosphere.py:282, 465): the directory has to exist, and a file of this name must not (the `overwrite` argument is left at False). -/
def writeTo (dir : String) (i : ℕ) (f : ScrFile) (d : Disk) : Except PyErr Disk :=
  if d.dirs dir = false then .error .ioError
  else if (d.files (path dir i)).isSome then .error .ioError
  else .ok { d with files := Function.update d.files (path dir i) (some f) }

/-- The loop of `saveScrns` (atmosphere.py:277-283) over the numbers that are left: the disk afterwards, and how it ended.  `whole i` is `self.wholeScrns[i]`, `card` the value written to "R0". -/
def saveLoop (dir : String) (card : ℚ) (whole : ℕ → Option Arr2) : List ℕ → Disk → Disk × Except PyErr Unit
  | [], d => (d, .ok ())
  | i :: is, d =>
    match whole i with
    | none => (d, .error .keyError)
    | some a =>
      match writeTo dir i ⟨a, some card⟩ d with
      | .error e => (d, .error e)
      | .ok d' => saveLoop dir card whole is d'

/-- `saveScrns` (atmosphere.py:267-285) of an atmosphere of `n` layers; `unit` is `wholeScrnR0` (atmosphere.py:146). -/
def saveScrns (dir : String) (unit pixel : ℚ) (whole : ℕ → Option Arr2) (n : ℕ) (d : Disk) : Disk × Except PyErr Unit :=
  saveLoop dir (unit / pixel) whole (List.range n) d

/-- `self.wholeScrns` of an atmosphere that moves over stored screens (atmosphere.py:141, 167-175, 193). -/
def wholeOf (ls : List Layer) (i : ℕ) : Option Arr2 := ls[i]?.map Layer.scr

/-- `self.wholeScrns` of an atmosphere with infinite screens: the dictionary stays empty (atmosphere.py:141, 149-158). -/
def wholeInfinite : ℕ → Option Arr2 := fun _ => none

/-- The loop of `makePhaseScreens` (atmosphere.py:452-465): `gen i` is the `i`-th screen drawn. -/
def makeLoop (dir : Option String) (card : ℚ) (gen : ℕ → Arr2) : List ℕ → Disk → Disk × Except PyErr (List Arr2)
  | [], d => (d, .ok [])
  | i :: is, d =>
    match dir with
    | none =>
      let (d', r) := makeLoop dir card gen is d
      (d', r.map (gen i :: ·))
    | some p =>
      match writeTo p i ⟨gen i, some card⟩ d with
      | .error e => (d, .error e)
      | .ok d' =>
        let (d'', r) := makeLoop dir card gen is d'
        (d'', r.map (gen i :: ·))

/-- `makePhaseScreens` (atmosphere.py:416-468) with `returnScrns=True`: the directory is made if it is missing (443-445; an empty name counts as no directory there, but not at 462). -/
def makePhaseScreens (dir : Option String) (r0 pixel : ℚ) (gen : ℕ → Arr2) (n : ℕ) (d : Disk) : Disk × Except PyErr (List Arr2) :=
  let d := match dir with
    | none => d
    | some p => if p = "" then d else { d with dirs := Function.update d.dirs p true }
  makeLoop dir (r0 / pixel) gen (List.range n) d

/-- One screen from a file (atmosphere.py:190-209): rounded to single precision; the window has to fit (195; a screen of one pixel would be spread over the window; excluded by `2 ≤ s`);
scaled in place if the strength is known. -/
def loadScrn (f32 amp : ℚ → ℚ) (unit pixel : ℚ) (s : ℕ) (f : ScrFile) : Except PyErr Arr2 :=
  if f.data.rows < s ∨ f.data.cols < s then .error .valueError
  else .ok ⟨f.data.rows, f.data.cols, fun i j =>
    match f.r0 with
    | none => f32 (f.data.px i j)
    | some h => f32 (f32 (f.data.px i j) * amp (unit / (h * pixel)))⟩

/-- The loop over the names (atmosphere.py:188-214). -/
def loadLoop (f32 amp : ℚ → ℚ) (unit pixel : ℚ) (s : ℕ) (names : List String) (d : Disk) : List ℕ → Except PyErr (List Arr2)
  | [] => .ok []
  | i :: is =>
    match names[i]? with
    | none => .error .indexError
    | some name =>
      match d.files name with
      | none => .error .ioError
      | some f =>
        match loadScrn f32 amp unit pixel s f with
        | .error e => .error e
        | .ok a => (loadLoop f32 amp unit pixel s names d is).map (a :: ·)

/-- The rest of `__init__` for screens that are there (atmosphere.py:236-264), layer by layer; `v i` is `windV[i]`, `k` the number of the first layer. -/
def initLayers (W s : ℕ) (v : ℕ → ℚ × ℚ) : ℕ → List Arr2 → Except PyErr (List Layer)
  | _, [] => .ok []
  | k, a :: as =>
    match initLayer W s a (v k) with
    | .error e => .error e
    | .ok l => (initLayers W s v (k + 1) as).map (l :: ·)

/-- `atmos.__init__` with `scrnNames` (atmosphere.py:184-264): the size is that of the last screen, `i` being what the loop left (217-222; without layers there is no `i`). -/
def fromFiles (f32 amp : ℚ → ℚ) (unit pixel : ℚ) (s n : ℕ) (v : ℕ → ℚ × ℚ) (names : List String) (d : Disk) : Except PyErr (List Layer) :=
  match loadLoop f32 amp unit pixel s names d (List.range n) with
  | .error e => .error e
  | .ok as =>
    match as.getLast? with
    | none => .error .unboundLocalError
    | some a => if a.rows < s then .error .valueError else initLayers a.rows s v 0 as

/-- A screen rounded to single precision, `data.astype("float32")` (atmosphere.py:193). -/
def rounded (f32 : ℚ → ℚ) (a : Arr2) : Arr2 := ⟨a.rows, a.cols, fun i j => f32 (a.px i j)⟩

/-- The layers before frame `n` of a run (atmosphere.py:287-380). -/
def runLayers (W s : ℕ) (v : ℕ → ℚ × ℚ) (n : ℕ) (ls : List Layer) : List Layer := ls.mapIdx fun i l => runLayer W s (v i) l n

end Soapy.ScreenFiles
