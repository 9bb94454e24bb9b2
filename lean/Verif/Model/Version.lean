/-
Model of `soapy/_version.py`: the version number soapy reports as `soapy.__version__` (soapy/__init__.py:40-41).

Simplified: strings are lists of characters; what `git` prints is an input; messages of errors, the date and the branch (not part of the version of style `pep440`, _version.py:53) are left out; `\d` is an ASCII digit.
-/
import Mathlib.Data.Nat.Notation

namespace Soapy.Version

/-- `"%d" % n` (_version.py:410). -/
def decimal (n : ℕ) : List Char := if n < 10 then [Char.ofNat (48 + n)] else decimal (n / 10) ++ [Char.ofNat (48 + n % 10)]

/-- `\d` (_version.py:350). -/
def isDigit (c : Char) : Bool := 48 ≤ c.toNat && c.toNat ≤ 57

/-- `[0-9a-f]` (_version.py:350). -/
def isHex (c : Char) : Bool := isDigit c || (97 ≤ c.toNat && c.toNat ≤ 102)

/-- `int(s)` of digits (_version.py:369). -/
def natOf (s : List Char) : ℕ := s.foldl (fun a c => 10 * a + (c.toNat - 48)) 0

/-- The text before and after the last `c` (part of the regular expression of _version.py:350). -/
def splitLast (c : Char) (s : List Char) : Option (List Char × List Char) :=
  match s.reverse.dropWhile (· != c) with
  | [] => none
  | _ :: rest => some (rest.reverse, (s.reverse.takeWhile (· != c)).reverse)

/-- `^(.+)-(\d+)-g([0-9a-f]+)$` (_version.py:350): the last two groups have no hyphen, so that the hyphens are the last two. -/
def matchDescribe (s : List Char) : Option (List Char × List Char × List Char) :=
  match splitLast '-' s with
  | none => none
  | some (a, last) =>
    match splitLast '-' a with
    | none => none
    | some (tag, num) =>
      match last with
      | 'g' :: hex => if tag ≠ [] ∧ num ≠ [] ∧ num.all isDigit ∧ hex ≠ [] ∧ hex.all isHex then some (tag, num, hex) else none
      | _ => none

/-- What is read from the output of git (_version.py:304-385). -/
structure Pieces where
  error : Bool
  closestTag : Option (List Char)
  distance : ℕ
  short : List Char
  dirty : Bool
deriving DecidableEq

/-- `s[len(p):]` if `s` starts with `p`. -/
def dropPrefix : List Char → List Char → Option (List Char)
  | [], s => some s
  | _ :: _, [] => none
  | p :: ps, c :: s => if p = c then dropPrefix ps s else none

/-- `git_describe[:git_describe.rindex("-dirty")]` if it ends with `-dirty` (_version.py:340-344). -/
def stripDirty (s : List Char) : Bool × List Char :=
  match dropPrefix "-dirty".toList.reverse s.reverse with
  | some r => (true, r.reverse)
  | none => (false, s)

/-- `git_pieces_from_vcs` (_version.py:253-387) after git was run: `describe` is the output of `git describe`, `full` of `git rev-parse HEAD`, `commits` the number of commits in `git rev-list`. -/
def pieces (tagPrefix describe full : List Char) (commits : ℕ) : Pieces :=
  let d := stripDirty describe
  if '-' ∈ d.2 then
    match matchDescribe d.2 with
    | none => ⟨true, none, 0, full.take 7, d.1⟩
    | some (tag, num, hex) =>
      match dropPrefix tagPrefix tag with
      | none => ⟨true, none, 0, full.take 7, d.1⟩
      | some t => ⟨false, some t, natOf num, hex, d.1⟩
  else ⟨false, none, commits, full.take 7, d.1⟩

/-- `plus_or_dot` (_version.py:390-394). -/
def plusOrDot (tag : List Char) : Char := if '+' ∈ tag then '.' else '+'

/-- `%d.g%s`, and `.dirty` (_version.py:410-418). -/
def local' (p : Pieces) : List Char := decimal p.distance ++ ".g".toList ++ p.short ++ if p.dirty then ".dirty".toList else []

/-- `render_pep440` (_version.py:397-419). -/
def renderPep440 (p : Pieces) : List Char :=
  match p.closestTag with
  | some (c :: t) => if p.distance ≠ 0 ∨ p.dirty then (c :: t) ++ [plusOrDot (c :: t)] ++ local' p else c :: t
  | _ => "0+untagged.".toList ++ local' p

/-- `render` in the style of soapy (_version.py:604-637, 53). -/
def render (p : Pieces) : List Char := if p.error then "unknown".toList else renderPep440 p

/-- `git_versions_from_keywords` (_version.py:185-250) for an archive: `refs` are the names in `git_refnames`, already split and in the order of `sorted`; `none` if they were not filled in.  Names that are not tags are only looked at if
there is no tag. -/
def fromKeywords (tagPrefix : List Char) : Option (List (List Char)) → Option (List Char)
  | none => none
  | some refs =>
    let tags := refs.filterMap (dropPrefix "tag: ".toList)
    let tags := if tags = [] then refs.filter (·.any isDigit) else tags
    match tags.filterMap (fun r => match dropPrefix tagPrefix r with
      | some (c :: v) => if isDigit c then some (c :: v) else none
      | _ => none) with
    | [] => some "0+unknown".toList
    | v :: _ => some v

/-- `versions_from_parentdir` (_version.py:128-153): the names of the directory of the sources and the two above. -/
def fromParent (dirPrefix : List Char) (dirs : List (List Char)) : Option (List Char) := (dirs.take 3).findSome? (dropPrefix dirPrefix)

/-- What `git` says, if it can be run in the directory of the sources. -/
structure Git where
  describe : List Char
  full : List Char
  commits : ℕ

/-- `get_versions()["version"]` (_version.py:640-683), with the configuration of soapy (_version.py:47-58). -/
def version (refs : Option (List (List Char))) (git : Option Git) (dirs : List (List Char)) : List Char :=
  match fromKeywords ['v'] refs with
  | some v => v
  | none =>
    match git with
    | some g => render (pieces ['v'] g.describe g.full g.commits)
    | none => (fromParent "soapy-".toList dirs).getD "0+unknown".toList

end Soapy.Version
