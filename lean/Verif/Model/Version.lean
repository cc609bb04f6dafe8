import Verif.Model.Basic
import Mathlib.Data.List.Sort
import Mathlib.Data.List.Lex

/-!
# Version strings (rdtools/_version.py:186-683)

Strings are lists of characters. `run_command` and the file system are not modelled: the functions
work on the output of git.
-/

namespace Verif.Version

/-- a Python string as list of characters; used at rdtools/_version.py:294-387, 390-394 -/
abbrev Str := List Char

/-- `"%d" % n`; used at rdtools/_version.py:469-480, 462-483 -/
def digits (n : Nat) : Str := Nat.toDigits 10 n

/-- the dict of pieces (rdtools/_version.py:294-387); `none` and the empty string are both falsy -/
structure Pieces where
  closestTag : Option Str
  distance : Nat
  short : Str
  dirty : Bool
  branch : Str
  long : Str
  date : Option Str
  error : Option Str
  deriving DecidableEq, Repr

/-- truth value of an optional string; used at rdtools/_version.py:397-419, 422-449 -/
def truthy : Option Str → Option Str
  | some (c :: l) => some (c :: l)
  | _ => none

/-- `plus_or_dot` (rdtools/_version.py:390-394) -/
def plusOrDot (tag : Str) : Str := if '+' ∈ tag then ['.'] else ['+']

/-- `if pieces["dirty"]: rendered += suffix`; used at rdtools/_version.py:397-419, 422-449 -/
def dirtySuffix (p : Pieces) (suffix : Str) : Str := if p.dirty then suffix else []

/-- `.dev0` unless on the master branch; used at rdtools/_version.py:422-449, 513-539 -/
def branchSuffix (p : Pieces) : Str := if p.branch ≠ "master".toList then ".dev0".toList else []

/-- `"%d.g%s" % (pieces["distance"], pieces["short"])`;
used at rdtools/_version.py:397-419, 422-449 -/
def distanceHash (p : Pieces) : Str := digits p.distance ++ ".g".toList ++ p.short

/-- `pieces["distance"] or pieces["dirty"]`; used at rdtools/_version.py:397-419, 422-449 -/
def changed (p : Pieces) : Bool := decide (p.distance ≠ 0) || p.dirty

/-- `render_pep440` (rdtools/_version.py:397-419) -/
def renderPep440 (p : Pieces) : Str :=
  match truthy p.closestTag with
  | some tag =>
    if changed p then tag ++ plusOrDot tag ++ distanceHash p ++ dirtySuffix p ".dirty".toList else tag
  | none => "0+untagged.".toList ++ distanceHash p ++ dirtySuffix p ".dirty".toList

/-- `render_pep440_branch` (rdtools/_version.py:422-449) -/
def renderPep440Branch (p : Pieces) : Str :=
  match truthy p.closestTag with
  | some tag =>
    if changed p then
      tag ++ branchSuffix p ++ plusOrDot tag ++ distanceHash p ++ dirtySuffix p ".dirty".toList
    else tag
  | none => "0".toList ++ branchSuffix p ++ "+untagged.".toList ++ distanceHash p ++
      dirtySuffix p ".dirty".toList

/-- the rest of the list after the prefix, if it has that prefix;
used at rdtools/_version.py:341-344, 346-378 -/
def dropPrefix? : Str → Str → Option Str
  | [], l => some l
  | _ :: _, [] => none
  | a :: p, b :: l => if a = b then dropPrefix? p l else none

/-- `str.split(s, sep)` with `fuel` at least the length; `cur` is the current part, reversed;
used at rdtools/_version.py:452-459 -/
def splitAux (sep : Str) : Nat → Str → Str → List Str
  | 0, cur, _ => [cur.reverse]
  | _ + 1, cur, [] => [cur.reverse]
  | fuel + 1, cur, c :: l =>
    match dropPrefix? sep (c :: l) with
    | some rest => cur.reverse :: splitAux sep fuel [] rest
    | none => splitAux sep fuel (c :: cur) l

/-- `str.split(s, sep)`; used at rdtools/_version.py:452-459, 211 -/
def splitOn (s sep : Str) : List Str := splitAux sep s.length [] s

/-- `int(s)` for ASCII digits. Simplification: signs, blanks and underscores, which `int` accepts as well,
are an error here. Used at rdtools/_version.py:452-459. -/
def parseInt (s : Str) : Except PyErr Nat :=
  if s ≠ [] ∧ s.all Char.isDigit then .ok (Nat.ofDigitChars 10 s 0) else .error .valueError

/-- `int(vc[1] or 0)`; used at rdtools/_version.py:452-459 -/
def postNumber : Str → Except PyErr Nat
  | [] => .ok 0
  | s => parseInt s

/-- `pep440_split_post` (rdtools/_version.py:452-459) -/
def splitPost (ver : Str) : Except PyErr (Str × Option Nat) :=
  match splitOn ver ".post".toList with
  | [a, b] => (postNumber b).map fun n => (a, some n)
  | a :: _ => .ok (a, none)
  | [] => .ok ([], none)

/-- the version after a tag (rdtools/_version.py:469-480) -/
def preOf (tag : Str) (distance : Nat) : Except PyErr Str :=
  (splitPost tag).map fun r =>
    match r.2 with
    | some n => r.1 ++ ".post".toList ++ digits (n + 1) ++ ".dev".toList ++ digits distance
    | none => r.1 ++ ".post0.dev".toList ++ digits distance

/-- `render_pep440_pre` (rdtools/_version.py:462-483) -/
def renderPep440Pre (p : Pieces) : Except PyErr Str :=
  match truthy p.closestTag with
  | some tag => if p.distance ≠ 0 then preOf tag p.distance else .ok tag
  | none => .ok ("0.post0.dev".toList ++ digits p.distance)

/-- `render_pep440_post` (rdtools/_version.py:486-510) -/
def renderPep440Post (p : Pieces) : Str :=
  match truthy p.closestTag with
  | some tag =>
    if changed p then
      tag ++ ".post".toList ++ digits p.distance ++ dirtySuffix p ".dev0".toList ++ plusOrDot tag ++
        "g".toList ++ p.short
    else tag
  | none => "0.post".toList ++ digits p.distance ++ dirtySuffix p ".dev0".toList ++ "+g".toList ++ p.short

/-- `render_pep440_post_branch` (rdtools/_version.py:513-539) -/
def renderPep440PostBranch (p : Pieces) : Str :=
  match truthy p.closestTag with
  | some tag =>
    if changed p then
      tag ++ ".post".toList ++ digits p.distance ++ branchSuffix p ++ plusOrDot tag ++
        "g".toList ++ p.short ++ dirtySuffix p ".dirty".toList
    else tag
  | none => "0.post".toList ++ digits p.distance ++ branchSuffix p ++ "+g".toList ++ p.short ++
      dirtySuffix p ".dirty".toList

/-- `render_pep440_old` (rdtools/_version.py:542-561) -/
def renderPep440Old (p : Pieces) : Str :=
  match truthy p.closestTag with
  | some tag =>
    if changed p then tag ++ ".post".toList ++ digits p.distance ++ dirtySuffix p ".dev0".toList else tag
  | none => "0.post".toList ++ digits p.distance ++ dirtySuffix p ".dev0".toList

/-- `"-%d-g%s"`; used at rdtools/_version.py:564-581, 584-601 -/
def describeSuffix (p : Pieces) : Str := "-".toList ++ digits p.distance ++ "-g".toList ++ p.short

/-- `render_git_describe` (rdtools/_version.py:564-581) -/
def renderGitDescribe (p : Pieces) : Str :=
  (match truthy p.closestTag with
   | some tag => if p.distance ≠ 0 then tag ++ describeSuffix p else tag
   | none => p.short) ++ dirtySuffix p "-dirty".toList

/-- `render_git_describe_long` (rdtools/_version.py:584-601) -/
def renderGitDescribeLong (p : Pieces) : Str :=
  (match truthy p.closestTag with
   | some tag => tag ++ describeSuffix p
   | none => p.short) ++ dirtySuffix p "-dirty".toList

/-- the returned dict; used at rdtools/_version.py:604-637, 185-250 -/
structure Versions where
  version : Str
  fullRevisionid : Option Str
  dirty : Option Bool
  error : Option Str
  date : Option Str
  deriving DecidableEq, Repr

/-- the `if style == ...` chain (rdtools/_version.py:616-633) -/
def renderStyle (p : Pieces) (style : Str) : Except PyErr Str :=
  if style = "pep440".toList then .ok (renderPep440 p)
  else if style = "pep440-branch".toList then .ok (renderPep440Branch p)
  else if style = "pep440-pre".toList then renderPep440Pre p
  else if style = "pep440-post".toList then .ok (renderPep440Post p)
  else if style = "pep440-post-branch".toList then .ok (renderPep440PostBranch p)
  else if style = "pep440-old".toList then .ok (renderPep440Old p)
  else if style = "git-describe".toList then .ok (renderGitDescribe p)
  else if style = "git-describe-long".toList then .ok (renderGitDescribeLong p)
  else .error .valueError

/-- `not style or style == "default"` (rdtools/_version.py:613-614) -/
def effectiveStyle (style : Str) : Str :=
  if style = [] ∨ style = "default".toList then "pep440".toList else style

/-- `render` (rdtools/_version.py:604-637) -/
def render (p : Pieces) (style : Str) : Except PyErr Versions :=
  match truthy p.error with
  | some e => .ok ⟨"unknown".toList, some p.long, none, some e, none⟩
  | none => (renderStyle p (effectiveStyle style)).map fun v => ⟨v, some p.long, some p.dirty, none, p.date⟩

/-! ## `git describe` (rdtools/_version.py:338-386) -/

/-- the list before and after the last occurrence of a character; used at rdtools/_version.py:350 -/
def splitLast (c : Char) : Str → Option (Str × Str)
  | [] => none
  | a :: l =>
    match splitLast c l with
    | some (x, y) => some (a :: x, y)
    | none => if a = c then some ([], l) else none

/-- a hexadecimal digit of `[0-9a-f]`; used at rdtools/_version.py:350 -/
def isHex (c : Char) : Bool := c.isDigit || (decide ('a' ≤ c) && decide (c ≤ 'f'))

/-- the groups of `^(.+)-(\d+)-g([0-9a-f]+)$` (rdtools/_version.py:350). The two last groups contain no hyphen, so
the greedy match splits at the last two hyphens. Simplification: newlines in the tag are not excluded. -/
def matchDescribe (s : Str) : Option (Str × Nat × Str) :=
  match splitLast '-' s with
  | some (front, 'g' :: hex) =>
    match splitLast '-' front with
    | some (tag, num) =>
      if tag ≠ [] ∧ num ≠ [] ∧ num.all Char.isDigit ∧ hex ≠ [] ∧ hex.all isHex then
        some (tag, Nat.ofDigitChars 10 num 0, hex)
      else none
    | none => none
  | _ => none

/-- `git_describe.endswith("-dirty")` and the removal of the suffix (rdtools/_version.py:341-344) -/
def stripDirty (s : Str) : Str × Bool :=
  match dropPrefix? "-dirty".toList.reverse s.reverse with
  | some r => (r.reverse, true)
  | none => (s, false)

/-- result of the parsing: an error message or tag, distance and hash; `none` as hash keeps `full_out[:7]`;
used at rdtools/_version.py:346-378 -/
inductive Parsed where
  | error
  | tagged (tag : Str) (distance : Nat) (short : Str)
  | untagged
  deriving DecidableEq, Repr

/-- the parsing of the output of `git describe --long` (rdtools/_version.py:346-378) -/
def parseDescribe (tagPrefix s : Str) : Parsed :=
  if '-' ∈ s then
    match matchDescribe s with
    | none => .error
    | some (full, n, hex) =>
      match dropPrefix? tagPrefix full with
      | none => .error
      | some tag => .tagged tag n hex
  else .untagged

/-- pieces of a checkout: the output of `git describe`, `git rev-parse HEAD`, the branch, the number of commits
`total` (used without tags) and the date; used at rdtools/_version.py:294-387 -/
def piecesOf (tagPrefix describe long branch : Str) (total : Nat) (date : Str) : Pieces :=
  match parseDescribe tagPrefix (stripDirty describe).1 with
  | .error => ⟨none, 0, long.take 7, (stripDirty describe).2, branch, long, none,
      some ("unable to parse".toList)⟩
  | .tagged tag n hex => ⟨some tag, n, hex, (stripDirty describe).2, branch, long, some date, none⟩
  | .untagged => ⟨none, total, long.take 7, (stripDirty describe).2, branch, long, some date, none⟩

/-! ## keywords of `git archive` (rdtools/_version.py:186-250) -/

/-- lexicographic comparison by code point, as `sorted` compares strings;
used at rdtools/_version.py:229-243 -/
def strLe : Str → Str → Bool
  | [], _ => true
  | _ :: _, [] => false
  | a :: x, b :: y => if a.val < b.val then true else if b.val < a.val then false else strLe x y

/-- `str.strip` with the characters to be removed; used at rdtools/_version.py:211, 185-250 -/
def stripChars (bad : Char → Bool) (s : Str) : Str :=
  ((s.dropWhile bad).reverse.dropWhile bad).reverse

/-- ASCII white space. Simplification: other Unicode white space is kept.
Used at rdtools/_version.py:211, 185-250. -/
def isSpace (c : Char) : Bool := c = ' ' || c = '\n' || c = '\t' || c = '\r'

/-- `{r.strip() for r in refnames.strip("()").split(",")}` (rdtools/_version.py:211), as a list -/
def refsOf (refnames : Str) : List Str :=
  (splitOn (stripChars (fun c => c = '(' || c = ')') (stripChars isSpace refnames)) [',']).map (stripChars isSpace)

/-- the tags among the refs (rdtools/_version.py:214-224) -/
def tagsOf (refs : List Str) : List Str :=
  if (refs.filterMap (dropPrefix? "tag: ".toList)).isEmpty then refs.filter fun r => r.any Char.isDigit
  else refs.filterMap (dropPrefix? "tag: ".toList)

/-- the version of a ref, if it has the prefix and then starts with a digit (rdtools/_version.py:231-239) -/
def versionOfRef (tagPrefix ref : Str) : Option Str :=
  match dropPrefix? tagPrefix ref with
  | some (c :: r) => if c.isDigit then some (c :: r) else none
  | _ => none

/-- `for ref in sorted(tags)` (rdtools/_version.py:229-243) -/
def pickRef (tagPrefix : Str) (tags : List Str) : Option Str :=
  (tags.insertionSort fun a b => strLe a b = true).findSome? (versionOfRef tagPrefix)

/-- `git_versions_from_keywords` (rdtools/_version.py:185-249); `none` is `NotThisMethod`. The keyword `refnames`
exists in the file (rdtools/_version.py:31). The date is passed as already edited. -/
def versionsFromKeywords (refnames full : Str) (date : Option Str) (tagPrefix : Str) : Option Versions :=
  if (dropPrefix? "$Format".toList (stripChars isSpace refnames)).isSome then none
  else
    match pickRef tagPrefix (tagsOf (refsOf refnames)) with
    | some r => some ⟨r, some (stripChars isSpace full), some false, none, date⟩
    | none => some ⟨"0+unknown".toList, some (stripChars isSpace full), some false,
        some "no suitable tags".toList, none⟩

/-- `get_versions` (rdtools/_version.py:640-683): keywords, then the checkout (`none` when git fails), then the name of the
parent directory (`none` when it does not fit). Simplification: `__file__` is defined. -/
def getVersions (keywords : Option Versions) (pieces : Option Pieces) (style : Str) (parentdir : Option Versions) :
    Except PyErr Versions :=
  match keywords with
  | some v => .ok v
  | none =>
    match pieces with
    | some p => render p style
    | none =>
      match parentdir with
      | some v => .ok v
      | none => .ok ⟨"0+unknown".toList, none, none, some "unable to compute version".toList, none⟩

end Verif.Version
