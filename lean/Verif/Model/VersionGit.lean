import Verif.Model.Version

/-!
# The version at import (rdtools/_version.py, rdtools/__init__.py)

`Verif.Model.Version` models the rendering and the parsing. Here are the calls of git, the name of the directory and
`get_versions` from the keywords and the path of the file to the returned dict.
-/

namespace Verif.Version

/-- what `subprocess.Popen` and `communicate` do for a command: the executable does not exist (ENOENT), another OSError, or
the process ends with a return code after printing to stdout. Simplification: stdout can be decoded.
Used at rdtools/_version.py:100-121. -/
inductive Outcome where
  | missing
  | osError
  | exit (code : Int) (stdout : Str)
  deriving DecidableEq, Repr

/-- `str.strip()`; used at rdtools/_version.py:119, 292, 296, 308 -/
def strip (s : Str) : Str := stripChars isSpace s

/-- `run_command` (rdtools/_version.py:80-125) without printing: stdout and return code -/
def runCommand (popen : Str → List Str → Outcome) : List Str → List Str → Option Str × Option Int
  | [], _ => (none, none)                                             -- 115-118
  | c :: cs, args =>
    match popen c args with
    | .missing => runCommand popen cs args                            -- 109-110
    | .osError => (none, none)                                        -- 111-114
    | .exit code out =>
      if code ≠ 0 then (none, some code) else (some (strip out), some code)   -- 119-125

/-- `str.splitlines()`; `cur` is the current line, reversed. Simplification: lines end with \n, \r or \r\n.
Used at rdtools/_version.py:197, 384. -/
def splitLinesAux : Str → Str → List Str
  | cur, [] => if cur = [] then [] else [cur.reverse]
  | cur, '\r' :: '\n' :: l => cur.reverse :: splitLinesAux [] l
  | cur, c :: l => if c = '\n' ∨ c = '\r' then cur.reverse :: splitLinesAux [] l else splitLinesAux (c :: cur) l

/-- `s.splitlines()[-1]` (rdtools/_version.py:197, 384) -/
def lastLine (s : Str) : Except PyErr Str :=
  match (splitLinesAux [] s).getLast? with
  | some l => .ok l
  | none => .error .indexError

/-- `str.replace(c, new, 1)`; used at rdtools/_version.py:205, 385 -/
def replaceFirst (c : Char) (new : Str) : Str → Str
  | [] => []
  | a :: l => if a = c then new ++ l else a :: replaceFirst c new l

/-- the last line of a date, with `T` and without the blank before the zone (rdtools/_version.py:197-205, 384-385) -/
def isoDate (date : Str) : Except PyErr Str :=
  (lastLine date).map fun d => replaceFirst ' ' [] (replaceFirst ' ' ['T'] (strip d))

/-- `len(out.split())`; `inWord` tells whether the previous character belongs to a word;
used at rdtools/_version.py:378 -/
def wordCount : Bool → Str → Nat
  | _, [] => 0
  | inWord, c :: l =>
    if isSpace c then wordCount false l else (if inWord then 0 else 1) + wordCount true l

/-- arguments of `git describe` (rdtools/_version.py:285-288) -/
def describeArgs (tagPrefix : Str) : List Str :=
  ["describe".toList, "--tags".toList, "--dirty".toList, "--always".toList, "--long".toList, "--match".toList,
    tagPrefix ++ "[[:digit:]]*".toList]

/-- the branch of a commit that is checked out without one (rdtools/_version.py:318-332); no branch is the empty name here
and None in the code -/
def pickBranch (out : Str) : Str :=
  let lines := splitOn out ['\n']                                                        -- 318
  let lines := if '(' ∈ lines.headD [] then lines.tail else lines                        -- 321-322
  let names := lines.map (List.drop 2)                                                   -- 325
  if "master".toList ∈ names then "master".toList else names.headD []                    -- 326-332

/-- the name of the branch (rdtools/_version.py:303-332); `none` is NotThisMethod -/
def branchName (git : List Str → Option Str × Option Int) : Option Str :=
  match git ["rev-parse".toList, "--abbrev-ref".toList, "HEAD".toList] with
  | (some b, some 0) =>
    if strip b = "HEAD".toList then
      match git ["branch".toList, "--contains".toList] with
      | (some out, some 0) => some (pickBranch out)
      | _ => none
    else some (strip b)
  | _ => none

/-- `out, rc = runner(...); len(out.split())` (rdtools/_version.py:377-378): None has no `split` -/
def commitCount (git : List Str → Option Str × Option Int) : Except PyErr Nat :=
  match (git ["rev-list".toList, "HEAD".toList, "--left-right".toList]).1 with
  | some out => .ok (wordCount false out)
  | none => .error .attributeError

/-- the date of the commit (rdtools/_version.py:380-385): None has no `strip` -/
def commitDate (git : List Str → Option Str × Option Int) : Except PyErr Str :=
  match (git ["show".toList, "-s".toList, "--format=%ci".toList, "HEAD".toList]).1 with
  | some out => isoDate (strip out)
  | none => .error .attributeError

/-- `git_pieces_from_vcs` (rdtools/_version.py:252-387); `none` is NotThisMethod -/
def gitPieces (git : List Str → Option Str × Option Int) (tagPrefix : Str) : Except PyErr (Option Pieces) :=
  if (git ["rev-parse".toList, "--git-dir".toList]).2 ≠ some 0 then .ok none             -- 276-281
  else
    match (git (describeArgs tagPrefix)).1 with                                          -- 285-291
    | none => .ok none
    | some describe =>
      match (git ["rev-parse".toList, "HEAD".toList]).1 with                             -- 293-295
      | none => .ok none
      | some full =>
        match branchName git with                                                        -- 303-332
        | none => .ok none
        | some branch =>
          match parseDescribe tagPrefix (stripDirty (strip describe)).1 with
          | .error => .ok (some (piecesOf tagPrefix (strip describe) (strip full) branch 0 []))   -- 351-365
          | .tagged _ _ _ => (commitDate git).map fun date =>
              some (piecesOf tagPrefix (strip describe) (strip full) branch 0 date)
          | .untagged => (commitCount git).bind fun total => (commitDate git).map fun date =>
              some (piecesOf tagPrefix (strip describe) (strip full) branch total date)

/-- `os.path.basename`; used at rdtools/_version.py:142 -/
def basename (p : Str) : Str := (p.reverse.takeWhile (· ≠ '/')).reverse

/-- `os.path.dirname` (POSIX); used at rdtools/_version.py:148, 661-662 -/
def dirname (p : Str) : Str :=
  let head := (p.reverse.dropWhile (· ≠ '/')).reverse
  if head.all (· = '/') then head else (head.reverse.dropWhile (· = '/')).reverse

/-- the `n` directories from `root` upwards whose names are looked at (rdtools/_version.py:141-153) -/
def fromParents (parentPrefix : Str) : Nat → Str → Option Versions
  | 0, _ => none
  | n + 1, root =>
    match dropPrefix? parentPrefix (basename root) with
    | some v => some ⟨v, none, some false, none, none⟩
    | none => fromParents parentPrefix n (dirname root)

/-- `versions_from_parentdir` (rdtools/_version.py:128-153); `none` is NotThisMethod -/
def versionsFromParentdir (parentPrefix root : Str) : Option Versions := fromParents parentPrefix 3 root

/-- `get_versions` (rdtools/_version.py:640-683) with the configuration of `get_config` (47-58): style pep440, no tag
prefix, parent directory `rdtools-`, file `rdtools/_version.py`. `refnames`, `full` and `date` are the strings of
`get_keywords` (23-33), which `git archive` replaces. `file` is `os.path.realpath(__file__)`. -/
def importVersion (refnames full date : Str) (popen : Str → List Str → Outcome) (commands : List Str) (file : Str) :
    Except PyErr Versions :=
  (isoDate date).bind fun d =>                                                           -- 193-205
  match versionsFromKeywords refnames full (some d) [] with
  | some v => .ok v
  | none =>
    (gitPieces (runCommand popen commands) []).bind fun pieces =>
    getVersions none pieces "pep440".toList (versionsFromParentdir "rdtools-".toList (dirname (dirname file)))

end Verif.Version
