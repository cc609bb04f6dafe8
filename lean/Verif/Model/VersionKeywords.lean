import Verif.Model.VersionGit

/-!
# Reading the version keywords from the file (rdtools/_version.py:23-33, 61-77, 155-181)

`git_get_keywords` is for packaging scripts, which read `_version.py` without importing it.
-/

namespace Verif.Version

/-- the dict of keywords found so far (rdtools/_version.py:162) -/
structure Keywords where
  refnames : Option Str
  full : Option Str
  date : Option Str
  deriving DecidableEq, Repr

/-- what `get_keywords` returns (rdtools/_version.py:23-34) in a checkout -/
def getKeywords : Keywords :=
  { refnames := some "$Format:%d$".toList, full := some "$Format:%H$".toList, date := some "$Format:%ci$".toList }

/-- `\s*"(.*)"` at the beginning of a string (rdtools/_version.py:167): the group extends to the last quote -/
def afterEq (s : Str) : Option Str :=
  match s.dropWhile isSpace with
  | '"' :: r => (splitLast '"' r).map Prod.fst
  | _ => none

/-- `re.search(r'=\s*"(.*)"', line)` and its group (rdtools/_version.py:167-169): the first `=` from which it matches -/
def searchQuoted : Str → Option Str
  | [] => none
  | c :: l =>
    if c = '=' then
      match afterEq l with
      | some x => some x
      | none => searchQuoted l
    else searchQuoted l

/-- `line.strip().startswith(key)` (rdtools/_version.py:166, 170, 174) -/
def lineHas (key line : Str) : Bool := (dropPrefix? key (strip line)).isSome

/-- the value of the keyword after a line (rdtools/_version.py:166-169): unchanged if the line does not begin with it or has no
quoted string -/
def keywordAfter (key : Str) (old : Option Str) (line : Str) : Option Str :=
  if lineHas key line then
    match searchQuoted line with
    | some x => some x
    | none => old
  else old

/-- one line of the file (rdtools/_version.py:165-177) -/
def keywordsLine (k : Keywords) (line : Str) : Keywords :=
  { refnames := keywordAfter "git_refnames =".toList k.refnames line
    full := keywordAfter "git_full =".toList k.full line
    date := keywordAfter "git_date =".toList k.date line }

/-- `git_get_keywords` (rdtools/_version.py:155-181): `none` is a file that cannot be opened (OSError). Lines end with \n, \r or
\r\n (universal newlines). Simplification: the file can be decoded. -/
def gitGetKeywords (file : Option Str) : Keywords :=
  match file with
  | none => ⟨none, none, none⟩
  | some text => (splitLinesAux [] text).foldl keywordsLine ⟨none, none, none⟩

/-- `HANDLERS` (rdtools/_version.py:66): the functions by version control system and method; `α` stands for functions -/
abbrev Handlers (α : Type) := List (Str × List (Str × α))

/-- assignment to a key of a dict; used at rdtools/_version.py:74-75 -/
def dictSet {β : Type} (k : Str) (v : β) : List (Str × β) → List (Str × β)
  | [] => [(k, v)]
  | (a, b) :: l => if a = k then (a, v) :: l else (a, b) :: dictSet k v l

/-- `register_vcs_handler(vcs, method)(f)` (rdtools/_version.py:69-77): the updated `HANDLERS` and the function returned -/
def registerHandler {α : Type} (h : Handlers α) (vcs method : Str) (f : α) : Handlers α × α :=
  let h := if (h.lookup vcs).isNone then dictSet vcs [] h else h            -- 73-74
  (dictSet vcs (dictSet method f ((h.lookup vcs).getD [])) h, f)            -- 75-76

/-- `HANDLERS[vcs][method]`; rdtools/_version.py:66 -/
def handlerOf {α : Type} (h : Handlers α) (vcs method : Str) : Option α :=
  (h.lookup vcs).bind fun m => m.lookup method

end Verif.Version
