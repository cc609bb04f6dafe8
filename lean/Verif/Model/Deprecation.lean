import Verif.Model.Version

/-!
# Deprecation warnings (rdtools/_deprecation.py:137-318)

A Python function is a map from arguments and a world to a result (or an exception) and a world. The world holds the
warnings shown so far, the warning filter and any other state. `textwrap.dedent` is a parameter.
-/

namespace Verif.Deprecation

open Version (Str stripChars isSpace)

/-- a piece of a format string: a character or `%(key)s`; used at rdtools/_deprecation.py:137-164 -/
inductive Piece where
  | char (c : Char)
  | key (k : Str)
  deriving DecidableEq, Repr

/-- the key up to the closing parenthesis and the rest after `)s`;
used at rdtools/_deprecation.py:137-164 -/
def readKey : Str → Str → Option (Str × Str)
  | acc, ')' :: 's' :: rest => some (acc.reverse, rest)
  | _, ')' :: _ => none
  | _, [] => none
  | acc, c :: rest => readKey (c :: acc) rest

/-- the pieces of a format string, with `fuel` at least its length. Simplification: conversions other than `%(key)s`
and `%%` are an error; Python accepts some more. Used at rdtools/_deprecation.py:137-164. -/
def parseFormat : Nat → Str → Except PyErr (List Piece)
  | _, [] => .ok []
  | 0, _ :: _ => .error .valueError
  | fuel + 1, '%' :: '%' :: rest => (parseFormat fuel rest).map (Piece.char '%' :: ·)
  | fuel + 1, '%' :: '(' :: rest =>
    match readKey [] rest with
    | some (k, rest') => (parseFormat fuel rest').map (Piece.key k :: ·)
    | none => .error .valueError
  | _ + 1, '%' :: _ => .error .valueError
  | fuel + 1, c :: rest => (parseFormat fuel rest).map (Piece.char c :: ·)

/-- the value of a key in a dict of strings; used at rdtools/_deprecation.py:137-164 -/
def lookupKey (d : List (Str × Str)) (k : Str) : Except PyErr Str :=
  match d.lookup k with
  | some v => .ok v
  | none => .error .keyError

/-- the string of the pieces; used at rdtools/_deprecation.py:137-164 -/
def renderPieces (d : List (Str × Str)) : List Piece → Except PyErr Str
  | [] => .ok []
  | .char c :: l => (renderPieces d l).map (c :: ·)
  | .key k :: l =>
    match lookupKey d k with
    | .ok v => (renderPieces d l).map (v ++ ·)
    | .error e => .error e

/-- `template % dict`; used at rdtools/_deprecation.py:137-164 -/
def format (template : Str) (d : List (Str × Str)) : Except PyErr Str :=
  match parseFormat template.length template with
  | .ok ps => renderPieces d ps
  | .error e => .error e

/-- the options of a deprecation; `removal := none` is a falsy value other than the empty string (`None`);
used at rdtools/_deprecation.py:141-147, 149-160 -/
structure Options where
  since : Str
  message : Str := []
  name : Str := []
  alternative : Str := []
  pending : Bool := false
  addendum : Str := []
  removal : Option Str := some []
  deriving DecidableEq, Repr

/-- the removal text (rdtools/_deprecation.py:141-147) -/
def removalText (o : Options) : Except PyErr (Option Str) :=
  match o.removal with
  | some [] => .ok (some "soon".toList)
  | some r => if o.pending then .error .valueError else .ok (some ("in ".toList ++ r))
  | none => .ok none

/-- the default template (rdtools/_deprecation.py:149-160) -/
def template (o : Options) (removal : Option Str) : Str :=
  if o.message ≠ [] then o.message
  else
    "The %(name)s %(obj_type)s".toList ++
    (if o.pending then " will be deprecated in a future version".toList
     else " was deprecated in %(projectName)s %(since)s".toList ++
      (if removal.isSome then " and will be removed %(removal)s".toList else [])) ++
    ".".toList ++
    (if o.alternative ≠ [] then " Use %(alternative)s instead.".toList else []) ++
    (if o.addendum ≠ [] then " %(addendum)s".toList else [])

/-- the dict of the format (rdtools/_deprecation.py:162-164); `%s` of `None` is the text `None` -/
def formatDict (o : Options) (objType : Str) (removal : Option Str) : List (Str × Str) :=
  [("func".toList, o.name), ("name".toList, o.name), ("obj_type".toList, objType), ("since".toList, o.since),
    ("removal".toList, removal.getD "None".toList), ("alternative".toList, o.alternative),
    ("addendum".toList, o.addendum), ("projectName".toList, "rdtools".toList)]

/-- `_generate_deprecation_message` (rdtools/_deprecation.py:137-164) -/
def generateMessage (o : Options) (objType : Str) : Except PyErr Str :=
  match removalText o with
  | .ok removal => format (template o removal) (formatDict o objType removal)
  | .error e => .error e

/-- warning categories; used at rdtools/_deprecation.py:211-212, 299-300, 302-304 -/
inductive Category where
  | pendingDeprecation
  | rdtoolsDeprecation
  deriving DecidableEq, Repr

/-- a warning that was issued; used at rdtools/_deprecation.py:167-213 -/
structure Warning where
  text : Str
  category : Category
  deriving DecidableEq, Repr

/-- the category (rdtools/_deprecation.py:211-212, 299-300) -/
def categoryOf (pending : Bool) : Category := if pending then .pendingDeprecation else .rdtoolsDeprecation

/-- the world: warnings shown, whether the warning filter turns a warning into an exception, other state;
used at rdtools/_deprecation.py:167-213 -/
structure World (σ : Type) where
  log : List Warning
  raises : Warning → Bool
  rest : σ

/-- `warnings.warn` with every warning shown or raised. Simplification: the suppression of repeated warnings by the default
filter is not modelled; a raised warning is the exception `exception`.
Used at rdtools/_deprecation.py:167-213, 302-304. -/
def warn {σ : Type} (w : Warning) (s : World σ) : Except PyErr Unit × World σ :=
  if s.raises w then (.error .exception, s) else (.ok (), { s with log := s.log ++ [w] })

/-- `warn_deprecated` (rdtools/_deprecation.py:167-213) -/
def warnDeprecated {σ : Type} (o : Options) (objType : Str) (s : World σ) : Except PyErr Unit × World σ :=
  match generateMessage o objType with
  | .ok m => warn ⟨'\n' :: m, categoryOf o.pending⟩ s
  | .error e => (.error e, s)

/-- a Python function; used at rdtools/_deprecation.py:302-304 -/
def Fn (σ A R : Type) : Type := A → World σ → Except PyErr R × World σ

/-- `wrapper` (rdtools/_deprecation.py:302-304); the variable `message` is read when the wrapper is called, after it was
stripped in line 307 -/
def wrapper {σ A R : Type} (message : Str) (category : Category) (func : Fn σ A R) : Fn σ A R := fun a s =>
  match warn ⟨message, category⟩ s with
  | (.ok (), s') => func a s'
  | (.error e, s') => (.error e, s')

/-- what kind of object is decorated; used at rdtools/_deprecation.py:269, 278 -/
inductive Kind where
  | cls
  | clsMethod
  | func
  deriving DecidableEq, Repr

/-- an object: for a class `call` is its `__init__`, for a class method its `__func__`;
used at rdtools/_deprecation.py:265-266, 216-318 -/
structure Obj (σ A R : Type) where
  kind : Kind
  name : Str
  doc : Option Str
  call : Fn σ A R

/-- `obj_type` (rdtools/_deprecation.py:269, 278) -/
def objType : Kind → Str
  | .cls => "class".toList
  | .clsMethod => "function".toList
  | .func => "function".toList

/-- the new docstring (rdtools/_deprecation.py:306-314) -/
def newDoc (dedent : Str → Str) (since message : Str) (old : Option Str) : Str :=
  "\n.. deprecated:: ".toList ++ since ++ "\n    ".toList ++ message ++ "\n\n".toList ++
    stripChars (fun c => c = '\n') (dedent (old.getD [])) ++
    (if stripChars (fun c => c = '\n') (dedent (old.getD [])) = [] then "\\ ".toList else [])

/-- `if not name: name = obj.__name__` (rdtools/_deprecation.py:265-266). Simplification: every object has a `__name__`; class
methods do since Python 3.10. -/
def withName {σ A R : Type} (o : Options) (obj : Obj σ A R) : Options :=
  if o.name = [] then { o with name := obj.name } else o

/-- `deprecated(...)(obj)` (rdtools/_deprecation.py:216-318). The class keeps its identity and gets a new `__init__`; the others are
replaced by the wrapper, with the name kept by `functools.wraps`. -/
def decorate {σ A R : Type} (dedent : Str → Str) (o : Options) (obj : Obj σ A R) : Except PyErr (Obj σ A R) :=
  match generateMessage (withName o obj) (objType obj.kind) with
  | .ok m => .ok { obj with
      doc := some (newDoc dedent o.since (stripChars isSpace m) obj.doc)
      call := wrapper (stripChars isSpace m) (categoryOf o.pending) obj.call }
  | .error e => .error e

/-- a sequence of calls; used at rdtools/_deprecation.py:302-304 -/
def runCalls {σ A R : Type} (f : Fn σ A R) : List A → World σ → List (Except PyErr R) × World σ
  | [], s => ([], s)
  | a :: l, s => ((f a s).1 :: (runCalls f l (f a s).2).1, (runCalls f l (f a s).2).2)

end Verif.Deprecation
