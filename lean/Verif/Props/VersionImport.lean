import Verif.Model.VersionGit
import Mathlib.Data.List.TakeWhile
import Verif.Props.VersionArchive

/-! # C115: finding the version at import (rdtools/_version.py) -/

namespace Verif.Version

/-! ## specification: a checkout as git shows it -/

/-- what git knows about a checkout: the closest tag, commits since then, abbreviated and full hash, local changes, the
branch (`none`: detached) and the branches that contain the commit, the number of commits, the date of the commit -/
structure Spec.Repo where
  tag : Option Str
  distance : Nat
  hex : Str
  long : Str
  dirty : Bool
  branch : Option Str
  heads : List Str
  commits : List Str
  day : Str
  clock : Str
  zone : Str

/-- output of `git describe --tags --dirty --always --long` -/
def Spec.describe (r : Spec.Repo) : Str :=
  (match r.tag with
   | some t => t ++ "-".toList ++ digits r.distance ++ "-g".toList ++ r.hex
   | none => r.hex) ++ if r.dirty then "-dirty".toList else []

/-- lines, each ended by a newline -/
def Spec.lines (l : List Str) : Str := l.flatMap fun x => x ++ ['\n']

/-- git in that checkout -/
def Spec.git (r : Spec.Repo) (args : List Str) : Outcome :=
  if args = ["rev-parse".toList, "--git-dir".toList] then .exit 0 ".git\n".toList
  else if args = ["describe".toList, "--tags".toList, "--dirty".toList, "--always".toList, "--long".toList, "--match".toList,
    "[[:digit:]]*".toList] then .exit 0 (Spec.describe r ++ ['\n'])
  else if args = ["rev-parse".toList, "HEAD".toList] then .exit 0 (r.long ++ ['\n'])
  else if args = ["rev-parse".toList, "--abbrev-ref".toList, "HEAD".toList] then
    .exit 0 (r.branch.getD "HEAD".toList ++ ['\n'])
  else if args = ["branch".toList, "--contains".toList] then
    .exit 0 ("* (HEAD detached at ".toList ++ r.hex ++ ")\n".toList ++ Spec.lines (r.heads.map ("  ".toList ++ ·)))
  else if args = ["rev-list".toList, "HEAD".toList, "--left-right".toList] then .exit 0 (Spec.lines r.commits)
  else if args = ["show".toList, "-s".toList, "--format=%ci".toList, "HEAD".toList] then
    .exit 0 (r.day ++ " ".toList ++ r.clock ++ " ".toList ++ r.zone ++ ['\n'])
  else .exit 1 []

/-- a word: not empty, no white space -/
def Spec.Word (s : Str) : Prop := s ≠ [] ∧ ∀ c ∈ s, isSpace c = false

/-- what git guarantees about its answers -/
structure Spec.Repo.Ok (r : Spec.Repo) : Prop where
  tag : ∀ t, r.tag = some t → Spec.Word t
  hex : Spec.Word r.hex ∧ r.hex.all isHex = true
  long : Spec.Word r.long
  commits : ∀ c ∈ r.commits, Spec.Word c
  day : Spec.Word r.day
  clock : Spec.Word r.clock
  zone : Spec.Word r.zone

/-- the version PEP 440 asks for: the tag; after further commits or changes the local part `+N.gHASH` (after a `.` if the tag has
a local part already) and `.dirty`; without tags `0+untagged` and the number of all commits -/
def Spec.versionOf (r : Spec.Repo) : Str :=
  let dirty := if r.dirty then ".dirty".toList else []
  match r.tag with
  | some t =>
    if r.distance = 0 ∧ r.dirty = false then t
    else t ++ (if '+' ∈ t then ".".toList else "+".toList) ++ digits r.distance ++ ".g".toList ++ r.hex ++ dirty
  | none => "0+untagged.".toList ++ digits r.commits.length ++ ".g".toList ++ r.long.take 7 ++ dirty

/-! ## lemmas -/

theorem strip_line {x : Str} (h0 : x ≠ []) (hs : ∀ c, x.head? = some c → isSpace c = false)
    (hl : ∀ c, x.getLast? = some c → isSpace c = false) : strip (x ++ ['\n']) = x := by
  have := strip_core (bad := isSpace) (pre := []) (x := x) (post := ['\n']) (by simp) (by simp; decide) h0 hs hl
  rwa [List.nil_append] at this

theorem strip_self {x : Str} (h0 : x ≠ []) (hs : ∀ c, x.head? = some c → isSpace c = false)
    (hl : ∀ c, x.getLast? = some c → isSpace c = false) : strip x = x := by
  have := strip_core (bad := isSpace) (pre := []) (x := x) (post := []) (by simp) (by simp) h0 hs hl
  rwa [List.nil_append, List.append_nil] at this

theorem Spec.Word.head {x : Str} (h : Spec.Word x) : ∀ c, x.head? = some c → isSpace c = false :=
  fun c hc => h.2 c (List.mem_of_head? hc)

theorem Spec.Word.last {x : Str} (h : Spec.Word x) : ∀ c, x.getLast? = some c → isSpace c = false :=
  fun c hc => h.2 c (List.mem_of_getLast? hc)

theorem splitLines_one {x : Str} (cur : Str) (h : ∀ c ∈ x, c ≠ '\n' ∧ c ≠ '\r') (hne : cur ≠ [] ∨ x ≠ []) :
    splitLinesAux cur x = [cur.reverse ++ x] := by
  induction x generalizing cur with
  | nil =>
    have : cur ≠ [] := by simpa using hne
    simp [splitLinesAux, this]
  | cons c l ih =>
    have hc := h c List.mem_cons_self
    have : splitLinesAux cur (c :: l) = splitLinesAux (c :: cur) l := by
      cases l with
      | nil =>
        rw [splitLinesAux.eq_def]
        split
        · simp_all
        · simp_all
        · rename_i heq; cases heq; simp [hc.1, hc.2]
      | cons d l =>
        rw [splitLinesAux.eq_def]
        split
        · simp_all
        · rename_i heq; simp only [List.cons.injEq] at heq; exact absurd heq.1 hc.2
        · rename_i heq; cases heq; simp [hc.1, hc.2]
    rw [this, ih (c :: cur) (fun c' hc' => h c' (List.mem_cons_of_mem _ hc')) (Or.inl (by simp))]
    simp

theorem splitLines_ne {x : Str} (cur : Str) (hne : cur ≠ [] ∨ x ≠ []) : splitLinesAux cur x ≠ [] := by
  induction x generalizing cur with
  | nil =>
    have : cur ≠ [] := by simpa using hne
    simp [splitLinesAux, this]
  | cons c l ih =>
    rw [splitLinesAux.eq_def]
    split
    · simp_all
    · simp
    · split_ifs
      · simp
      · rename_i heq _; cases heq; exact ih _ (Or.inl (by simp))

theorem isoDate_total {x : Str} (h : x ≠ []) : ∃ d, isoDate x = .ok d := by
  unfold isoDate lastLine
  cases hl : (splitLinesAux [] x).getLast? with
  | none => exact absurd (List.getLast?_eq_none_iff.mp hl) (splitLines_ne [] (Or.inr h))
  | some l => exact ⟨_, rfl⟩

theorem replaceFirst_append {c : Char} {new x y : Str} (h : c ∉ x) :
    replaceFirst c new (x ++ c :: y) = x ++ new ++ y := by
  induction x with
  | nil => simp [replaceFirst]
  | cons a x ih =>
    have ha : a ≠ c := fun e => h (e ▸ List.mem_cons_self)
    simp [replaceFirst, ha, ih fun hx => h (List.mem_cons_of_mem _ hx)]

theorem word_ne {x : Str} (h : Spec.Word x) {b : Char} (hb : isSpace b = true) : b ∉ x := fun hm => by
  rw [h.2 b hm] at hb; cases hb

theorem isoDate_words {a b c : Str} (ha : Spec.Word a) (hb : Spec.Word b) (hc : Spec.Word c) :
    isoDate (a ++ " ".toList ++ b ++ " ".toList ++ c) = .ok (a ++ "T".toList ++ b ++ c) := by
  unfold isoDate lastLine
  rw [splitLines_one []]
  · simp only [List.reverse_nil, List.nil_append, List.getLast?_singleton, Except.map]
    rw [strip_self]
    · have e1 : a ++ " ".toList ++ b ++ " ".toList ++ c = a ++ ' ' :: (b ++ " ".toList ++ c) := by simp
      rw [e1, replaceFirst_append (word_ne ha (by decide))]
      have e2 : a ++ ['T'] ++ (b ++ " ".toList ++ c) = (a ++ ['T'] ++ b) ++ ' ' :: c := by simp
      rw [e2, replaceFirst_append]
      · simp
      · simp only [List.mem_append, List.mem_singleton, not_or]
        exact ⟨⟨word_ne ha (by decide), by decide⟩, word_ne hb (by decide)⟩
    · simp
    · intro x hx
      rw [List.append_assoc, List.append_assoc, List.append_assoc, List.head?_append_of_ne_nil _ ha.1] at hx
      exact ha.head x hx
    · intro x hx
      rw [List.getLast?_append_of_ne_nil _ hc.1] at hx
      exact hc.last x hx
  · intro x hx
    simp only [List.mem_append] at hx
    have key : isSpace x = false ∨ x = ' ' := by
      rcases hx with (((hx | hx) | hx) | hx) | hx
      · exact .inl (ha.2 x hx)
      · exact .inr (by simpa using hx)
      · exact .inl (hb.2 x hx)
      · exact .inr (by simpa using hx)
      · exact .inl (hc.2 x hx)
    rcases key with hk | rfl
    · constructor
      · rintro rfl; exact absurd hk (by decide)
      · rintro rfl; exact absurd hk (by decide)
    · exact ⟨by decide, by decide⟩
  · right; simp

theorem wordCount_word {x rest : Str} (h : ∀ c ∈ x, isSpace c = false) :
    wordCount true (x ++ rest) = wordCount true rest := by
  induction x with
  | nil => rfl
  | cons a x ih =>
    have ha := h a List.mem_cons_self
    simp only [List.cons_append, wordCount, ha, Bool.false_eq_true, if_false, if_true, Nat.zero_add]
    exact ih fun c hc => h c (List.mem_cons_of_mem _ hc)

theorem wordCount_lines {l : List Str} (h : ∀ x ∈ l, Spec.Word x) : wordCount false (Spec.lines l) = l.length := by
  induction l with
  | nil => rfl
  | cons x l ih =>
    have hx := h x List.mem_cons_self
    obtain ⟨c, w, rfl⟩ := List.exists_cons_of_ne_nil hx.1
    have hc := hx.2 c List.mem_cons_self
    have : Spec.lines ((c :: w) :: l) = c :: (w ++ ('\n' :: Spec.lines l)) := by simp [Spec.lines]
    rw [this]
    simp only [wordCount, hc, Bool.false_eq_true, if_false]
    rw [wordCount_word fun d hd => hx.2 d (List.mem_cons_of_mem _ hd)]
    have hn : isSpace '\n' = true := by decide
    simp only [wordCount, hn, if_true]
    rw [ih fun y hy => h y (List.mem_cons_of_mem _ hy), List.length_cons]
    omega

theorem wordCount_append_space {x post : Str} (b : Bool) (h : ∀ c ∈ post, isSpace c = true) :
    wordCount b (x ++ post) = wordCount b x := by
  induction x generalizing b with
  | nil =>
    rw [List.nil_append]
    induction post generalizing b with
    | nil => rfl
    | cons c l ih =>
      have hc := h c List.mem_cons_self
      have h2 := ih (fun d hd => h d (List.mem_cons_of_mem _ hd)) false
      cases b <;> simp only [wordCount, hc, if_true] <;> exact h2
  | cons a x ih =>
    by_cases ha : isSpace a = true
    · simp only [List.cons_append, wordCount, ha, if_true]; exact ih false
    · simp only [List.cons_append, wordCount, ha, Bool.false_eq_true, if_false]; rw [ih true]

theorem wordCount_strip (s : Str) : wordCount false (strip s) = wordCount false s := by
  have h1 : ∀ s : Str, wordCount false (s.dropWhile isSpace) = wordCount false s := by
    intro s
    induction s with
    | nil => rfl
    | cons a s ih =>
      by_cases ha : isSpace a = true
      · rw [List.dropWhile_cons_of_pos ha, ih]; simp only [wordCount, ha, if_true]
      · rw [List.dropWhile_cons_of_neg ha]
  have h2 : ∀ s : Str, wordCount false (s.reverse.dropWhile isSpace).reverse = wordCount false s := by
    intro s
    have e : s = (s.reverse.dropWhile isSpace).reverse ++ (s.reverse.takeWhile isSpace).reverse := by
      rw [← List.reverse_append, List.takeWhile_append_dropWhile, List.reverse_reverse]
    conv_rhs => rw [e]
    rw [wordCount_append_space false]
    intro c hc
    exact List.mem_takeWhile_imp (List.mem_reverse.mp hc)
  unfold strip stripChars
  rw [h2, h1]

theorem strip_idem {x : Str} (h0 : ∀ c, x.head? = some c → isSpace c = false)
    (hl : ∀ c, x.getLast? = some c → isSpace c = false) : strip x = x := by
  by_cases hx : x = []
  · subst hx; rfl
  · exact strip_self hx h0 hl

theorem strip_ne {x : Str} {c : Char} (hc : c ∈ x) (h : isSpace c = false) : strip x ≠ [] := by
  intro e
  unfold strip stripChars at e
  rw [List.reverse_eq_nil_iff, List.dropWhile_eq_nil_iff] at e
  have h1 : c ∈ x.dropWhile isSpace := by
    rw [← List.takeWhile_append_dropWhile (p := isSpace) (l := x), List.mem_append] at hc
    rcases hc with hc | hc
    · rw [List.mem_takeWhile_imp hc] at h; cases h
    · exact hc
  rw [e c (List.mem_reverse.mpr h1)] at h
  cases h

theorem run_exit {popen : Str → List Str → Outcome} {commands args : List Str} {out : Str} (hc : commands ≠ [])
    (h : ∀ c, popen c args = .exit 0 out) : runCommand popen commands args = (some (strip out), some 0) := by
  cases commands with
  | nil => exact absurd rfl hc
  | cons c cs => simp [runCommand, h c]

/-! ## theorems -/

/-- **C115 (executables).** The first of the possible executables that exists is the one whose answer counts. -/
theorem C115_command {popen : Str → List Str → Outcome} {before after : List Str} {c : Str} (args : List Str)
    (hb : ∀ b ∈ before, popen b args = .missing) (hc : popen c args ≠ .missing) :
    runCommand popen (before ++ c :: after) args =
      match popen c args with
      | .exit 0 out => (some (strip out), some 0)
      | .exit code _ => (none, some code)
      | _ => (none, none) := by
  induction before with
  | nil =>
    simp only [List.nil_append, runCommand]
    cases h : popen c args with
    | missing => exact absurd h hc
    | osError => rfl
    | exit code out =>
      by_cases h0 : code = 0
      · subst h0; rfl
      · simp only [if_pos h0]
  | cons b before ih =>
    rw [List.cons_append, runCommand, hb b List.mem_cons_self]
    exact ih fun x hx => hb x (List.mem_cons_of_mem _ hx)

/-- **C115 (never stops the import, as far as it is true).** Whatever git prints and wherever it fails, a version is found,
provided that `git show` prints a date and `git rev-list` does not fail. -/
theorem C115_total_partial (refnames full date file : Str) (popen : Str → List Str → Outcome) (commands : List Str)
    (hdate : date ≠ [])
    (hshow : ∃ out, (runCommand popen commands ["show".toList, "-s".toList, "--format=%ci".toList, "HEAD".toList]).1 =
      some out ∧ ∃ c ∈ out, isSpace c = false)
    (hrev : (runCommand popen commands ["rev-list".toList, "HEAD".toList, "--left-right".toList]).1 ≠ none) :
    ∃ v, importVersion refnames full date popen commands file = .ok v := by
  obtain ⟨d, hd⟩ := isoDate_total hdate
  unfold importVersion
  rw [hd]
  simp only [Except.bind]
  cases versionsFromKeywords refnames full (some d) [] with
  | some v => exact ⟨v, rfl⟩
  | none =>
    obtain ⟨out, ho, c, hc, hcs⟩ := hshow
    obtain ⟨d', hd'⟩ := isoDate_total (strip_ne hc hcs)
    have hdate' : commitDate (runCommand popen commands) = .ok d' := by unfold commitDate; rw [ho]; exact hd'
    have hpieces : ∃ p, gitPieces (runCommand popen commands) [] = .ok p := by
      unfold gitPieces
      split_ifs
      · exact ⟨_, rfl⟩
      · split
        · exact ⟨_, rfl⟩
        · split
          · exact ⟨_, rfl⟩
          · split
            · exact ⟨_, rfl⟩
            · split
              · exact ⟨_, rfl⟩
              · rw [hdate']; exact ⟨_, rfl⟩
              · unfold commitCount
                split
                · rw [hdate']; exact ⟨_, rfl⟩
                · rename_i hn; exact absurd hn hrev
    obtain ⟨p, hp⟩ := hpieces
    rw [hp]
    obtain ⟨v, hv, -⟩ := C61_get_versions (style := "pep440".toList) (by decide) (by decide) none p
      (versionsFromParentdir "rdtools-".toList (dirname (dirname file)))
    exact ⟨v, hv⟩

/-- a checkout without tags, two commits -/
def exRepo : Spec.Repo where
  tag := none
  distance := 0
  hex := "abc1234".toList
  long := "abc1234def".toList
  dirty := false
  branch := some "main".toList
  heads := []
  commits := ["abc1234def".toList, "0123456789".toList]
  day := "2024-05-06".toList
  clock := "07:08:09".toList
  zone := "+0200".toList

/-- **C115 fails in general.** If everything else works but `git show` ends with an error, the import of rdtools stops with an
AttributeError instead of falling back (rdtools/_version.py:381); the same happens without tags if `git rev-list` ends with an
error (378), and an empty answer gives an IndexError (384). -/
theorem C115_total_refuted :
    importVersion "$Format:%d$".toList "$Format:%H$".toList "$Format:%ci$".toList
      (fun _ args => if args.head? = some "show".toList then .exit 128 [] else Spec.git exRepo args)
      ["git".toList] "/src/rdtools/_version.py".toList = .error .attributeError ∧
    importVersion "$Format:%d$".toList "$Format:%H$".toList "$Format:%ci$".toList
      (fun _ args => if args.head? = some "rev-list".toList then .exit 128 [] else Spec.git exRepo args)
      ["git".toList] "/src/rdtools/_version.py".toList = .error .attributeError ∧
    importVersion "$Format:%d$".toList "$Format:%H$".toList "$Format:%ci$".toList
      (fun _ args => if args.head? = some "show".toList then .exit 0 [] else Spec.git exRepo args)
      ["git".toList] "/src/rdtools/_version.py".toList = .error .indexError := by decide +kernel

example : importVersion "$Format:%d$".toList "$Format:%H$".toList "$Format:%ci$".toList (fun _ => Spec.git exRepo)
    ["git".toList] "/src/rdtools/_version.py".toList =
    .ok ⟨"0+untagged.2.gabc1234".toList, some "abc1234def".toList, some false, none,
      some "2024-05-06T07:08:09+0200".toList⟩ := by decide +kernel

/-- **C115 (archive).** In a released archive, where git has replaced the keywords, the version depends on them only: git is not run
and the name of the directory does not matter. -/
theorem C115_archive {refnames : Str} (full date : Str) (popen popen' : Str → List Str → Outcome)
    (commands commands' : List Str) (file file' : Str)
    (h : ∀ rest, strip refnames ≠ "$Format".toList ++ rest) :
    importVersion refnames full date popen commands file = importVersion refnames full date popen' commands' file' := by
  have : ∀ d, ∃ v, versionsFromKeywords refnames full (some d) [] = some v := by
    intro d
    unfold versionsFromKeywords
    have hn : dropPrefix? "$Format".toList (stripChars isSpace refnames) = none := by
      cases hd : dropPrefix? "$Format".toList (stripChars isSpace refnames) with
      | none => rfl
      | some r => exact absurd (dropPrefix_some hd) (h r)
    rw [hn]
    simp only [Option.isSome_none, Bool.false_eq_true, if_false]
    split <;> exact ⟨_, rfl⟩
  unfold importVersion
  cases isoDate date with
  | error e => rfl
  | ok d =>
    obtain ⟨v, hv⟩ := this d
    simp only [Except.bind, hv]

/-- the path of nested directories -/
def Spec.path (dirs : List Str) : Str := dirs.flatMap fun d => '/' :: d

/-- a name in a path: not empty, no slash -/
def Spec.Name (d : Str) : Prop := d ≠ [] ∧ '/' ∉ d

theorem takeWhile_slash {x y : Str} (h : '/' ∉ x) : (x ++ '/' :: y).takeWhile (· ≠ '/') = x := by
  induction x with
  | nil => simp
  | cons a x ih =>
    have ha : a ≠ '/' := fun e => h (e ▸ List.mem_cons_self)
    rw [List.cons_append, List.takeWhile_cons_of_pos (by simpa using ha), ih fun hx => h (List.mem_cons_of_mem _ hx)]

theorem dropWhile_slash {x y : Str} (h : '/' ∉ x) : (x ++ '/' :: y).dropWhile (· ≠ '/') = '/' :: y := by
  induction x with
  | nil => simp
  | cons a x ih =>
    have ha : a ≠ '/' := fun e => h (e ▸ List.mem_cons_self)
    rw [List.cons_append, List.dropWhile_cons_of_pos (by simpa using ha), ih fun hx => h (List.mem_cons_of_mem _ hx)]

theorem path_snoc (dirs : List Str) (d : Str) : Spec.path (dirs ++ [d]) = Spec.path dirs ++ '/' :: d := by
  simp [Spec.path]

theorem basename_path {dirs : List Str} {d : Str} (h : Spec.Name d) : basename (Spec.path (dirs ++ [d])) = d := by
  unfold basename
  rw [path_snoc, List.reverse_append, List.reverse_cons, List.append_assoc, List.singleton_append,
    takeWhile_slash (by simpa using h.2), List.reverse_reverse]

theorem dirname_path {dirs : List Str} {d : Str} (hd : Spec.Name d) (h : ∀ x ∈ dirs, Spec.Name x) :
    dirname (Spec.path (dirs ++ [d])) = if dirs = [] then ['/'] else Spec.path dirs := by
  unfold dirname
  rw [path_snoc, List.reverse_append, List.reverse_cons, List.append_assoc, List.singleton_append,
    dropWhile_slash (by simpa using hd.2), List.reverse_cons, List.reverse_reverse]
  rcases List.eq_nil_or_concat dirs with rfl | ⟨l, x, rfl⟩
  · simp [Spec.path]
  · rw [List.concat_eq_append] at *
    have hne : ¬ (l ++ [x] = []) := by simp
    rw [if_neg hne, path_snoc]
    have hx := h x (by simp)
    obtain ⟨a, w, hw⟩ := List.exists_cons_of_ne_nil (List.reverse_ne_nil_iff.mpr hx.1)
    have ha : a ≠ '/' := by
      rintro rfl
      exact hx.2 (List.mem_reverse.mp (hw ▸ List.mem_cons_self))
    have hmem : a ∈ x := List.mem_reverse.mp (hw ▸ List.mem_cons_self)
    have hall : ((Spec.path l ++ '/' :: x ++ ['/']).all (· = '/')) = false := by
      rw [List.all_eq_false]
      exact ⟨a, by simp [hmem], by simpa using ha⟩
    simp only [hall, Bool.false_eq_true, if_false]
    rw [List.reverse_append, List.reverse_singleton, List.singleton_append, List.dropWhile_cons_of_pos (by simp),
      List.reverse_append, List.reverse_cons, hw, List.cons_append, List.cons_append,
      List.dropWhile_cons_of_neg (by simpa using ha), ← List.cons_append, ← List.cons_append, ← hw, ← List.reverse_cons,
      ← List.reverse_append, List.reverse_reverse]

theorem fromParents_none (pre : Str) (hp : pre ≠ []) (n : Nat) {root : Str} (h : root = [] ∨ root = ['/']) :
    fromParents pre n root = none := by
  obtain ⟨a, w, rfl⟩ := List.exists_cons_of_ne_nil hp
  induction n generalizing root with
  | zero => rfl
  | succ n ih =>
    have hb : basename root = [] := by rcases h with rfl | rfl <;> decide
    rw [fromParents, hb]
    simp only [dropPrefix?]
    refine ih ?_
    rcases h with rfl | rfl
    · left; decide
    · right; decide

theorem fromParents_path {pre : Str} (hp : pre ≠ []) (n : Nat) {dirs : List Str} (h : ∀ x ∈ dirs, Spec.Name x) :
    fromParents pre n (Spec.path dirs) =
      ((dirs.reverse.take n).findSome? (dropPrefix? pre)).map fun v => ⟨v, none, some false, none, none⟩ := by
  induction n generalizing dirs with
  | zero => simp [fromParents]
  | succ n ih =>
    rcases List.eq_nil_or_concat dirs with rfl | ⟨l, x, rfl⟩
    · rw [show Spec.path [] = [] from rfl, fromParents_none pre hp _ (Or.inl rfl)]; simp
    · rw [List.concat_eq_append] at h ⊢
      have hx := h x (by simp)
      have hl : ∀ y ∈ l, Spec.Name y := fun y hy => h y (by simp [hy])
      rw [fromParents, basename_path hx, dirname_path hx hl]
      simp only [List.reverse_append, List.reverse_singleton, List.singleton_append, List.take_succ_cons,
        List.findSome?_cons]
      cases dropPrefix? pre x with
      | some v => rfl
      | none =>
        simp only
        by_cases hl0 : l = []
        · subst hl0
          rw [if_pos rfl, fromParents_none pre hp _ (Or.inr rfl)]
          simp
        · rw [if_neg hl0]
          exact ih hl

/-- **C115 (directory).** Outside of a checkout (git missing, failing or not in a repository) the version is what follows `rdtools-`
in the name of the directory, or of one of the two above it; otherwise it is unknown and the error says so. -/
theorem C115_directory {rest full date : Str} {dirs commands : List Str} {popen : Str → List Str → Outcome}
    (hr : ∀ c, ("$Format".toList ++ rest).getLast? = some c → isSpace c = false) (hd : date ≠ [])
    (hn : ∀ x ∈ dirs, Spec.Name x)
    (hgit : (runCommand popen commands ["rev-parse".toList, "--git-dir".toList]).2 ≠ some 0) :
    importVersion ("$Format".toList ++ rest) full date popen commands
        (Spec.path (dirs ++ ["rdtools".toList, "_version.py".toList])) =
      .ok (match (dirs.reverse.take 3).findSome? (dropPrefix? "rdtools-".toList) with
        | some v => ⟨v, none, some false, none, none⟩
        | none => ⟨"0+unknown".toList, none, none, some "unable to compute version".toList, none⟩) := by
  obtain ⟨d, hd⟩ := isoDate_total hd
  unfold importVersion
  rw [hd]
  simp only [Except.bind]
  rw [C61_unexpanded rest full (some d) [] hr]
  simp only
  have hp : gitPieces (runCommand popen commands) [] = .ok none := by unfold gitPieces; rw [if_pos hgit]
  rw [hp]
  have n1 : Spec.Name "rdtools".toList := ⟨by decide, by decide⟩
  have n2 : Spec.Name "_version.py".toList := ⟨by decide, by decide⟩
  have e1 : dirname (dirname (Spec.path (dirs ++ ["rdtools".toList, "_version.py".toList]))) =
      if dirs = [] then ['/'] else Spec.path dirs := by
    have e : dirs ++ ["rdtools".toList, "_version.py".toList] = (dirs ++ ["rdtools".toList]) ++ ["_version.py".toList] := by
      simp
    rw [e, dirname_path n2, if_neg (by simp), dirname_path n1 hn]
    intro x hx
    rcases List.mem_append.mp hx with hx | hx
    · exact hn x hx
    · rw [List.mem_singleton.mp hx]; exact n1
  rw [e1]
  have e2 : versionsFromParentdir "rdtools-".toList (if dirs = [] then ['/'] else Spec.path dirs) =
      ((dirs.reverse.take 3).findSome? (dropPrefix? "rdtools-".toList)).map fun v => ⟨v, none, some false, none, none⟩ := by
    unfold versionsFromParentdir
    split_ifs with h0
    · subst h0
      rw [fromParents_none _ (by decide) _ (Or.inr rfl)]
      rfl
    · exact fromParents_path (by decide) 3 hn
  rw [e2]
  cases (dirs.reverse.take 3).findSome? (dropPrefix? "rdtools-".toList) <;> rfl

example : importVersion "$Format:%d$".toList "$Format:%H$".toList "$Format:%ci$".toList (fun _ _ => .missing)
    ["git".toList] "/home/rdtools-2.1.8/rdtools/_version.py".toList =
    .ok ⟨"2.1.8".toList, none, some false, none, none⟩ := by decide +kernel

example : importVersion "$Format:%d$".toList "$Format:%H$".toList "$Format:%ci$".toList (fun _ _ => .missing)
    ["git".toList] "/usr/lib/rdtools/_version.py".toList =
    .ok ⟨"0+unknown".toList, none, none, some "unable to compute version".toList, none⟩ := by decide +kernel

/-- **C115 (tag prefix).** Of the tags only those with the prefix before a digit are asked for: what git would answer to
`git describe` with another pattern does not matter. -/
theorem C115_tag_prefix (git git' : List Str → Option Str × Option Int) (tagPrefix : Str)
    (h : ∀ args, args.head? ≠ some "describe".toList ∨ args.getLast? = some (tagPrefix ++ "[[:digit:]]*".toList) →
      git args = git' args) : gitPieces git tagPrefix = gitPieces git' tagPrefix := by
  have h1 := h ["rev-parse".toList, "--git-dir".toList] (Or.inl (by decide))
  have h2 := h (describeArgs tagPrefix) (Or.inr (by simp only [describeArgs, List.getLast?_cons_cons, List.getLast?_singleton]))
  have h3 := h ["rev-parse".toList, "HEAD".toList] (Or.inl (by decide))
  have h4 := h ["rev-parse".toList, "--abbrev-ref".toList, "HEAD".toList] (Or.inl (by decide))
  have h5 := h ["branch".toList, "--contains".toList] (Or.inl (by decide))
  have h6 := h ["rev-list".toList, "HEAD".toList, "--left-right".toList] (Or.inl (by decide))
  have h7 := h ["show".toList, "-s".toList, "--format=%ci".toList, "HEAD".toList] (Or.inl (by decide))
  have b : branchName git = branchName git' := by unfold branchName; rw [h4, h5]
  have c : commitCount git = commitCount git' := by unfold commitCount; rw [h6]
  have d : commitDate git = commitDate git' := by unfold commitDate; rw [h7]
  unfold gitPieces
  rw [h1, h2, h3, b, c, d]

example : ∃ git git' : List Str → Option Str × Option Int, git ≠ git' ∧ gitPieces git "v".toList = gitPieces git' "v".toList := by
  refine ⟨fun _ => (none, some 0), fun args => if args = describeArgs [] then (some [], some 0) else (none, some 0), fun e => ?_,
    C115_tag_prefix _ _ _ fun args ha => ?_⟩
  · have := congrFun e (describeArgs [])
    simp at this
  · have : args ≠ describeArgs [] := by
      rintro rfl
      revert ha
      decide +kernel
    rw [if_neg this]

/-- **C115 (checkout).** In a checkout, on a branch or detached, tagged or not, clean or with changes: the version is the one PEP 440
asks for, with the full hash, the changes and the date of the commit in ISO 8601. -/
theorem C115_checkout {rest full date file : Str} {r : Spec.Repo} {commands : List Str} (hc : commands ≠ [])
    (hr : ∀ c, ("$Format".toList ++ rest).getLast? = some c → isSpace c = false) (hd : date ≠ []) (ok : r.Ok) :
    importVersion ("$Format".toList ++ rest) full date (fun _ => Spec.git r) commands file =
      .ok ⟨Spec.versionOf r, some r.long, some r.dirty, none, some (r.day ++ "T".toList ++ r.clock ++ r.zone)⟩ := by
  obtain ⟨d, hd⟩ := isoDate_total hd
  unfold importVersion
  rw [hd]
  simp only [Except.bind]
  rw [C61_unexpanded rest full (some d) [] hr]
  simp only
  have run : ∀ args out, Spec.git r args = .exit 0 out →
      runCommand (fun _ => Spec.git r) commands args = (some (strip out), some 0) := fun args out h =>
    run_exit hc fun _ => h
  have g1 := run ["rev-parse".toList, "--git-dir".toList] _ (by unfold Spec.git; rw [if_pos rfl])
  have g2 := run (describeArgs []) _ (by unfold Spec.git; rw [if_neg (by decide), if_pos (by decide)])
  have g3 := run ["rev-parse".toList, "HEAD".toList] _ (by
    unfold Spec.git; rw [if_neg (by decide), if_neg (by decide), if_pos rfl])
  have g4 := run ["rev-parse".toList, "--abbrev-ref".toList, "HEAD".toList] _ (by
    unfold Spec.git; rw [if_neg (by decide), if_neg (by decide), if_neg (by decide), if_pos rfl])
  have g5 := run ["branch".toList, "--contains".toList] _ (by
    unfold Spec.git
    rw [if_neg (by decide), if_neg (by decide), if_neg (by decide), if_neg (by decide), if_pos rfl])
  have g6 := run ["rev-list".toList, "HEAD".toList, "--left-right".toList] _ (by
    unfold Spec.git
    rw [if_neg (by decide), if_neg (by decide), if_neg (by decide), if_neg (by decide), if_neg (by decide), if_pos rfl])
  have g7 := run ["show".toList, "-s".toList, "--format=%ci".toList, "HEAD".toList] _ (by
    unfold Spec.git
    rw [if_neg (by decide), if_neg (by decide), if_neg (by decide), if_neg (by decide), if_neg (by decide),
      if_neg (by decide), if_pos rfl])
  have hbranch : ∃ b, branchName (runCommand (fun _ => Spec.git r) commands) = some b := by
    unfold branchName
    rw [g4]
    simp only
    split_ifs
    · rw [g5]; exact ⟨_, rfl⟩
    · exact ⟨_, rfl⟩
  obtain ⟨b, hb⟩ := hbranch
  have hdate : commitDate (runCommand (fun _ => Spec.git r) commands) =
      .ok (r.day ++ "T".toList ++ r.clock ++ r.zone) := by
    unfold commitDate
    rw [g7]
    simp only
    have hh : ∀ c, (r.day ++ " ".toList ++ r.clock ++ " ".toList ++ r.zone).head? = some c → isSpace c = false := by
      intro x hx
      rw [List.append_assoc, List.append_assoc, List.append_assoc, List.head?_append_of_ne_nil _ ok.day.1] at hx
      exact ok.day.head x hx
    have hl : ∀ c, (r.day ++ " ".toList ++ r.clock ++ " ".toList ++ r.zone).getLast? = some c → isSpace c = false := by
      intro x hx
      rw [List.getLast?_append_of_ne_nil _ ok.zone.1] at hx
      exact ok.zone.last x hx
    rw [strip_line (by simp) hh hl, strip_idem hh hl]
    exact isoDate_words ok.day ok.clock ok.zone
  have hcount : commitCount (runCommand (fun _ => Spec.git r) commands) = .ok r.commits.length := by
    unfold commitCount
    rw [g6]
    simp only
    rw [wordCount_strip, wordCount_lines ok.commits]
  have hlong : strip (r.long ++ ['\n']) = r.long := strip_line ok.long.1 ok.long.head ok.long.last
  have hdesc : strip (Spec.describe r ++ ['\n']) = Spec.describe r ∧ strip (Spec.describe r) = Spec.describe r := by
    have hne : Spec.describe r ≠ [] := by
      unfold Spec.describe
      cases r.tag with
      | some t => simp
      | none => simp [ok.hex.1.1]
    have hh : ∀ c, (Spec.describe r).head? = some c → isSpace c = false := by
      intro x hx
      unfold Spec.describe at hx
      cases ht : r.tag with
      | some t =>
        rw [ht] at hx
        simp only [List.append_assoc] at hx
        rw [List.head?_append_of_ne_nil _ (ok.tag t ht).1] at hx
        exact (ok.tag t ht).head x hx
      | none =>
        rw [ht] at hx
        simp only at hx
        rw [List.head?_append_of_ne_nil _ ok.hex.1.1] at hx
        exact ok.hex.1.head x hx
    have hl : ∀ c, (Spec.describe r).getLast? = some c → isSpace c = false := by
      intro x hx
      unfold Spec.describe at hx
      cases hdirty : r.dirty with
      | true =>
        rw [hdirty] at hx
        simp only [if_true] at hx
        rw [List.getLast?_append_of_ne_nil _ (by decide)] at hx
        cases hx
        decide
      | false =>
        rw [hdirty] at hx
        simp only [Bool.false_eq_true, if_false, List.append_nil] at hx
        cases ht : r.tag with
        | some t =>
          rw [ht] at hx
          simp only at hx
          rw [List.getLast?_append_of_ne_nil _ ok.hex.1.1] at hx
          exact ok.hex.1.last x hx
        | none =>
          rw [ht] at hx
          exact ok.hex.1.last x hx
    exact ⟨strip_line hne hh hl, strip_self hne hh hl⟩
  unfold gitPieces
  rw [g1, g2, g3, hb]
  simp only [ne_eq, not_true_eq_false, if_false, hdesc.1, hdesc.2, hlong, strip_self ok.long.1 ok.long.head ok.long.last]
  have hver : ∀ (t : Option Str) (n : Nat) (short : Str) (b : Str),
      getVersions none (some ⟨t, n, short, r.dirty, b, r.long, some (r.day ++ "T".toList ++ r.clock ++ r.zone), none⟩)
        "pep440".toList (versionsFromParentdir "rdtools-".toList (dirname (dirname file))) =
      .ok ⟨renderPep440 ⟨t, n, short, r.dirty, b, r.long, some (r.day ++ "T".toList ++ r.clock ++ r.zone), none⟩,
        some r.long, some r.dirty, none, some (r.day ++ "T".toList ++ r.clock ++ r.zone)⟩ := by
    intro t n short b
    rfl
  cases ht : r.tag with
  | some t =>
    have hD : Spec.describe r = [] ++ t ++ "-".toList ++ digits r.distance ++ "-g".toList ++ r.hex ++
        (if r.dirty then "-dirty".toList else []) := by
      unfold Spec.describe; rw [ht]; simp
    have key : ∀ total date, piecesOf [] (Spec.describe r) r.long b total date =
        ⟨some t, r.distance, r.hex, r.dirty, b, r.long, some date, none⟩ := by
      intro total date
      rw [hD]
      exact C61_describe_round_trip (by simpa using (ok.tag t ht).1) ok.hex.1.1 ok.hex.2
    have hparse : ∃ a n c, parseDescribe [] (stripDirty (Spec.describe r)).1 = .tagged a n c := by
      have k := key 0 []
      unfold piecesOf at k
      split at k
      · cases k
      · rename_i a n c h; exact ⟨a, n, c, h⟩
      · cases k
    obtain ⟨a, n, c, hp⟩ := hparse
    rw [hp, hdate]
    simp only [Except.map, key, hver]
    congr 2
    unfold renderPep440 Spec.versionOf
    obtain ⟨x, w, rfl⟩ := List.exists_cons_of_ne_nil (ok.tag t ht).1
    rw [ht]
    simp only [truthy, changed, plusOrDot, distanceHash, dirtySuffix]
    by_cases h0 : r.distance = 0 <;> cases hdt : r.dirty <;> simp [h0]
  | none =>
    have hD : Spec.describe r = r.hex ++ (if r.dirty then "-dirty".toList else []) := by
      unfold Spec.describe; rw [ht]
    have key : ∀ total date, piecesOf [] (Spec.describe r) r.long b total date =
        ⟨none, total, r.long.take 7, r.dirty, b, r.long, some date, none⟩ := by
      intro total date
      rw [hD]
      exact C61_describe_untagged ok.hex.2
    have hparse : parseDescribe [] (stripDirty (Spec.describe r)).1 = .untagged := by
      have k := key 0 []
      unfold piecesOf at k
      split at k
      · have := congrArg Pieces.error k; cases this
      · have := congrArg Pieces.closestTag k; cases this
      · assumption
    rw [hparse, hcount]
    simp only [Except.bind, hdate, Except.map, key, hver]
    congr 2
    unfold renderPep440 Spec.versionOf
    rw [ht]
    simp only [truthy, distanceHash, dirtySuffix]
    simp


theorem splitNl_last (a cur : Str) (h : '\n' ∉ a) : splitAux ['\n'] a.length cur a = [cur.reverse ++ a] := by
  induction a generalizing cur with
  | nil => simp [splitAux]
  | cons c a ih =>
    have hc : '\n' ≠ c := fun e => h (List.mem_cons.mpr (Or.inl e))
    rw [List.length_cons, splitAux]
    simp only [dropPrefix?, if_neg hc]
    rw [ih _ fun m => h (List.mem_cons_of_mem _ m)]
    simp

theorem splitNl_cons (a cur b : Str) (n : Nat) (h : '\n' ∉ a) :
    splitAux ['\n'] (a.length + 1 + n) cur (a ++ '\n' :: b) = (cur.reverse ++ a) :: splitAux ['\n'] n [] b := by
  induction a generalizing cur with
  | nil =>
    rw [List.length_nil, show 0 + 1 + n = n + 1 by omega, List.nil_append, splitAux]
    simp [dropPrefix?]
  | cons c a ih =>
    have hc : '\n' ≠ c := fun e => h (List.mem_cons.mpr (Or.inl e))
    rw [List.length_cons, show a.length + 1 + 1 + n = a.length + 1 + n + 1 by omega, List.cons_append, splitAux]
    simp only [dropPrefix?, if_neg hc]
    rw [ih _ fun m => h (List.mem_cons_of_mem _ m)]
    simp

theorem splitNl (r : Str) (rs : List Str) (h : ∀ x ∈ r :: rs, '\n' ∉ x) :
    splitOn (['\n'].intercalate (r :: rs)) ['\n'] = r :: rs := by
  unfold splitOn
  induction rs generalizing r with
  | nil => simpa using splitNl_last r [] (h r (by simp))
  | cons x rs ih =>
    rw [List.intercalate_cons_cons]
    have := splitNl_cons r [] (['\n'].intercalate (x :: rs)) (['\n'].intercalate (x :: rs)).length (h r (by simp))
    have e1 : r ++ ['\n'] ++ ['\n'].intercalate (x :: rs) = r ++ '\n' :: ['\n'].intercalate (x :: rs) := by simp
    rw [e1, List.length_append, List.length_cons,
      show r.length + ((['\n'].intercalate (x :: rs)).length + 1) = r.length + 1 + (['\n'].intercalate (x :: rs)).length by
        omega, this, ih x fun y hy => h y (List.mem_cons_of_mem _ hy)]
    rfl

theorem lines_cons (r : Str) (rs : List Str) : Spec.lines (r :: rs) = ['\n'].intercalate (r :: rs) ++ ['\n'] := by
  induction rs generalizing r with
  | nil => simp [Spec.lines]
  | cons x rs ih =>
    rw [List.intercalate_cons_cons]
    have : Spec.lines (r :: x :: rs) = r ++ ['\n'] ++ Spec.lines (x :: rs) := by simp [Spec.lines]
    rw [this, ih]
    simp

/-- **C115 (branch).** The branch of a checkout is the one git names; of a detached commit it is `master` if that contains the
commit, otherwise the first branch that does. -/
theorem C115_branch {r : Spec.Repo} {commands : List Str} (hc : commands ≠ []) (hx : Spec.Word r.hex)
    (hb : ∀ b, r.branch = some b → Spec.Word b ∧ b ≠ "HEAD".toList) (hh : ∀ b ∈ r.heads, Spec.Word b) :
    branchName (runCommand (fun _ => Spec.git r) commands) =
      some (match r.branch with
        | some b => b
        | none => if "master".toList ∈ r.heads then "master".toList else r.heads.headD []) := by
  have run : ∀ args out, Spec.git r args = .exit 0 out →
      runCommand (fun _ => Spec.git r) commands args = (some (strip out), some 0) := fun args out h =>
    run_exit hc fun _ => h
  have g4 := run ["rev-parse".toList, "--abbrev-ref".toList, "HEAD".toList] _ (by
    unfold Spec.git; rw [if_neg (by decide), if_neg (by decide), if_neg (by decide), if_pos rfl])
  have g5 := run ["branch".toList, "--contains".toList] _ (by
    unfold Spec.git
    rw [if_neg (by decide), if_neg (by decide), if_neg (by decide), if_neg (by decide), if_pos rfl])
  unfold branchName
  rw [g4]
  cases hbr : r.branch with
  | some b =>
    obtain ⟨hw, hne⟩ := hb b hbr
    simp only [Option.getD_some]
    rw [strip_line hw.1 hw.head hw.last, strip_self hw.1 hw.head hw.last, if_neg hne]
  | none =>
    simp only [Option.getD_none]
    rw [if_pos (by decide), g5]
    simp only [Option.some.injEq]
    set first : Str := "* (HEAD detached at ".toList ++ r.hex ++ ")".toList with hfirst
    have e1 : "* (HEAD detached at ".toList ++ r.hex ++ ")\n".toList ++ Spec.lines (r.heads.map ("  ".toList ++ ·)) =
        Spec.lines (first :: r.heads.map ("  ".toList ++ ·)) := by
      rw [hfirst]; simp [Spec.lines]
    have hne : ∀ x ∈ first :: r.heads.map ("  ".toList ++ ·), x ≠ [] := by
      intro x hxm
      rcases List.mem_cons.mp hxm with rfl | hxm
      · rw [hfirst]; simp
      · obtain ⟨b, -, rfl⟩ := List.mem_map.mp hxm
        simp
    have hnl : ∀ x ∈ first :: r.heads.map ("  ".toList ++ ·), '\n' ∉ x := by
      intro x hxm
      rcases List.mem_cons.mp hxm with rfl | hxm
      · rw [hfirst]
        simp only [List.mem_append, not_or]
        exact ⟨⟨by decide, word_ne hx (by decide)⟩, by decide⟩
      · obtain ⟨b, hbm, rfl⟩ := List.mem_map.mp hxm
        simp only [List.mem_append, not_or]
        exact ⟨by decide, word_ne (hh b hbm) (by decide)⟩
    have e2 : strip (Spec.lines (first :: r.heads.map ("  ".toList ++ ·))) =
        ['\n'].intercalate (first :: r.heads.map ("  ".toList ++ ·)) := by
      rw [lines_cons]
      refine strip_line (intercalate_ne (hne _ List.mem_cons_self)) ?_ ?_
      · intro c hcc
        rw [intercalate_head (hne _ List.mem_cons_self), hfirst] at hcc
        cases hcc
        decide
      · intro c hcc
        rw [intercalate_last hne] at hcc
        have hmem := List.getLast_mem (l := first :: r.heads.map ("  ".toList ++ ·)) (by simp)
        rcases List.mem_cons.mp hmem with he | hm
        · rw [he, hfirst, List.getLast?_append_of_ne_nil _ (by decide)] at hcc
          cases hcc
          decide
        · obtain ⟨b, hbm, he⟩ := List.mem_map.mp hm
          rw [← he, List.getLast?_append_of_ne_nil _ (hh b hbm).1] at hcc
          exact (hh b hbm).last c hcc
    rw [e1, e2]
    unfold pickBranch
    rw [splitNl _ _ hnl]
    have hbr' : '(' ∈ first := by rw [hfirst]; simp
    clear_value first
    dsimp only
    rw [List.headD_cons, if_pos hbr', List.tail_cons, List.map_map]
    have e3 : (List.drop 2 ∘ fun x : Str => "  ".toList ++ x) = id := by
      funext x; simp
    rw [e3, List.map_id]

example : exRepo.Ok where
  tag := by rintro _ ⟨⟩
  hex := ⟨⟨by decide, by decide⟩, by decide⟩
  long := ⟨by decide, by decide⟩
  commits := by
    intro c hc
    simp only [exRepo, List.mem_cons, List.not_mem_nil, or_false] at hc
    rcases hc with rfl | rfl <;> exact ⟨by decide, by decide⟩
  day := ⟨by decide, by decide⟩
  clock := ⟨by decide, by decide⟩
  zone := ⟨by decide, by decide⟩

/-- a tagged commit, three commits later, checked out without a branch, with changes -/
example : importVersion "$Format:%d$".toList "$Format:%H$".toList "$Format:%ci$".toList
    (fun _ => Spec.git { exRepo with tag := some "2.1".toList, distance := 3, dirty := true, branch := none, heads := ["main".toList, "master".toList] })
    ["git.cmd".toList, "git.exe".toList] "/src/rdtools/_version.py".toList =
    .ok ⟨"2.1+3.gabc1234.dirty".toList, some "abc1234def".toList, some true, none,
      some "2024-05-06T07:08:09+0200".toList⟩ := by decide +kernel

end Verif.Version
