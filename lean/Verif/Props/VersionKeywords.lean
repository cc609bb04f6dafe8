import Verif.Model.VersionKeywords
import Verif.Props.VersionImport

/-! # C119: reading the version keywords without importing the package -/

namespace Verif.Version

/-! ## specification -/

/-- the line of a Python file that assigns a string to a keyword: `rest` is what follows the closing quote -/
def Spec.assignment (indent key gap value rest : Str) : Str :=
  indent ++ key ++ gap ++ '"' :: (value ++ '"' :: rest)

/-- an indented assignment on one line: nothing but blanks before the name and between `=` and the quote, no quote in a comment
behind it -/
structure Spec.Plain (indent gap value rest : Str) : Prop where
  indent : ∀ c ∈ indent, c = ' '
  gap : ∀ c ∈ gap, c = ' '
  value : ∀ c ∈ value, c ≠ '\n' ∧ c ≠ '\r'
  rest : ∀ c ∈ rest, c ≠ '\n' ∧ c ≠ '\r' ∧ c ≠ '"'

/-- a line that assigns none of the keywords -/
structure Spec.Other (line : Str) : Prop where
  one : ∀ c ∈ line, c ≠ '\n' ∧ c ≠ '\r'
  refnames : ∀ pre post, line = pre ++ "git_refnames =".toList ++ post → ∃ c ∈ pre, isSpace c = false
  full : ∀ pre post, line = pre ++ "git_full =".toList ++ post → ∃ c ∈ pre, isSpace c = false
  date : ∀ pre post, line = pre ++ "git_date =".toList ++ post → ∃ c ∈ pre, isSpace c = false

/-! ## lemmas -/

theorem splitLines_cons {x y : Str} (cur : Str) (h : ∀ c ∈ x, c ≠ '\n' ∧ c ≠ '\r') :
    splitLinesAux cur (x ++ '\n' :: y) = (cur.reverse ++ x) :: splitLinesAux [] y := by
  induction x generalizing cur with
  | nil =>
    rw [List.nil_append, splitLinesAux.eq_def]
    split
    · simp_all
    · rename_i heq; simp at heq
    · rename_i heq; cases heq; simp
  | cons c l ih =>
    have hc := h c List.mem_cons_self
    have : splitLinesAux cur (c :: (l ++ '\n' :: y)) = splitLinesAux (c :: cur) (l ++ '\n' :: y) := by
      rw [splitLinesAux.eq_def]
      split
      · simp_all
      · rename_i heq; simp only [List.cons.injEq] at heq; exact absurd heq.1 hc.2
      · rename_i heq; cases heq; simp [hc.1, hc.2]
    rw [List.cons_append, this, ih (c :: cur) fun c' hc' => h c' (List.mem_cons_of_mem _ hc')]
    simp

theorem splitLines_lines {L : List Str} (h : ∀ x ∈ L, ∀ c ∈ x, c ≠ '\n' ∧ c ≠ '\r') :
    splitLinesAux [] (Spec.lines L) = L := by
  induction L with
  | nil => rfl
  | cons x L ih =>
    have : Spec.lines (x :: L) = x ++ '\n' :: Spec.lines L := by simp [Spec.lines]
    rw [this, splitLines_cons [] (h x (by simp)), ih fun y hy => h y (by simp [hy])]
    rfl

theorem dropWhile_all {p : Char → Bool} {a b : Str} (h : ∀ c ∈ a, p c = true) : (a ++ b).dropWhile p = b.dropWhile p := by
  induction a with
  | nil => rfl
  | cons c a ih => rw [List.cons_append, List.dropWhile_cons_of_pos (h c (by simp)), ih fun d hd => h d (by simp [hd])]

theorem afterEq_quoted {gap value rest : Str} (hg : ∀ c ∈ gap, c = ' ') (hr : '"' ∉ rest) :
    afterEq (gap ++ '"' :: (value ++ '"' :: rest)) = some value := by
  unfold afterEq
  rw [dropWhile_all (fun c hc => by rw [hg c hc]; rfl), List.dropWhile_cons_of_neg (by decide)]
  simp only
  rw [splitLast_append hr]
  rfl

theorem searchQuoted_append {a b : Str} (h : '=' ∉ a) : searchQuoted (a ++ b) = searchQuoted b := by
  induction a with
  | nil => rfl
  | cons c a ih =>
    have hc : c ≠ '=' := fun e => h (e ▸ List.mem_cons_self)
    rw [List.cons_append, searchQuoted, if_neg hc, ih fun m => h (List.mem_cons_of_mem _ m)]

theorem strip_prefix {indent key post : Str} {c d : Char} (hi : ∀ c ∈ indent, isSpace c = true)
    (hh : key.head? = some c) (hc : isSpace c = false) (hl : key.getLast? = some d) (hd : isSpace d = false) :
    ∃ post', strip (indent ++ key ++ post) = key ++ post' := by
  unfold strip stripChars
  rw [List.append_assoc, dropWhile_all hi]
  obtain ⟨k, rfl⟩ : ∃ k, key = c :: k := by
    cases key with
    | nil => simp at hh
    | cons a k => simp at hh; exact ⟨k, by rw [hh]⟩
  rw [List.cons_append, List.dropWhile_cons_of_neg (by simp [hc]), ← List.cons_append, List.reverse_append,
    List.dropWhile_append]
  split
  · obtain ⟨r, hr⟩ : ∃ r, (c :: k).reverse = d :: r := by
      rw [← List.head?_reverse] at hl
      cases hrev : (c :: k).reverse with
      | nil => simp at hrev
      | cons e r => rw [hrev] at hl; simp at hl; exact ⟨r, by rw [hl]⟩
    refine ⟨[], ?_⟩
    rw [hr, List.dropWhile_cons_of_neg (by simp [hd]), ← hr, List.reverse_reverse, List.append_nil]
  · exact ⟨(List.dropWhile isSpace post.reverse).reverse, by rw [List.reverse_append, List.reverse_reverse]⟩

/-- the decomposition behind `strip` -/
theorem strip_decompose (s : Str) : ∃ pre post, s = pre ++ strip s ++ post ∧ ∀ c ∈ pre, isSpace c = true := by
  unfold strip stripChars
  refine ⟨s.takeWhile isSpace, ((s.dropWhile isSpace).reverse.takeWhile isSpace).reverse, ?_, fun c hc =>
    List.mem_takeWhile_imp hc⟩
  rw [List.append_assoc, ← List.reverse_append, List.takeWhile_append_dropWhile, List.reverse_reverse,
    List.takeWhile_append_dropWhile]

theorem lineHas_false {key line : Str}
    (h : ∀ pre post, line = pre ++ key ++ post → ∃ c ∈ pre, isSpace c = false) : lineHas key line = false := by
  unfold lineHas
  cases hd : dropPrefix? key (strip line) with
  | none => rfl
  | some r =>
    exfalso
    obtain ⟨pre, post, hs, hp⟩ := strip_decompose line
    rw [dropPrefix_some hd] at hs
    obtain ⟨c, hc, hsp⟩ := h pre (r ++ post) (by rw [hs]; simp)
    rw [hp c hc] at hsp
    cases hsp

theorem keywordsLine_other {k : Keywords} {line : Str} (h : Spec.Other line) : keywordsLine k line = k := by
  unfold keywordsLine keywordAfter
  rw [lineHas_false h.refnames, lineHas_false h.full, lineHas_false h.date]
  rfl

theorem fold_other {L : List Str} (h : ∀ x ∈ L, Spec.Other x) (k : Keywords) : L.foldl keywordsLine k = k := by
  induction L generalizing k with
  | nil => rfl
  | cons x L ih => rw [List.foldl_cons, keywordsLine_other (h x (by simp)), ih fun y hy => h y (by simp [hy])]

theorem searchQuoted_assignment {indent gap value rest name : Str} (h : Spec.Plain indent gap value rest) (hn : '=' ∉ name) :
    searchQuoted (Spec.assignment indent (name ++ ['=']) gap value rest) = some value := by
  unfold Spec.assignment
  have hi : '=' ∉ indent ++ name := by
    rw [List.mem_append]
    rintro (g | g)
    · have := h.indent _ g; revert this; decide
    · exact hn g
  rw [show indent ++ (name ++ ['=']) ++ gap ++ '"' :: (value ++ '"' :: rest) =
    (indent ++ name) ++ '=' :: (gap ++ '"' :: (value ++ '"' :: rest)) by simp, searchQuoted_append hi, searchQuoted,
    if_pos rfl, afterEq_quoted h.gap fun m => (h.rest _ m).2.2 rfl]

theorem key_refnames : "git_refnames =".toList = ['g', 'i', 't', '_', 'r', 'e', 'f', 'n', 'a', 'm', 'e', 's', ' ', '='] := by
  decide

theorem key_full : "git_full =".toList = ['g', 'i', 't', '_', 'f', 'u', 'l', 'l', ' ', '='] := by decide

theorem key_date : "git_date =".toList = ['g', 'i', 't', '_', 'd', 'a', 't', 'e', ' ', '='] := by decide

/-- the line of a keyword has its value and no other keyword -/
theorem keyword_line {indent gap value rest name : Str} {c : Char} (h : Spec.Plain indent gap value rest) (hn : '=' ∉ name)
    (hh : (name ++ ['=']).head? = some c) (hc : isSpace c = false) :
    (∀ old, keywordAfter (name ++ ['=']) old (Spec.assignment indent (name ++ ['=']) gap value rest) = some value) ∧
    ∀ other old, (∀ q, dropPrefix? other (name ++ ['='] ++ q) = none) →
      keywordAfter other old (Spec.assignment indent (name ++ ['=']) gap value rest) = old := by
  have hi : ∀ c ∈ indent, isSpace c = true := fun c hc => by rw [h.indent c hc]; rfl
  obtain ⟨q, hq⟩ := strip_prefix (key := name ++ ['=']) (post := gap ++ '"' :: (value ++ '"' :: rest)) hi hh hc
    (d := '=') (by simp) (by decide)
  rw [← List.append_assoc] at hq
  have hq' : strip (Spec.assignment indent (name ++ ['=']) gap value rest) = name ++ ['='] ++ q := hq
  constructor
  · intro old
    unfold keywordAfter lineHas
    rw [hq', dropPrefix_append, searchQuoted_assignment h hn]
    rfl
  · intro other old ho
    unfold keywordAfter lineHas
    rw [hq', ho q]
    rfl

/-- what the line of one keyword does -/
theorem keywordsLine_assignment {indent gap value rest : Str} (h : Spec.Plain indent gap value rest) (k : Keywords) :
    keywordsLine k (Spec.assignment indent "git_refnames =".toList gap value rest) = { k with refnames := some value } ∧
    keywordsLine k (Spec.assignment indent "git_full =".toList gap value rest) = { k with full := some value } ∧
    keywordsLine k (Spec.assignment indent "git_date =".toList gap value rest) = { k with date := some value } := by
  unfold keywordsLine
  rw [key_refnames, key_full, key_date]
  obtain ⟨a1, a2⟩ := keyword_line (name := ['g', 'i', 't', '_', 'r', 'e', 'f', 'n', 'a', 'm', 'e', 's', ' ']) h (by decide) rfl (by decide)
  obtain ⟨b1, b2⟩ := keyword_line (name := ['g', 'i', 't', '_', 'f', 'u', 'l', 'l', ' ']) h (by decide) rfl (by decide)
  obtain ⟨c1, c2⟩ := keyword_line (name := ['g', 'i', 't', '_', 'd', 'a', 't', 'e', ' ']) h (by decide) rfl (by decide)
  simp only [List.cons_append, List.nil_append] at a1 a2 b1 b2 c1 c2
  rw [a1, a2 _ _ (fun q => by simp [dropPrefix?]), a2 _ _ (fun q => by simp [dropPrefix?]), b1,
    b2 _ _ (fun q => by simp [dropPrefix?]), b2 _ _ (fun q => by simp [dropPrefix?]), c1,
    c2 _ _ (fun q => by simp [dropPrefix?]), c2 _ _ (fun q => by simp [dropPrefix?])]
  exact ⟨rfl, rfl, rfl⟩

/-! ## the property -/

/-- **C119 (keywords).** From a file with one assignment to each keyword, whatever the strings (quotes, `=` and brackets included),
the indentation, a comment behind and the other lines of the file, exactly the assigned strings are read. -/
theorem C119_keywords {a b c d : List Str} {i1 i2 i3 g1 g2 g3 r f t x1 x2 x3 : Str}
    (ha : ∀ x ∈ a, Spec.Other x) (hb : ∀ x ∈ b, Spec.Other x) (hc : ∀ x ∈ c, Spec.Other x) (hd : ∀ x ∈ d, Spec.Other x)
    (h1 : Spec.Plain i1 g1 r x1) (h2 : Spec.Plain i2 g2 f x2) (h3 : Spec.Plain i3 g3 t x3) :
    gitGetKeywords (some (Spec.lines (a ++ [Spec.assignment i1 "git_refnames =".toList g1 r x1] ++ b ++
      [Spec.assignment i2 "git_full =".toList g2 f x2] ++ c ++
      [Spec.assignment i3 "git_date =".toList g3 t x3] ++ d))) = ⟨some r, some f, some t⟩ := by
  have hone : ∀ {i g v x : Str} (key : Str), Spec.Plain i g v x → (∀ c ∈ key, c ≠ '\n' ∧ c ≠ '\r') →
      ∀ c ∈ Spec.assignment i key g v x, c ≠ '\n' ∧ c ≠ '\r' := by
    intro i g v x key h hk c hc
    unfold Spec.assignment at hc
    simp only [List.mem_append, List.mem_cons] at hc
    rcases hc with ((hc | hc) | hc) | hc | hc | hc | hc
    · rw [h.indent c hc]; decide
    · exact hk c hc
    · rw [h.gap c hc]; decide
    · rw [hc]; decide
    · exact h.value c hc
    · rw [hc]; decide
    · exact ⟨(h.rest c hc).1, (h.rest c hc).2.1⟩
  unfold gitGetKeywords
  simp only
  rw [splitLines_lines]
  · simp only [List.foldl_append, List.foldl_cons, List.foldl_nil]
    rw [fold_other ha, (keywordsLine_assignment h1 _).1, fold_other hb, (keywordsLine_assignment h2 _).2.1, fold_other hc,
      (keywordsLine_assignment h3 _).2.2, fold_other hd]
  · intro x hx
    simp only [List.mem_append, List.mem_singleton] at hx
    rcases hx with (((((hx | hx) | hx) | hx) | hx) | hx) | hx
    · exact (ha x hx).one
    · rw [hx]; exact hone _ h1 (by decide)
    · exact (hb x hx).one
    · rw [hx]; exact hone _ h2 (by decide)
    · exact (hc x hx).one
    · rw [hx]; exact hone _ h3 (by decide)
    · exact (hd x hx).one

/-- **C119 (no keywords).** A file that cannot be opened, or assigns none of them, gives none. -/
theorem C119_none {L : List Str} (h : ∀ x ∈ L, Spec.Other x) :
    gitGetKeywords none = ⟨none, none, none⟩ ∧ gitGetKeywords (some (Spec.lines L)) = ⟨none, none, none⟩ := by
  refine ⟨rfl, ?_⟩
  unfold gitGetKeywords
  simp only
  rw [splitLines_lines fun x hx => (h x hx).one, fold_other h]

/-- the lines 28-31 of the file as they are in a checkout give what importing the module gives -/
example : gitGetKeywords (some (Spec.lines (["    # get_keywords().".toList] ++
    [Spec.assignment "    ".toList "git_refnames =".toList " ".toList "$Format:%d$".toList []] ++ [] ++
    [Spec.assignment "    ".toList "git_full =".toList " ".toList "$Format:%H$".toList []] ++ [] ++
    [Spec.assignment "    ".toList "git_date =".toList " ".toList "$Format:%ci$".toList []] ++
    []))) = getKeywords := by
  have other : ∀ {line : Str}, (∀ c ∈ line, c ≠ '\n' ∧ c ≠ '\r') →
      (∀ key ∈ ["git_refnames =".toList, "git_full =".toList, "git_date =".toList], ¬ key <:+: line) → Spec.Other line := by
    intro line h1 h2
    refine ⟨h1, fun pre post h => ?_, fun pre post h => ?_, fun pre post h => ?_⟩
    · exact absurd ⟨pre, post, h.symm⟩ (h2 "git_refnames =".toList (by decide))
    · exact absurd ⟨pre, post, h.symm⟩ (h2 "git_full =".toList (by decide))
    · exact absurd ⟨pre, post, h.symm⟩ (h2 "git_date =".toList (by decide))
  have plain : ∀ {v : Str}, (∀ c ∈ v, c ≠ '\n' ∧ c ≠ '\r') → Spec.Plain "    ".toList " ".toList v [] :=
    fun h => ⟨by decide, by decide, h, by simp⟩
  refine C119_keywords (fun x hx => ?_) (by simp) (by simp) (by simp) (plain (by decide)) (plain (by decide)) (plain (by decide))
  rw [List.mem_singleton] at hx
  rw [hx]
  exact other (by decide +kernel) (by decide +kernel)

/-- **C119 (checkout).** The lines 28-31 of the file as they are in a checkout, whatever the rest of the file, give what importing
the module gives: the three placeholders of `git archive`. -/
theorem C119_checkout {a b : List Str} (ha : ∀ x ∈ a, Spec.Other x) (hb : ∀ x ∈ b, Spec.Other x) :
    gitGetKeywords (some (Spec.lines (a ++
      ["    git_refnames = \"$Format:%d$\"".toList, "    git_full = \"$Format:%H$\"".toList,
        "    git_date = \"$Format:%ci$\"".toList] ++ b))) = getKeywords ∧
    getKeywords = ⟨some "$Format:%d$".toList, some "$Format:%H$".toList, some "$Format:%ci$".toList⟩ := by
  have plain : ∀ {v : Str}, (∀ c ∈ v, c ≠ '\n' ∧ c ≠ '\r') → Spec.Plain "    ".toList " ".toList v [] :=
    fun h => ⟨by decide, by decide, h, by simp⟩
  have := C119_keywords (a := a) (b := []) (c := []) (d := b) ha (by simp) (by simp) hb
    (plain (v := "$Format:%d$".toList) (by decide)) (plain (v := "$Format:%H$".toList) (by decide))
    (plain (v := "$Format:%ci$".toList) (by decide))
  refine ⟨?_, by decide +kernel⟩
  have e1 : Spec.assignment "    ".toList "git_refnames =".toList " ".toList "$Format:%d$".toList [] =
    "    git_refnames = \"$Format:%d$\"".toList := by decide +kernel
  have e2 : Spec.assignment "    ".toList "git_full =".toList " ".toList "$Format:%H$".toList [] =
    "    git_full = \"$Format:%H$\"".toList := by decide +kernel
  have e3 : Spec.assignment "    ".toList "git_date =".toList " ".toList "$Format:%ci$".toList [] =
    "    git_date = \"$Format:%ci$\"".toList := by decide +kernel
  rw [e1, e2, e3] at this
  rw [show getKeywords = ⟨some "$Format:%d$".toList, some "$Format:%H$".toList, some "$Format:%ci$".toList⟩ by decide +kernel,
    ← this]
  have happ : ∀ x y z : Str, a ++ [x] ++ [] ++ [y] ++ [] ++ [z] ++ b = a ++ [x, y, z] ++ b := by
    intro x y z
    simp
  rw [happ]

theorem afterEq_noquote {s : Str} (h : '"' ∉ s) : afterEq s = none := by
  unfold afterEq
  split
  · rename_i r hr
    exact absurd ((List.dropWhile_suffix isSpace).subset (hr ▸ List.mem_cons_self)) h
  · rfl

theorem searchQuoted_noquote {s : Str} (h : '"' ∉ s) : searchQuoted s = none := by
  induction s with
  | nil => rfl
  | cons c s ih =>
    have hs : '"' ∉ s := fun m => h (List.mem_cons_of_mem _ m)
    rw [searchQuoted, afterEq_noquote hs, ih hs]
    simp

theorem keywordsLine_noquote {k : Keywords} {line : Str} (h : '"' ∉ line) : keywordsLine k line = k := by
  unfold keywordsLine keywordAfter
  rw [searchQuoted_noquote h]
  simp only [ite_self]

/-- **C119 (lines without a string).** A line without a quote changes nothing, even if it begins with a keyword
(`git_full = keywords["full"]` of another file would, `git_full = None` does not). -/
theorem C119_unquoted {a b : List Str} {line : Str} (ha : ∀ x ∈ a, ∀ c ∈ x, c ≠ '\n' ∧ c ≠ '\r')
    (hb : ∀ x ∈ b, ∀ c ∈ x, c ≠ '\n' ∧ c ≠ '\r') (hl : ∀ c ∈ line, c ≠ '\n' ∧ c ≠ '\r' ∧ c ≠ '"') :
    gitGetKeywords (some (Spec.lines (a ++ line :: b))) = gitGetKeywords (some (Spec.lines (a ++ b))) := by
  unfold gitGetKeywords
  simp only
  rw [splitLines_lines, splitLines_lines, List.foldl_append, List.foldl_append, List.foldl_cons,
    keywordsLine_noquote fun m => (hl _ m).2.2 rfl]
  · intro x hx
    rcases List.mem_append.mp hx with hx | hx
    · exact ha x hx
    · exact hb x hx
  · intro x hx
    rcases List.mem_append.mp hx with hx | hx
    · exact ha x hx
    · rcases List.mem_cons.mp hx with rfl | hx
      · exact fun c hc => ⟨(hl c hc).1, (hl c hc).2.1⟩
      · exact hb x hx

example : gitGetKeywords (some (Spec.lines (["git_full = \"abc\"".toList] ++ "git_full = None".toList :: []))) =
    gitGetKeywords (some (Spec.lines (["git_full = \"abc\"".toList] ++ []))) :=
  C119_unquoted (by decide +kernel) (by decide) (by decide +kernel)

theorem searchQuoted_skip {a b : Str} (h : '"' ∉ a) : searchQuoted (a ++ '=' :: b) = searchQuoted ('=' :: b) := by
  induction a with
  | nil => rfl
  | cons c a ih =>
    have ha : '"' ∉ a := fun m => h (List.mem_cons_of_mem _ m)
    have hn : afterEq (a ++ '=' :: b) = none := by
      have key : ∀ r, List.dropWhile isSpace (a ++ '=' :: b) ≠ '"' :: r := by
        intro r hr
        rw [List.dropWhile_append] at hr
        cases hd : a.dropWhile isSpace with
        | nil =>
          rw [hd, if_pos (by simp), List.dropWhile_cons_of_neg (by decide)] at hr
          injection hr with e
          revert e; decide
        | cons d l =>
          rw [hd, if_neg (by simp)] at hr
          injection hr with e
          exact ha ((List.dropWhile_suffix isSpace).subset (hd ▸ e ▸ List.mem_cons_self))
      unfold afterEq
      split
      · rename_i r hr; exact absurd hr (key r)
      · rfl
    rw [List.cons_append, searchQuoted, hn, ih ha]
    simp

/-- **C119 (chained assignment).** The string may come after further `=` of the line: `git_full = version = "abc"`. -/
theorem C119_chained {a b : List Str} (ha : ∀ x ∈ a, Spec.Other x) (hb : ∀ x ∈ b, Spec.Other x) {mid gap value rest : Str}
    (hm : ∀ c ∈ mid, c ≠ '\n' ∧ c ≠ '\r' ∧ c ≠ '"') (h : Spec.Plain [] gap value rest) :
    gitGetKeywords (some (Spec.lines (a ++ ["git_full =".toList ++ mid ++ '=' :: (gap ++ '"' :: (value ++ '"' :: rest))] ++ b))) =
      ⟨none, some value, none⟩ := by
  set line := "git_full =".toList ++ mid ++ '=' :: (gap ++ '"' :: (value ++ '"' :: rest)) with hline
  have hone : ∀ c ∈ line, c ≠ '\n' ∧ c ≠ '\r' := by
    intro c hc
    rw [hline] at hc
    simp only [List.mem_append, List.mem_cons] at hc
    rcases hc with (hc | hc) | hc | hc | hc | hc | hc | hc
    · revert c; decide +kernel
    · exact ⟨(hm c hc).1, (hm c hc).2.1⟩
    · rw [hc]; decide
    · rw [h.gap c hc]; decide
    · rw [hc]; decide
    · exact h.value c hc
    · rw [hc]; decide
    · exact ⟨(h.rest c hc).1, (h.rest c hc).2.1⟩
  have hsearch : searchQuoted line = some value := by
    rw [hline, searchQuoted_skip]
    · rw [searchQuoted, if_pos rfl, afterEq_quoted h.gap fun m => (h.rest _ m).2.2 rfl]
    · intro hq
      rcases List.mem_append.mp hq with hq | hq
      · revert hq; decide +kernel
      · exact (hm _ hq).2.2 rfl
  have hstep : keywordsLine ⟨none, none, none⟩ line = ⟨none, some value, none⟩ := by
    obtain ⟨q, hq⟩ := strip_prefix (indent := []) (key := "git_full =".toList)
      (post := mid ++ '=' :: (gap ++ '"' :: (value ++ '"' :: rest))) (c := 'g') (d := '=') (by simp) (by decide +kernel)
      (by decide) (by decide +kernel) (by decide)
    rw [List.nil_append, ← List.append_assoc, ← hline, key_full] at hq
    unfold keywordsLine keywordAfter lineHas
    rw [hsearch, hq, key_full, key_refnames, key_date]
    simp [dropPrefix?]
  unfold gitGetKeywords
  simp only
  rw [splitLines_lines]
  · simp only [List.foldl_append, List.foldl_cons, List.foldl_nil]
    rw [fold_other ha, hstep, fold_other hb]
  · intro x hx
    rcases List.mem_append.mp hx with hx | hx
    · rcases List.mem_append.mp hx with hx | hx
      · exact (ha x hx).one
      · rw [List.mem_singleton.mp hx]; exact hone
    · exact (hb x hx).one

example : gitGetKeywords (some (Spec.lines ([] ++ ["git_full =".toList ++ " version ".toList ++
    '=' :: (" ".toList ++ '"' :: ("abc".toList ++ '"' :: []))] ++ []))) = ⟨none, some "abc".toList, none⟩ :=
  C119_chained (by simp) (by simp) (by decide +kernel) ⟨by simp, by decide, by decide, by simp⟩

theorem splitLines_end {x y e : Str} (cur : Str) (h : ∀ c ∈ x, c ≠ '\n' ∧ c ≠ '\r')
    (he : ∀ cur, splitLinesAux cur (e ++ y) = cur.reverse :: splitLinesAux [] y) :
    splitLinesAux cur (x ++ (e ++ y)) = (cur.reverse ++ x) :: splitLinesAux [] y := by
  induction x generalizing cur with
  | nil => rw [List.nil_append, he]; simp
  | cons c l ih =>
    have hc := h c List.mem_cons_self
    have : splitLinesAux cur (c :: (l ++ (e ++ y))) = splitLinesAux (c :: cur) (l ++ (e ++ y)) := by
      rw [splitLinesAux.eq_def]
      split
      · simp_all
      · rename_i heq; simp only [List.cons.injEq] at heq; exact absurd heq.1 hc.2
      · rename_i heq; cases heq; simp [hc.1, hc.2]
    rw [List.cons_append, this, ih (c :: cur) fun c' hc' => h c' (List.mem_cons_of_mem _ hc')]
    simp

/-- **C119 (line ends).** A file with the line ends of Windows or of old Macintosh systems gives the same keywords. -/
theorem C119_line_ends {L : List Str} (h : ∀ x ∈ L, ∀ c ∈ x, c ≠ '\n' ∧ c ≠ '\r') :
    gitGetKeywords (some (L.flatMap fun x => x ++ ['\r', '\n'])) = gitGetKeywords (some (Spec.lines L)) ∧
    gitGetKeywords (some (L.flatMap fun x => x ++ ['\r'])) = gitGetKeywords (some (Spec.lines L)) := by
  have main : splitLinesAux [] (L.flatMap fun x => x ++ ['\r', '\n']) = L ∧
      splitLinesAux [] (L.flatMap fun x => x ++ ['\r']) = L := by
    induction L with
    | nil => exact ⟨rfl, rfl⟩
    | cons x L ih =>
      have hL := fun y hy => h y (List.mem_cons_of_mem x hy)
      obtain ⟨i1, i2⟩ := ih hL
      constructor
      · rw [List.flatMap_cons, List.append_assoc, splitLines_end [] (h x (by simp)), i1]
        · rfl
        · intro cur
          rfl
      · rw [List.flatMap_cons, List.append_assoc, splitLines_end [] (h x (by simp)), i2]
        · rfl
        · intro cur
          rw [List.cons_append, List.nil_append]
          have hn : ∀ l, (L.flatMap fun x => x ++ ['\r']) ≠ '\n' :: l := by
            intro l hl
            have : '\n' ∈ L.flatMap fun x => x ++ ['\r'] := hl ▸ List.mem_cons_self
            obtain ⟨y, hy, hm⟩ := List.mem_flatMap.mp this
            rcases List.mem_append.mp hm with hm | hm
            · exact (hL y hy _ hm).1 rfl
            · revert hm; decide
          rw [splitLinesAux.eq_def]
          split
          · simp_all
          · rename_i heq
            simp only [List.cons.injEq, true_and] at heq
            exact absurd heq (hn _)
          · rename_i heq; cases heq; simp
  unfold gitGetKeywords
  simp only
  rw [main.1, main.2, splitLines_lines h]
  exact ⟨rfl, rfl⟩

example : gitGetKeywords (some "git_full = \"abc\"\r# end\r".toList) = ⟨none, some "abc".toList, none⟩ := by
  have := (C119_line_ends (L := ["git_full = \"abc\"".toList, "# end".toList]) (by decide +kernel)).2
  rw [show "git_full = \"abc\"\r# end\r".toList =
    (["git_full = \"abc\"".toList, "# end".toList].flatMap fun x => x ++ ['\r']) by decide +kernel, this]
  decide +kernel

theorem lookup_dictSet {β : Type} (k k' : Str) (v : β) (l : List (Str × β)) :
    (dictSet k v l).lookup k' = if k' = k then some v else l.lookup k' := by
  induction l with
  | nil =>
    by_cases h : k' = k
    · simp [dictSet, h]
    · simp [dictSet, h]
  | cons x l ih =>
    obtain ⟨a, b⟩ := x
    unfold dictSet
    split
    · rename_i h; subst h
      by_cases h' : k' = a
      · subst h'; simp
      · have hb : (k' == a) = false := by simpa using h'
        simp [List.lookup, hb, h']
    · rename_i h
      by_cases h' : k' = a
      · subst h'; simp [h]
      · have hb : (k' == a) = false := by simpa using h'
        simp only [List.lookup, hb]
        exact ih

/-- **C119 (registry).** Registering a function makes it the handler of its system and method, leaves all other handlers as they
are, and gives the function back unchanged. -/
theorem C119_registry {α : Type} (h : Handlers α) (vcs method vcs' method' : Str) (f : α) :
    (registerHandler h vcs method f).2 = f ∧
      handlerOf (registerHandler h vcs method f).1 vcs' method' =
        if vcs' = vcs ∧ method' = method then some f else handlerOf h vcs' method' := by
  refine ⟨rfl, ?_⟩
  have key : ∀ v, v ≠ vcs →
      (if (h.lookup vcs).isNone then dictSet vcs [] h else h).lookup v = h.lookup v := by
    intro v hv
    split
    · rw [lookup_dictSet, if_neg hv]
    · rfl
  have key2 : ((if (h.lookup vcs).isNone then dictSet vcs [] h else h).lookup vcs).getD [] = (h.lookup vcs).getD [] := by
    split
    · rename_i hn
      rw [lookup_dictSet, if_pos rfl, Option.isNone_iff_eq_none.mp hn]
      rfl
    · rfl
  unfold registerHandler handlerOf
  simp only
  rw [key2, lookup_dictSet]
  by_cases h1 : vcs' = vcs
  · subst h1
    rw [if_pos rfl, Option.bind_some, lookup_dictSet]
    by_cases h2 : method' = method
    · rw [if_pos h2, if_pos ⟨rfl, h2⟩]
    · rw [if_neg h2, if_neg (fun h => h2 h.2)]
      cases h.lookup vcs' <;> rfl
  · rw [if_neg h1, key _ h1, if_neg (fun g : vcs' = vcs ∧ method' = method => h1 g.1)]

example : handlerOf (registerHandler (registerHandler ([] : Handlers Nat) "git".toList "get_keywords".toList 1).1
    "git".toList "keywords".toList 2).1 "git".toList "get_keywords".toList = some 1 := by
  rw [(C119_registry _ _ _ _ _ _).2, if_neg (by decide), (C119_registry _ _ _ _ _ _).2, if_pos (by decide)]

end Verif.Version
