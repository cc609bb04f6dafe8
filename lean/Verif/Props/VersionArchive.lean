import Verif.Props.Version

/-! # Property C61, continued: the keywords of an archive and the choice of the method -/

namespace Verif.Version

namespace Spec

/-- the decoration git writes into an archive: ` (HEAD -> main, tag: 2.0, ...)` -/
def decoration (refs : List Str) : Str :=
  " (".toList ++ (", ".toList).intercalate refs ++ ")".toList

/-- the name of a ref: no comma, no white space or bracket at either end -/
structure RefName (r : Str) : Prop where
  comma : ',' ∉ r
  first : ∀ c, r.head? = some c → isSpace c = false ∧ c ≠ '(' ∧ c ≠ ')'
  last : ∀ c, r.getLast? = some c → isSpace c = false ∧ c ≠ '(' ∧ c ≠ ')'
  nonempty : r ≠ []

end Spec

theorem splitAux_last (a cur : Str) (h : ',' ∉ a) : splitAux [','] a.length cur a = [cur.reverse ++ a] := by
  induction a generalizing cur with
  | nil => simp [splitAux]
  | cons c a ih =>
    have hc : ',' ≠ c := fun e => h (List.mem_cons.mpr (Or.inl e))
    rw [List.length_cons, splitAux]
    simp only [dropPrefix?, if_neg hc]
    rw [ih _ fun m => h (List.mem_cons_of_mem _ m)]
    simp

theorem splitAux_cons (a cur b : Str) (n : Nat) (h : ',' ∉ a) :
    splitAux [','] (a.length + 1 + n) cur (a ++ ',' :: b) = (cur.reverse ++ a) :: splitAux [','] n [] b := by
  induction a generalizing cur with
  | nil =>
    rw [List.length_nil, show 0 + 1 + n = n + 1 by omega, List.nil_append, splitAux]
    simp [dropPrefix?]
  | cons c a ih =>
    have hc : ',' ≠ c := fun e => h (List.mem_cons.mpr (Or.inl e))
    rw [List.length_cons, show a.length + 1 + 1 + n = a.length + 1 + n + 1 by omega, List.cons_append, splitAux]
    simp only [dropPrefix?, if_neg hc]
    rw [ih _ fun m => h (List.mem_cons_of_mem _ m)]
    simp

theorem splitAux_intercalate (r : Str) (rs : List Str) (cur : Str) (h : ∀ x ∈ r :: rs, ',' ∉ x) :
    splitAux [','] ([',', ' '].intercalate (r :: rs)).length cur ([',', ' '].intercalate (r :: rs)) =
      (cur.reverse ++ r) :: rs.map (' ' :: ·) := by
  induction rs generalizing r cur with
  | nil => simpa using splitAux_last r cur (h r (by simp))
  | cons x rs ih =>
    rw [List.intercalate_cons_cons]
    have := splitAux_cons r cur (' ' :: [',', ' '].intercalate (x :: rs))
      (([',', ' '].intercalate (x :: rs)).length + 1) (h r (by simp))
    have e1 : r ++ [',', ' '] ++ [',', ' '].intercalate (x :: rs) =
        r ++ ',' :: ' ' :: [',', ' '].intercalate (x :: rs) := by simp
    have e2 : (r ++ [',', ' '] ++ [',', ' '].intercalate (x :: rs)).length =
        r.length + 1 + (([',', ' '].intercalate (x :: rs)).length + 1) := by
      simp only [List.length_append, List.length_cons, List.length_nil]; omega
    rw [e2, e1, this, splitAux]
    have hd : dropPrefix? [','] (' ' :: [',', ' '].intercalate (x :: rs)) = none := by
      simp [dropPrefix?]
    rw [hd]
    simp only
    rw [ih x [' '] fun y hy => h y (List.mem_cons_of_mem _ hy)]
    rfl

theorem dropWhile_pre {bad : Char → Bool} {pre x : Str} (hp : ∀ c ∈ pre, bad c = true)
    (hx : ∀ c, x.head? = some c → bad c = false) : (pre ++ x).dropWhile bad = x := by
  induction pre with
  | nil =>
    cases x with
    | nil => rfl
    | cons c x => rw [List.nil_append, List.dropWhile_cons_of_neg]; simp [hx c rfl]
  | cons c pre ih =>
    rw [List.cons_append, List.dropWhile_cons_of_pos (hp c (by simp))]
    exact ih fun d hd => hp d (by simp [hd])

theorem strip_core {bad : Char → Bool} {pre x post : Str} (hp : ∀ c ∈ pre, bad c = true)
    (hq : ∀ c ∈ post, bad c = true) (hne : x ≠ []) (hx : ∀ c, x.head? = some c → bad c = false)
    (hl : ∀ c, x.getLast? = some c → bad c = false) : stripChars bad (pre ++ x ++ post) = x := by
  unfold stripChars
  rw [List.append_assoc, dropWhile_pre hp, List.reverse_append, dropWhile_pre, List.reverse_reverse]
  · simpa using hq
  · intro c hc
    rw [List.head?_reverse] at hc
    exact hl c hc
  · intro c hc
    rw [List.head?_append_of_ne_nil _ hne] at hc
    exact hx c hc

theorem intercalate_ne {sep r : Str} {rs : List Str} (h : r ≠ []) : sep.intercalate (r :: rs) ≠ [] := by
  cases rs with
  | nil => simpa using h
  | cons x rs => rw [List.intercalate_cons_cons]; simp [h]

theorem intercalate_head {sep r : Str} {rs : List Str} (h : r ≠ []) :
    (sep.intercalate (r :: rs)).head? = r.head? := by
  cases rs with
  | nil => simp
  | cons x rs => rw [List.intercalate_cons_cons, List.append_assoc, List.head?_append_of_ne_nil _ h]

theorem intercalate_last {sep r : Str} {rs : List Str} (h : ∀ x ∈ r :: rs, x ≠ []) :
    (sep.intercalate (r :: rs)).getLast? = ((r :: rs).getLast (by simp)).getLast? := by
  induction rs generalizing r with
  | nil => simp
  | cons x rs ih =>
    have hx : sep.intercalate (x :: rs) ≠ [] := intercalate_ne (h x (by simp))
    rw [List.intercalate_cons_cons, List.getLast?_append_of_ne_nil _ hx,
      ih fun y hy => h y (List.mem_cons_of_mem _ hy)]
    rfl

/-- **C61 (refs of an archive).** The refs git writes into an archive are read back exactly. -/
theorem C61_archive_refs {refs : List Str} (hne : refs ≠ []) (h : ∀ r ∈ refs, Spec.RefName r) :
    refsOf (Spec.decoration refs) = refs := by
  obtain ⟨r, rs, rfl⟩ := List.exists_cons_of_ne_nil hne
  have hnil : ∀ x ∈ r :: rs, x ≠ [] := fun x hx => (h x hx).nonempty
  have hi := intercalate_ne (sep := [',', ' ']) (rs := rs) (hnil r (by simp))
  have hh := intercalate_head (sep := [',', ' ']) (rs := rs) (hnil r (by simp))
  have hl := intercalate_last (sep := [',', ' ']) hnil
  unfold refsOf Spec.decoration
  have e1 : stripChars isSpace (" (".toList ++ (", ".toList).intercalate (r :: rs) ++ ")".toList) =
      '(' :: ([',', ' '].intercalate (r :: rs) ++ [')']) := by
    have := strip_core (bad := isSpace) (pre := [' ']) (x := '(' :: ([',', ' '].intercalate (r :: rs) ++ [')']))
      (post := []) (by decide) (by simp) (by simp) (by intro c hc; cases hc; decide) (by
        intro c hc
        rw [← List.cons_append, List.getLast?_append_of_ne_nil _ (by simp)] at hc
        cases hc; decide)
    rw [List.append_nil] at this
    exact this
  have e2 : stripChars (fun c => c = '(' || c = ')') ('(' :: ([',', ' '].intercalate (r :: rs) ++ [')'])) =
      [',', ' '].intercalate (r :: rs) := by
    refine strip_core (pre := ['(']) (post := [')']) (by decide) (by decide) hi ?_ ?_
    · intro c hc
      have hc := hh.symm.trans hc
      have := (h r (by simp)).first c hc
      simp [this.2]
    · intro c hc
      have hc := hl.symm.trans hc
      have := (h _ (List.getLast_mem _)).last c hc
      simp [this.2]
  rw [e1, e2]
  unfold splitOn
  rw [splitAux_intercalate r rs [] fun x hx => (h x hx).comma]
  simp only [List.reverse_nil, List.nil_append, List.map_cons, List.map_map]
  have key : ∀ x ∈ r :: rs, ∀ pre : Str, (∀ c ∈ pre, isSpace c = true) → stripChars isSpace (pre ++ x) = x := by
    intro x hx pre hp
    have := strip_core (bad := isSpace) (x := x) (post := []) hp (by simp) (hnil x hx)
      (fun c hc => ((h x hx).first c hc).1) (fun c hc => ((h x hx).last c hc).1)
    simpa using this
  congr 1
  · exact key r (by simp) [] (by simp)
  · conv_rhs => rw [← List.map_id rs]
    apply List.map_congr_left
    intro x hx
    exact key x (List.mem_cons_of_mem _ hx) [' '] (by decide)

/-- **C61 (version of an archive).** If git listed tags, the version of the archive is that of the first of them, in
string order, that has the prefix and goes on with a digit, with the full hash; branches are not considered. Without
such a tag the version is unknown, but the hash is still there. -/
theorem C61_archive_version {refs : List Str} (h : ∀ r ∈ refs, Spec.RefName r) {tags : List Str} (hne : tags ≠ [])
    (ht : ∀ t, t ∈ tags ↔ "tag: ".toList ++ t ∈ refs) {full : Str} (hf : stripChars isSpace full = full)
    (date : Option Str) (tagPrefix : Str) :
    (∀ v, versionOfRef tagPrefix (tagPrefix ++ v) = some v → tagPrefix ++ v ∈ tags →
      (∀ u ∈ tags, (versionOfRef tagPrefix u).isSome → strLe (tagPrefix ++ v) u = true) →
      versionsFromKeywords (Spec.decoration refs) full date tagPrefix = some ⟨v, some full, some false, none, date⟩) ∧
    ((∀ u ∈ tags, versionOfRef tagPrefix u = none) → versionsFromKeywords (Spec.decoration refs) full date tagPrefix =
      some ⟨"0+unknown".toList, some full, some false, some "no suitable tags".toList, none⟩) := by
  obtain ⟨t0, ht0⟩ := List.exists_mem_of_ne_nil _ hne
  have hr0 := (ht t0).mp ht0
  have hrefs := C61_archive_refs (List.ne_nil_of_mem hr0) h
  have hform : (dropPrefix? "$Format".toList (stripChars isSpace (Spec.decoration refs))).isSome = false := by
    have : ∃ l, stripChars isSpace (Spec.decoration refs) = '(' :: l := by
      refine ⟨(", ".toList).intercalate refs ++ [')'], ?_⟩
      have := strip_core (bad := isSpace) (pre := [' ']) (x := '(' :: ((", ".toList).intercalate refs ++ [')']))
        (post := []) (by decide) (by simp) (by simp) (by intro c hc; cases hc; decide) (by
          intro c hc
          rw [← List.cons_append, List.getLast?_append_of_ne_nil _ (by simp)] at hc
          cases hc; decide)
      rw [List.append_nil] at this
      exact this
    obtain ⟨l, hl⟩ := this
    rw [hl]; rfl
  have htags : ∀ u, u ∈ tagsOf (refsOf (Spec.decoration refs)) ↔ u ∈ tags := by
    have hm : ∀ u, u ∈ refs.filterMap (dropPrefix? "tag: ".toList) ↔ u ∈ tags := by
      intro u
      rw [ht u, List.mem_filterMap]
      constructor
      · rintro ⟨r, hr, e⟩
        rw [← dropPrefix_some e]; exact hr
      · intro hr
        exact ⟨_, hr, dropPrefix_append _ _⟩
    intro u
    unfold tagsOf
    rw [hrefs, if_neg]
    · exact hm u
    · rw [List.isEmpty_iff]
      exact List.ne_nil_of_mem ((hm t0).mpr ht0)
  have hpick := C61_keywords_set (tagPrefix := tagPrefix) htags
  unfold versionsFromKeywords
  rw [hform, hf, hpick]
  simp only [Bool.false_eq_true, if_false]
  refine ⟨fun v hv hm hmin => ?_, fun hnone => ?_⟩
  · cases hp : pickRef tagPrefix tags with
    | none =>
      rw [C61_keywords.2.mp hp _ hm] at hv; cases hv
    | some w =>
      obtain ⟨t, htm, e, hw, hmin2⟩ := C61_keywords.1 w hp
      have : tagPrefix ++ v = t := strLe_antisymm (hmin t htm (by rw [hw]; rfl)) (hmin2 _ hm (by rw [hv]; rfl))
      rw [← this, hv] at hw
      cases hw; rfl
  · rw [C61_keywords.2.mpr hnone]

/-- **C61 (not an archive).** In a checkout, where git has not expanded the keyword, the keywords are not used. -/
theorem C61_unexpanded (rest full : Str) (date : Option Str) (tagPrefix : Str)
    (hr : ∀ c, ("$Format".toList ++ rest).getLast? = some c → isSpace c = false) :
    versionsFromKeywords ("$Format".toList ++ rest) full date tagPrefix = none := by
  unfold versionsFromKeywords
  have := strip_core (bad := isSpace) (pre := []) (x := "$Format".toList ++ rest) (post := []) (by simp) (by simp)
    (by simp) (by intro c hc; cases hc; decide) hr
  rw [List.append_nil, List.nil_append] at this
  rw [this, dropPrefix_append]
  rfl

/-- **C61 (get_versions never fails).** With a known style other than `pep440-pre` a version is always returned; a
checkout is only asked if there are no keywords, the directory name only if git fails; when nothing works the version
is unknown and the error says so. -/
theorem C61_get_versions {style : Str} (hs : style ∈ Spec.styles) (hl : style ≠ "pep440-pre".toList)
    (keywords : Option Versions) (pieces : Option Pieces) (parentdir : Option Versions) :
    ∃ v, getVersions keywords pieces style parentdir = .ok v ∧
      (∀ k, keywords = some k → v = k) ∧
      (keywords = none → ∀ p, pieces = some p → render p style = .ok v) ∧
      (keywords = none → pieces = none → ∀ d, parentdir = some d → v = d) ∧
      (keywords = none → pieces = none → parentdir = none →
        v.version = "0+unknown".toList ∧ v.error = some "unable to compute version".toList) := by
  unfold getVersions
  cases keywords with
  | some k => exact ⟨k, rfl, by rintro k' ⟨⟩; rfl, by simp, by simp, by simp⟩
  | none =>
    cases pieces with
    | some p =>
      obtain ⟨v, hv⟩ := C61_known_style (p := p) hs hl
      exact ⟨v, hv, by simp, fun _ p' e => by cases e; exact hv, by simp, by simp⟩
    | none =>
      cases parentdir with
      | some d => exact ⟨d, rfl, by simp, by simp, fun _ _ d' e => by cases e; rfl, by simp⟩
      | none => exact ⟨_, rfl, by simp, by simp, by simp, fun _ _ _ => ⟨rfl, rfl⟩⟩

example : Spec.decoration ["HEAD -> main".toList, "tag: 2.0".toList] = " (HEAD -> main, tag: 2.0)".toList := by
  decide +kernel

example : Spec.RefName "tag: 2.0".toList :=
  ⟨by decide, by intro c h; cases h; decide, by intro c h; cases h; decide, by decide⟩

example : versionsFromKeywords " (HEAD -> main, tag: 2.0rc1, tag: 2.0)".toList "abc".toList none [] =
    some ⟨"2.0".toList, some "abc".toList, some false, none, none⟩ := by decide +kernel

example : versionsFromKeywords "$Format:%d$".toList "$Format:%H$".toList none [] = none := by decide +kernel

end Verif.Version
