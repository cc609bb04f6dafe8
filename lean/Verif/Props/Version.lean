import Verif.Lemmas.Version

/-! # Property C61 (version strings) -/

namespace Verif.Version

/-- the styles a configuration may name -/
def Spec.styles : List Str :=
  ["pep440".toList, "pep440-branch".toList, "pep440-pre".toList, "pep440-post".toList,
    "pep440-post-branch".toList, "pep440-old".toList, "git-describe".toList, "git-describe-long".toList,
    "default".toList, []]

/-- a clean checkout of a tag has the tag as its version, in every style but the long `git describe` one -/
theorem C61_clean_tag {p : Pieces} {tag style : Str} (ht : p.closestTag = some tag) (hne : tag ≠ [])
    (hd : p.distance = 0) (hc : p.dirty = false) (he : p.error = none) (hs : style ∈ Spec.styles)
    (hl : style ≠ "git-describe-long".toList) :
    render p style = .ok ⟨tag, some p.long, some false, none, p.date⟩ := by
  have htr : truthy p.closestTag = some tag := by rw [ht]; exact truthy_some hne
  have hch : changed p = false := by simp [changed, hd, hc]
  have key : renderStyle p (effectiveStyle style) = .ok tag := by
    simp only [Spec.styles, List.mem_cons, List.not_mem_nil, or_false] at hs
    rcases hs with h | h | h | h | h | h | h | h | h | h
    · subst h; simp [effectiveStyle, renderStyle, renderPep440, htr, hch]
    · subst h; simp [effectiveStyle, renderStyle, renderPep440Branch, htr, hch]
    · subst h; simp [effectiveStyle, renderStyle, renderPep440Pre, htr, hd]
    · subst h; simp [effectiveStyle, renderStyle, renderPep440Post, htr, hch]
    · subst h; simp [effectiveStyle, renderStyle, renderPep440PostBranch, htr, hch]
    · subst h; simp [effectiveStyle, renderStyle, renderPep440Old, htr, hch]
    · subst h; simp [effectiveStyle, renderStyle, renderGitDescribe, htr, hd, dirtySuffix, hc]
    · exact absurd h hl
    · subst h; simp [effectiveStyle, renderStyle, renderPep440, htr, hch]
    · subst h; simp [effectiveStyle, renderStyle, renderPep440, htr, hch]
  unfold render
  rw [he, key, hc]
  simp only [truthy, Except.map]

/-- an error of the version-control query yields the version `unknown`, whatever the style -/
theorem C61_error {p : Pieces} {e : Str} (style : Str) (he : p.error = some e) (hne : e ≠ []) :
    render p style = .ok ⟨"unknown".toList, some p.long, none, some e, none⟩ := by
  unfold render
  rw [he, truthy_some hne]

/-- a style that is not in the list raises `ValueError` -/
theorem C61_unknown_style {p : Pieces} {style : Str} (he : p.error = none) (hs : style ∉ Spec.styles) :
    render p style = .error .valueError := by
  simp only [Spec.styles, List.mem_cons, List.not_mem_nil, or_false, not_or] at hs
  obtain ⟨h1, h2, h3, h4, h5, h6, h7, h8, h9, h10⟩ := hs
  have e1 : effectiveStyle style = style := by
    unfold effectiveStyle
    rw [if_neg (not_or.mpr ⟨h10, h9⟩)]
  have e2 : renderStyle p style = .error .valueError := by
    unfold renderStyle
    rw [if_neg h1, if_neg h2, if_neg h3, if_neg h4, if_neg h5, if_neg h6, if_neg h7, if_neg h8]
  unfold render
  rw [he, e1, e2]
  simp only [truthy, Except.map]

/-- a known style never raises, except that the `pep440-pre` style may -/
theorem C61_known_style {p : Pieces} {style : Str} (hs : style ∈ Spec.styles) (hl : style ≠ "pep440-pre".toList) :
    ∃ v, render p style = .ok v := by
  unfold render
  cases truthy p.error with
  | some e => exact ⟨_, rfl⟩
  | none =>
    simp only [Spec.styles, List.mem_cons, List.not_mem_nil, or_false] at hs
    rcases hs with h | h | h | h | h | h | h | h | h | h
    · subst h; simp [effectiveStyle, renderStyle, Except.map]
    · subst h; simp [effectiveStyle, renderStyle, Except.map]
    · exact absurd h hl
    · subst h; simp [effectiveStyle, renderStyle, Except.map]
    · subst h; simp [effectiveStyle, renderStyle, Except.map]
    · subst h; simp [effectiveStyle, renderStyle, Except.map]
    · subst h; simp [effectiveStyle, renderStyle, Except.map]
    · subst h; simp [effectiveStyle, renderStyle, Except.map]
    · subst h; simp [effectiveStyle, renderStyle, Except.map]
    · subst h; simp [effectiveStyle, renderStyle, Except.map]

/-- a checkout: no tag or a tag without `+`, and an abbreviated hash -/
def Spec.Checkout (p : Pieces) : Prop :=
  (∀ t, p.closestTag = some t → '+' ∉ t) ∧ p.short.all isHex = true

/-- what a version should tell: the tag (none if there is none) and, when the checkout is not the clean tag,
the distance, the hash and whether it is dirty -/
def Spec.identity (p : Pieces) : Option Str × Option (Nat × Str × Bool) :=
  match p.closestTag with
  | none | some [] => (none, some (p.distance, p.short, p.dirty))
  | some tag => (some tag, if p.distance = 0 ∧ p.dirty = false then none else some (p.distance, p.short, p.dirty))

theorem identity_untagged {p : Pieces} (h : truthy p.closestTag = none) :
    Spec.identity p = (none, some (p.distance, p.short, p.dirty)) := by
  unfold Spec.identity
  cases hc : p.closestTag with
  | none => rfl
  | some t =>
    cases t with
    | nil => rfl
    | cons a l => rw [hc] at h; cases h

theorem identity_tagged {p : Pieces} {tag : Str} (h : truthy p.closestTag = some tag) :
    Spec.identity p = (some tag, if changed p then some (p.distance, p.short, p.dirty) else none) := by
  obtain ⟨hc, hne⟩ := truthy_eq h
  unfold Spec.identity
  rw [hc]
  cases tag with
  | nil => exact absurd rfl hne
  | cons a l =>
    simp only [Prod.mk.injEq, true_and]
    by_cases hd : p.distance = 0 <;> cases hp : p.dirty <;> simp [changed, hd, hp]

/-- distance, hash and dirtiness can be read off the local version -/
theorem hash_inj {p q : Pieces} (hp : p.short.all isHex = true) (hq : q.short.all isHex = true)
    (h : distanceHash p ++ dirtySuffix p ".dirty".toList = distanceHash q ++ dirtySuffix q ".dirty".toList) :
    p.distance = q.distance ∧ p.short = q.short ∧ p.dirty = q.dirty := by
  simp only [distanceHash, List.append_assoc] at h
  have h' : digits p.distance ++ '.' :: ('g' :: (p.short ++ dirtySuffix p ".dirty".toList)) =
      digits q.distance ++ '.' :: ('g' :: (q.short ++ dirtySuffix q ".dirty".toList)) := h
  obtain ⟨h1, h2⟩ := split_first (not_mem_digits (by decide)) (not_mem_digits (by decide)) h'
  have h3 := (List.cons.inj h2).2
  have np : '.' ∉ p.short := isHex_ne hp (by decide)
  have nq : '.' ∉ q.short := isHex_ne hq (by decide)
  refine ⟨digits_inj h1, ?_⟩
  unfold dirtySuffix at h3
  cases dp : p.dirty <;> cases dq : q.dirty <;> rw [dp, dq] at h3
  · exact ⟨by simpa using h3, rfl⟩
  · exact absurd (show '.' ∈ p.short by
      have : p.short = q.short ++ ".dirty".toList := by simpa using h3
      rw [this]; simp) np
  · exact absurd (show '.' ∈ q.short by
      have : q.short = p.short ++ ".dirty".toList := by simpa using h3.symm
      rw [this]; simp) nq
  · exact ⟨by simpa using h3, rfl⟩

/-- two checkouts with the same default version are at the same tag and, unless both are the clean tag, have the same
distance, the same hash and the same dirtiness -/
theorem C61_identifies {p q : Pieces} (hp : Spec.Checkout p) (hq : Spec.Checkout q)
    (h : renderPep440 p = renderPep440 q) : Spec.identity p = Spec.identity q := by
  have shape : ∀ r : Pieces, Spec.Checkout r → ∀ tag, truthy r.closestTag = some tag →
      renderPep440 r = if changed r then tag ++ '+' :: (distanceHash r ++ dirtySuffix r ".dirty".toList) else tag := by
    intro r hr tag ht
    have := hr.1 tag (truthy_eq ht).1
    unfold renderPep440
    rw [ht]
    simp [plusOrDot, this]
  have shape0 : ∀ r : Pieces, truthy r.closestTag = none →
      renderPep440 r = ['0'] ++ '+' :: ("untagged.".toList ++ (distanceHash r ++ dirtySuffix r ".dirty".toList)) := by
    intro r hr
    unfold renderPep440
    rw [hr]
    simp
  have digit : ∀ r : Pieces, ∃ c l, distanceHash r ++ dirtySuffix r ".dirty".toList = c :: l ∧ c.isDigit = true := by
    intro r
    cases hdg : digits r.distance with
    | nil => exact absurd hdg (digits_ne_nil _)
    | cons c l =>
      exact ⟨c, l ++ (".g".toList ++ r.short ++ dirtySuffix r ".dirty".toList), by simp [distanceHash, hdg],
        digits_isDigit (n := r.distance) (by rw [hdg]; exact List.mem_cons_self)⟩
  cases htp : truthy p.closestTag with
  | none =>
    cases htq : truthy q.closestTag with
    | none =>
      rw [shape0 p htp, shape0 q htq] at h
      have h1 := (split_first (by decide) (by decide) h).2
      obtain ⟨a, b, c⟩ := hash_inj hp.2 hq.2 (List.append_cancel_left h1)
      rw [identity_untagged htp, identity_untagged htq, a, b, c]
    | some tq =>
      have nq := hq.1 tq (truthy_eq htq).1
      rw [shape0 p htp, shape q hq tq htq] at h
      split_ifs at h with hcq
      · have h1 := (split_first (by decide) nq h).2
        obtain ⟨c, l, h2, h3⟩ := digit q
        rw [h2] at h1
        have : 'u' = c := (List.cons.inj h1).1
        rw [← this] at h3; exact absurd h3 (by decide)
      · exact absurd (h ▸ (by simp : '+' ∈ _)) nq
  | some tp =>
    have np := hp.1 tp (truthy_eq htp).1
    cases htq : truthy q.closestTag with
    | none =>
      rw [shape0 q htq, shape p hp tp htp] at h
      split_ifs at h with hcp
      · have h1 := (split_first np (by decide) h).2
        obtain ⟨c, l, h2, h3⟩ := digit p
        rw [h2] at h1
        have : c = 'u' := (List.cons.inj h1).1
        rw [this] at h3; exact absurd h3 (by decide)
      · exact absurd (h ▸ (by simp : '+' ∈ _)) np
    | some tq =>
      have nq := hq.1 tq (truthy_eq htq).1
      rw [shape p hp tp htp, shape q hq tq htq] at h
      rw [identity_tagged htp, identity_tagged htq]
      by_cases hcp : changed p = true <;> by_cases hcq : changed q = true
      · rw [if_pos hcp, if_pos hcq] at h
        obtain ⟨h1, h2⟩ := split_first np nq h
        obtain ⟨a, b, c⟩ := hash_inj hp.2 hq.2 h2
        rw [if_pos hcp, if_pos hcq, h1, a, b, c]
      · rw [if_pos hcp, if_neg hcq] at h
        exact absurd (h ▸ (by simp : '+' ∈ _)) nq
      · rw [if_neg hcp, if_pos hcq] at h
        exact absurd (h ▸ (by simp : '+' ∈ tq ++ '+' :: _)) np
      · rw [if_neg hcp, if_neg hcq] at h
        rw [if_neg hcp, if_neg hcq, h]

/-- the output of `git describe --long --dirty` for a tag is parsed back into tag, distance, hash and dirtiness; the tag
may contain hyphens -/
theorem C61_describe_round_trip {tagPrefix tag hex long branch date : Str} {n total : Nat} {dirty : Bool}
    (hne : tagPrefix ++ tag ≠ []) (hh : hex ≠ []) (hx : hex.all isHex = true) :
    piecesOf tagPrefix (tagPrefix ++ tag ++ "-".toList ++ digits n ++ "-g".toList ++ hex ++
        (if dirty then "-dirty".toList else [])) long branch total date =
      ⟨some tag, n, hex, dirty, branch, long, some date, none⟩ := by
  have hdash : '-' ∉ 'g' :: hex := by
    simp only [List.mem_cons, not_or]
    exact ⟨by decide, isHex_ne hx (by decide)⟩
  have strip : stripDirty (tagPrefix ++ tag ++ "-".toList ++ digits n ++ "-g".toList ++ hex ++
      (if dirty then "-dirty".toList else [])) =
      (tagPrefix ++ tag ++ "-".toList ++ digits n ++ "-g".toList ++ hex, dirty) := by
    unfold stripDirty
    cases dirty with
    | true =>
      rw [List.reverse_append]
      simp only [if_true]
      rw [dropPrefix_append]
      simp
    | false =>
      simp only [Bool.false_eq_true, if_false, List.append_nil]
      cases hd : dropPrefix? "-dirty".toList.reverse
          (tagPrefix ++ tag ++ "-".toList ++ digits n ++ "-g".toList ++ hex).reverse with
      | none => rfl
      | some r =>
        exfalso
        have := congrArg List.reverse (dropPrefix_some hd)
        rw [List.reverse_reverse, List.reverse_append, List.reverse_reverse] at this
        have hy : 'y' ∈ hex := by
          have h2 := congrArg List.getLast? this
          rw [List.getLast?_append_of_ne_nil _ hh, List.getLast?_append_of_ne_nil _ (by decide)] at h2
          exact List.mem_of_getLast? h2
        exact isHex_ne hx (by decide) hy
  have shape : tagPrefix ++ tag ++ "-".toList ++ digits n ++ "-g".toList ++ hex =
      (tagPrefix ++ tag ++ '-' :: digits n) ++ '-' :: 'g' :: hex := by simp
  have parse : parseDescribe tagPrefix (tagPrefix ++ tag ++ "-".toList ++ digits n ++ "-g".toList ++ hex) =
      .tagged tag n hex := by
    unfold parseDescribe
    rw [shape, if_pos (by simp)]
    have : matchDescribe ((tagPrefix ++ tag ++ '-' :: digits n) ++ '-' :: 'g' :: hex) =
        some (tagPrefix ++ tag, n, hex) := by
      unfold matchDescribe
      rw [splitLast_append hdash]
      simp only
      rw [splitLast_append (not_mem_digits (by decide))]
      simp only
      rw [if_pos ⟨hne, digits_ne_nil n, List.all_eq_true.mpr fun c hc => digits_isDigit hc, hh, hx⟩,
        ofDigitChars_digits]
    rw [this]
    simp only [dropPrefix_append]
  unfold piecesOf
  rw [strip]
  simp only [parse]

/-- a checkout without a tag is reported with the number of commits and without a tag -/
theorem C61_describe_untagged {tagPrefix hex long branch date : Str} {total : Nat} {dirty : Bool}
    (hx : hex.all isHex = true) :
    piecesOf tagPrefix (hex ++ (if dirty then "-dirty".toList else [])) long branch total date =
      ⟨none, total, long.take 7, dirty, branch, long, some date, none⟩ := by
  have strip : stripDirty (hex ++ (if dirty then "-dirty".toList else [])) = (hex, dirty) := by
    unfold stripDirty
    cases dirty with
    | true =>
      rw [List.reverse_append]
      simp only [if_true]
      rw [dropPrefix_append]
      simp
    | false =>
      simp only [Bool.false_eq_true, if_false, List.append_nil]
      cases hd : dropPrefix? "-dirty".toList.reverse hex.reverse with
      | none => rfl
      | some r =>
        exfalso
        have h2 := dropPrefix_some hd
        have : 'y' ∈ hex.reverse := by rw [h2]; simp
        exact isHex_ne hx (by decide) (List.mem_reverse.mp this)
  unfold piecesOf
  rw [strip]
  simp only [parseDescribe, if_neg (isHex_ne hx (by decide : isHex '-' = false))]

/-- the `pep440-pre` style does not show dirtiness: a modified checkout of a tag has the version of the tag -/
theorem C61_pre_dirty_refuted {p : Pieces} (h : p.distance = 0) (hc : p.dirty = false) {tag : Str}
    (ht : p.closestTag = some tag) (hne : tag ≠ []) (b : Bool) :
    Spec.identity { p with dirty := true } ≠ Spec.identity p ∧
      renderPep440Pre { p with dirty := b } = .ok tag := by
  have htr : truthy p.closestTag = some tag := by rw [ht]; exact truthy_some hne
  constructor
  · rw [identity_tagged (p := { p with dirty := true }) htr, identity_tagged htr]
    simp [changed, h, hc]
  · simp [renderPep440Pre, htr, h]

/-- the `pep440-pre` style raises for a tag whose post-release segment is followed by a development segment -/
theorem C61_pre_raises_refuted :
    ∃ p : Pieces, p.error = none ∧ render p "pep440-pre".toList = .error .valueError :=
  ⟨⟨some "1.0.post1.dev2".toList, 3, "abc".toList, false, "master".toList, "abc".toList, none, none⟩, rfl,
    by decide +kernel⟩

/-- order of strings by code points, reflexive, total, transitive and antisymmetric -/
theorem strLe_total (a b : Str) : strLe a b = true ∨ strLe b a = true := by
  induction a generalizing b with
  | nil => exact .inl rfl
  | cons c a ih =>
    cases b with
    | nil => exact .inr rfl
    | cons d b =>
      unfold strLe
      by_cases h1 : c.val < d.val
      · exact .inl (if_pos h1)
      · by_cases h2 : d.val < c.val
        · exact .inr (if_pos h2)
        · rw [if_neg h1, if_neg h2, if_neg h2, if_neg h1]; exact ih b

theorem strLe_cons {c d : Char} {a b : Str} : strLe (c :: a) (d :: b) = true ↔ c.val < d.val ∨ (c = d ∧ strLe a b = true) := by
  rw [strLe]
  by_cases h1 : c.val < d.val
  · simp [h1]
  · by_cases h2 : d.val < c.val
    · simp only [if_neg h1, if_pos h2, Bool.false_eq_true, false_iff, not_or, not_and]
      exact ⟨h1, fun e => by subst e; exact absurd h2 h1⟩
    · have : c = d := Char.ext (UInt32.le_antisymm (UInt32.not_lt.mp h2) (UInt32.not_lt.mp h1))
      simp [this]

theorem strLe_trans {a b c : Str} (h1 : strLe a b = true) (h2 : strLe b c = true) : strLe a c = true := by
  induction a generalizing b c with
  | nil => rfl
  | cons x a ih =>
    cases b with
    | nil => cases h1
    | cons y b =>
      cases c with
      | nil => cases h2
      | cons z c =>
        rw [strLe_cons] at *
        rcases h1 with h1 | ⟨rfl, h1⟩
        · rcases h2 with h2 | ⟨rfl, h2⟩
          · exact .inl (UInt32.lt_trans h1 h2)
          · exact .inl h1
        · rcases h2 with h2 | ⟨rfl, h2⟩
          · exact .inl h2
          · exact .inr ⟨rfl, ih h1 h2⟩

theorem strLe_antisymm {a b : Str} (h1 : strLe a b = true) (h2 : strLe b a = true) : a = b := by
  induction a generalizing b with
  | nil => cases b with
    | nil => rfl
    | cons y b => cases h2
  | cons x a ih =>
    cases b with
    | nil => cases h1
    | cons y b =>
      rw [strLe_cons] at h1 h2
      rcases h1 with h1 | ⟨rfl, h1⟩
      · rcases h2 with h2 | ⟨rfl, h2⟩
        · exact absurd (UInt32.lt_trans h1 h2) (UInt32.lt_irrefl _)
        · exact absurd h1 (UInt32.lt_irrefl _)
      · rcases h2 with h2 | ⟨-, h2⟩
        · exact absurd h2 (UInt32.lt_irrefl _)
        · rw [ih h1 h2]

instance : Std.Total (fun a b : Str => strLe a b = true) := ⟨strLe_total⟩
instance : IsTrans Str (fun a b : Str => strLe a b = true) := ⟨fun _ _ _ => strLe_trans⟩

/-- the version taken from the keywords of an archive is that of the first suitable tag in string order; without a
suitable tag there is none -/
theorem C61_keywords {tagPrefix : Str} {tags : List Str} :
    (∀ v, pickRef tagPrefix tags = some v → ∃ t ∈ tags, t = tagPrefix ++ v ∧ versionOfRef tagPrefix t = some v ∧
      ∀ u ∈ tags, (versionOfRef tagPrefix u).isSome → strLe t u = true) ∧
    (pickRef tagPrefix tags = none ↔ ∀ u ∈ tags, versionOfRef tagPrefix u = none) := by
  have sorted := List.pairwise_insertionSort (fun a b : Str => strLe a b = true) tags
  have mem : ∀ u, u ∈ tags.insertionSort (fun a b : Str => strLe a b = true) ↔ u ∈ tags :=
    fun u => List.mem_insertionSort _
  constructor
  · intro v hv
    unfold pickRef at hv
    obtain ⟨l1, t, l2, hl, ht, hn⟩ := List.findSome?_eq_some_iff.mp hv
    refine ⟨t, (mem t).mp (by rw [hl]; simp), ?_, ht, ?_⟩
    · unfold versionOfRef at ht
      split at ht
      · next c r hd =>
        split_ifs at ht
        cases ht
        exact dropPrefix_some hd
      · cases ht
    · intro u hu hs
      have hu' := (mem u).mpr hu
      rw [hl] at hu' sorted
      rcases List.mem_append.mp hu' with h | h
      · rw [hn u h] at hs; cases hs
      · rcases List.mem_cons.mp h with h | h
        · subst h; exact (strLe_total u u).elim id id
        · exact (List.pairwise_cons.mp (List.pairwise_append.mp sorted).2.1).1 u h
  · unfold pickRef
    rw [List.findSome?_eq_none_iff]
    exact forall_congr' fun u => by rw [mem]

/-- the order in which the tags are listed and repetitions do not matter -/
theorem C61_keywords_set {tagPrefix : Str} {t1 t2 : List Str} (h : ∀ u, u ∈ t1 ↔ u ∈ t2) :
    pickRef tagPrefix t1 = pickRef tagPrefix t2 := by
  cases h1 : pickRef tagPrefix t1 with
  | none =>
    have := C61_keywords.2.mp h1
    exact (C61_keywords.2.mpr fun u hu => this u ((h u).mpr hu)).symm
  | some v =>
    obtain ⟨t, ht, -, hv, hmin⟩ := C61_keywords.1 v h1
    cases h2 : pickRef tagPrefix t2 with
    | none =>
      have := C61_keywords.2.mp h2 t ((h t).mp ht)
      rw [this] at hv; cases hv
    | some w =>
      obtain ⟨s, hs, -, hw, hmin2⟩ := C61_keywords.1 w h2
      have e : t = s := strLe_antisymm (hmin s ((h s).mpr hs) (by rw [hw]; rfl)) (hmin2 t ((h t).mp ht) (by rw [hv]; rfl))
      subst e
      rw [hv] at hw; exact hw

/-- the version of the checkout in a style -/
def Spec.VersionIs (p : Pieces) (style : String) (v : Str) : Prop :=
  ∃ w, render p style.toList = .ok w ∧ w.version = v

/-- the release a version starts with: the tag, or `0` without one -/
def Spec.base (p : Pieces) : Str :=
  match p.closestTag with
  | none | some [] => ['0']
  | some tag => tag

theorem versionIs {p : Pieces} (he : p.error = none) {style : String} {v w : Str}
    (h : renderStyle p (effectiveStyle style.toList) = .ok w) (e : w = v) : Spec.VersionIs p style v := by
  subst e
  refine ⟨⟨w, some p.long, some p.dirty, none, p.date⟩, ?_, rfl⟩
  unfold render
  rw [he]
  simp [truthy, h, Except.map]

theorem style_pep440 (p : Pieces) : renderStyle p (effectiveStyle "pep440".toList) = .ok (renderPep440 p) := by
  simp [effectiveStyle, renderStyle]
theorem style_pep440_branch (p : Pieces) : renderStyle p (effectiveStyle "pep440-branch".toList) = .ok (renderPep440Branch p) := by
  simp [effectiveStyle, renderStyle]
theorem style_pep440_old (p : Pieces) : renderStyle p (effectiveStyle "pep440-old".toList) = .ok (renderPep440Old p) := by
  simp [effectiveStyle, renderStyle]
theorem style_pep440_post (p : Pieces) : renderStyle p (effectiveStyle "pep440-post".toList) = .ok (renderPep440Post p) := by
  simp [effectiveStyle, renderStyle]
theorem style_pep440_post_branch (p : Pieces) : renderStyle p (effectiveStyle "pep440-post-branch".toList) = .ok (renderPep440PostBranch p) := by
  simp [effectiveStyle, renderStyle]
theorem style_git_describe (p : Pieces) : renderStyle p (effectiveStyle "git-describe".toList) = .ok (renderGitDescribe p) := by
  simp [effectiveStyle, renderStyle]
theorem style_git_describe_long (p : Pieces) : renderStyle p (effectiveStyle "git-describe-long".toList) = .ok (renderGitDescribeLong p) := by
  simp [effectiveStyle, renderStyle]

theorem branchSuffix_eq (p : Pieces) :
    branchSuffix p = if p.branch = "master".toList then [] else ".dev0".toList := by
  unfold branchSuffix
  split_ifs <;> simp_all

theorem untagged_pep440 {p : Pieces} (ht : truthy p.closestTag = none) :
    renderPep440 p = ['0'] ++ ("+untagged.".toList ++ distanceHash p ++ dirtySuffix p ".dirty".toList) := by
  simp [renderPep440, ht]

theorem untagged_branch {p : Pieces} (ht : truthy p.closestTag = none) :
    renderPep440Branch p = ['0'] ++ (if p.branch = "master".toList then [] else ".dev0".toList) ++ ("+untagged.".toList ++ distanceHash p ++ dirtySuffix p ".dirty".toList) := by
  have hb := branchSuffix_eq p
  simp [renderPep440Branch, ht, hb]

theorem untagged_old {p : Pieces} (ht : truthy p.closestTag = none) :
    renderPep440Old p = (['0'] ++ ".post".toList ++ digits p.distance) ++ (if p.dirty then ".dev0".toList else []) := by
  simp [renderPep440Old, ht, dirtySuffix]

theorem untagged_post {p : Pieces} (ht : truthy p.closestTag = none) :
    renderPep440Post p = (['0'] ++ ".post".toList ++ digits p.distance) ++ (if p.dirty then ".dev0".toList else []) ++ ('+' :: 'g' :: p.short) := by
  simp [renderPep440Post, ht, dirtySuffix]

theorem untagged_postbranch {p : Pieces} (ht : truthy p.closestTag = none) :
    renderPep440PostBranch p = (['0'] ++ ".post".toList ++ digits p.distance) ++ (if p.branch = "master".toList then [] else ".dev0".toList) ++ ('+' :: 'g' :: p.short) ++
        (if p.dirty then ".dirty".toList else []) := by
  have hb := branchSuffix_eq p
  simp [renderPep440PostBranch, ht, hb, dirtySuffix]

theorem tagged_pep440 {p : Pieces} {tag : Str} (ht : truthy p.closestTag = some tag) (hch : changed p = true) :
    renderPep440 p = tag ++ (plusOrDot tag ++ distanceHash p ++ dirtySuffix p ".dirty".toList) := by
  simp [renderPep440, ht, hch]

theorem tagged_branch {p : Pieces} {tag : Str} (ht : truthy p.closestTag = some tag) (hch : changed p = true) :
    renderPep440Branch p = tag ++ (if p.branch = "master".toList then [] else ".dev0".toList) ++ (plusOrDot tag ++ distanceHash p ++ dirtySuffix p ".dirty".toList) := by
  have hb := branchSuffix_eq p
  simp [renderPep440Branch, ht, hb, hch]

theorem tagged_old {p : Pieces} {tag : Str} (ht : truthy p.closestTag = some tag) (hch : changed p = true) :
    renderPep440Old p = (tag ++ ".post".toList ++ digits p.distance) ++ (if p.dirty then ".dev0".toList else []) := by
  simp [renderPep440Old, ht, dirtySuffix, hch]

theorem tagged_post {p : Pieces} {tag : Str} {sep : Char} (ht : truthy p.closestTag = some tag) (hch : changed p = true)
    (hsep : plusOrDot tag = [sep]) :
    renderPep440Post p = (tag ++ ".post".toList ++ digits p.distance) ++ (if p.dirty then ".dev0".toList else []) ++ (sep :: 'g' :: p.short) := by
  simp [renderPep440Post, ht, dirtySuffix, hch, hsep]

theorem tagged_postbranch {p : Pieces} {tag : Str} {sep : Char} (ht : truthy p.closestTag = some tag) (hch : changed p = true)
    (hsep : plusOrDot tag = [sep]) :
    renderPep440PostBranch p = (tag ++ ".post".toList ++ digits p.distance) ++ (if p.branch = "master".toList then [] else ".dev0".toList) ++ (sep :: 'g' :: p.short) ++
        (if p.dirty then ".dirty".toList else []) := by
  have hb := branchSuffix_eq p
  simp [renderPep440PostBranch, ht, hb, dirtySuffix, hch, hsep]

/-- **C61 (branches).** Unless the checkout is a clean tag, the branch styles insert `.dev0` exactly off the branch
`master`: after the release, and after the `.post` part; on `master` `pep440-branch` is the default style. -/
theorem C61_branches {p : Pieces} (he : p.error = none)
    (hn : p.distance ≠ 0 ∨ p.dirty = true ∨ p.closestTag = none ∨ p.closestTag = some []) :
    ∃ s post hash : Str,
      Spec.VersionIs p "pep440" (Spec.base p ++ s) ∧
      Spec.VersionIs p "pep440-branch"
        (Spec.base p ++ (if p.branch = "master".toList then [] else ".dev0".toList) ++ s) ∧
      Spec.VersionIs p "pep440-old" (post ++ if p.dirty then ".dev0".toList else []) ∧
      Spec.VersionIs p "pep440-post" (post ++ (if p.dirty then ".dev0".toList else []) ++ hash) ∧
      Spec.VersionIs p "pep440-post-branch"
        (post ++ (if p.branch = "master".toList then [] else ".dev0".toList) ++ hash ++
          if p.dirty then ".dirty".toList else []) ∧
      post = Spec.base p ++ ".post".toList ++ (Nat.repr p.distance).toList ∧
      (∃ sep, (sep = '+' ∨ sep = '.') ∧ hash = sep :: 'g' :: p.short) := by
  have hr : (Nat.repr p.distance).toList = digits p.distance := by simp [Nat.repr, digits]
  cases ht : truthy p.closestTag with
  | none =>
    have hbase : Spec.base p = ['0'] := by
      unfold Spec.base
      cases h : p.closestTag with
      | none => rfl
      | some t => cases t with
        | nil => rfl
        | cons a l => rw [h] at ht; simp [truthy] at ht
    rw [hr, hbase]
    refine ⟨"+untagged.".toList ++ distanceHash p ++ dirtySuffix p ".dirty".toList, _, '+' :: 'g' :: p.short,
      versionIs he (style_pep440 p) ?_,
      versionIs he (style_pep440_branch p) ?_,
      versionIs he (style_pep440_old p) ?_,
      versionIs he (style_pep440_post p) ?_,
      versionIs he (style_pep440_post_branch p) ?_, rfl, '+', Or.inl rfl, rfl⟩
    · exact untagged_pep440 ht
    · exact untagged_branch ht
    · exact untagged_old ht
    · exact untagged_post ht
    · exact untagged_postbranch ht
  | some tag =>
    obtain ⟨e, hne⟩ := truthy_eq ht
    have hbase : Spec.base p = tag := by
      unfold Spec.base
      rw [e]
      cases tag with
      | nil => exact absurd rfl hne
      | cons a l => rfl
    have hch : changed p = true := by
      unfold changed
      rw [Bool.or_eq_true, decide_eq_true_eq]
      rcases hn with h | h | h | h
      · exact Or.inl h
      · exact Or.inr h
      · rw [e] at h; cases h
      · rw [e] at h; cases h; exact absurd rfl hne
    rw [hr, hbase]
    have hsep : ∃ sep, (sep = '+' ∨ sep = '.') ∧ plusOrDot tag = [sep] := by
      unfold plusOrDot
      split_ifs
      · exact ⟨'.', Or.inr rfl, rfl⟩
      · exact ⟨'+', Or.inl rfl, rfl⟩
    obtain ⟨sep, hs, hsep⟩ := hsep
    refine ⟨plusOrDot tag ++ distanceHash p ++ dirtySuffix p ".dirty".toList, _, sep :: 'g' :: p.short,
      versionIs he (style_pep440 p) ?_,
      versionIs he (style_pep440_branch p) ?_,
      versionIs he (style_pep440_old p) ?_,
      versionIs he (style_pep440_post p) ?_,
      versionIs he (style_pep440_post_branch p) ?_, rfl, sep, hs, rfl⟩
    · exact tagged_pep440 ht hch
    · exact tagged_branch ht hch
    · exact tagged_old ht hch
    · exact tagged_post ht hch hsep
    · exact tagged_postbranch ht hch hsep

/-- **C61 (describe).** The two `git describe` styles agree except at a tag itself (distance 0), where the long one
adds `-0-g` and the hash; a dirty checkout ends in `-dirty` in both. -/
theorem C61_describe_styles {p : Pieces} (he : p.error = none) :
    ∃ v : Str, Spec.VersionIs p "git-describe" (v ++ if p.dirty then "-dirty".toList else []) ∧
      Spec.VersionIs p "git-describe-long"
        (v ++ (if p.distance = 0 ∧ p.closestTag.getD [] ≠ [] then "-0-g".toList ++ p.short else []) ++
          if p.dirty then "-dirty".toList else []) := by
  refine ⟨match truthy p.closestTag with
    | some tag => if p.distance ≠ 0 then tag ++ describeSuffix p else tag
    | none => p.short, versionIs he (style_git_describe p) ?_, versionIs he (style_git_describe_long p) ?_⟩
  · rfl
  · cases ht : truthy p.closestTag with
    | none =>
      have : p.closestTag.getD [] = [] := by
        cases h : p.closestTag with
        | none => rfl
        | some t => cases t with
          | nil => rfl
          | cons a l => rw [h] at ht; simp [truthy] at ht
      simp [renderGitDescribeLong, dirtySuffix, ht, this]
    | some tag =>
      obtain ⟨e, hne⟩ := truthy_eq ht
      by_cases h0 : p.distance = 0
      · have hd : digits 0 = ['0'] := by decide
        have hg : p.closestTag.getD [] = tag := by rw [e]; rfl
        rw [hg]
        simp [renderGitDescribeLong, dirtySuffix, ht, h0, hne, describeSuffix, hd]
      · simp [renderGitDescribeLong, dirtySuffix, ht, h0]

/-! ## Examples -/

/-- three commits after tag `v2-beta` with local changes -/
def exPieces : Pieces :=
  piecesOf "v".toList "v2-beta-3-gabc12-dirty".toList "abc1234567".toList "main".toList 9 "2024".toList

example : exPieces = ⟨some "2-beta".toList, 3, "abc12".toList, true, "main".toList, "abc1234567".toList,
    some "2024".toList, none⟩ := by decide +kernel
example : (render exPieces "pep440".toList).toOption.map Versions.version = some "2-beta+3.gabc12.dirty".toList := by
  decide +kernel
example : Spec.Checkout exPieces := ⟨by intro t h; cases h; decide, by decide⟩
example : Spec.identity exPieces = (some "2-beta".toList, some (3, "abc12".toList, true)) := by decide +kernel
example : (render { exPieces with distance := 0, dirty := false } "pep440-post".toList).toOption.map Versions.version =
    some "2-beta".toList := by decide +kernel
example : exPieces.error = none ∧ exPieces.distance ≠ 0 := by decide +kernel
example : (render exPieces "pep440-post-branch".toList).toOption.map Versions.version =
    some "2-beta.post3.dev0+gabc12.dirty".toList := by decide +kernel
example : (render exPieces "pep441".toList) = .error .valueError := by decide +kernel
example : (render { exPieces with error := some ['e'] } "".toList).toOption.map Versions.version =
    some "unknown".toList := by decide +kernel
example : (renderPep440Pre { exPieces with closestTag := some "1.0.post4".toList }) = .ok "1.0.post5.dev3".toList := by
  decide +kernel
example : pickRef [] (tagsOf (refsOf " (HEAD -> main, tag: 2.0rc1, tag: 2.0, tag: foo)".toList)) =
    some "2.0".toList := by decide +kernel

end Verif.Version
