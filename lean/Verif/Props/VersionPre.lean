import Verif.Props.Version

/-! # Property C61 (text of the `pep440-pre` style) -/

namespace Verif.Version

theorem dropPrefix?_some {p l r : Str} : dropPrefix? p l = some r ↔ l = p ++ r := by
  induction p generalizing l with
  | nil => simp [dropPrefix?, eq_comm]
  | cons a p ih =>
    cases l with
    | nil => simp [dropPrefix?]
    | cons b l =>
      by_cases h : a = b
      · subst h
        simp [dropPrefix?, ih]
      · simp [dropPrefix?, h, Ne.symm h]

theorem dropPrefix?_none {p l : Str} (h : ¬ p <+: l) : dropPrefix? p l = none := by
  cases hd : dropPrefix? p l with
  | none => rfl
  | some r => exact absurd ⟨r, (dropPrefix?_some.mp hd).symm⟩ h

theorem splitAux_absent {sep : Str} {l : Str} : ∀ {fuel : Nat} {cur : Str}, l.length ≤ fuel → ¬ sep <:+: l →
    splitAux sep fuel cur l = [cur.reverse ++ l] := by
  induction l with
  | nil => intro fuel cur _ _; cases fuel <;> simp [splitAux]
  | cons c l ih =>
    intro fuel cur hf h
    cases fuel with
    | zero => simp at hf
    | succ fuel =>
      have hd : dropPrefix? sep (c :: l) = none := dropPrefix?_none fun hp => h hp.isInfix
      unfold splitAux
      rw [hd]
      simp only
      rw [ih (by simpa using hf) fun hi => h (hi.trans (List.suffix_cons c l).isInfix)]
      simp

/-- ".post" does not overlap itself: it occurs first where the part before it ends -/
theorem post_no_overlap {c : Char} {l b : Str} (h : ¬ ".post".toList <:+: c :: l) :
    ¬ ".post".toList <+: c :: (l ++ (".post".toList ++ b)) := by
  intro hp
  have e : ".post".toList = ['.', 'p', 'o', 's', 't'] := by decide
  rw [e] at h hp
  match l with
  | [] => simp at hp
  | [_] => simp at hp
  | [_, _] => simp at hp
  | [_, _, _] => simp at hp
  | x :: y :: z :: w :: l =>
    apply h
    simp at hp
    obtain ⟨rfl, rfl, rfl, rfl, rfl⟩ := hp
    exact ⟨[], l, rfl⟩

theorem splitAux_post {b : Str} (hb : ¬ ".post".toList <:+: b) {a : Str} : ∀ {fuel : Nat} {cur : Str},
    (a ++ (".post".toList ++ b)).length ≤ fuel → ¬ ".post".toList <:+: a →
    splitAux ".post".toList fuel cur (a ++ (".post".toList ++ b)) = [cur.reverse ++ a, b] := by
  have e : ".post".toList = '.' :: ['p', 'o', 's', 't'] := by decide
  induction a with
  | nil =>
    intro fuel cur hf _
    cases fuel with
    | zero => rw [e] at hf; simp at hf
    | succ fuel =>
      have hd : dropPrefix? ".post".toList ('.' :: (['p', 'o', 's', 't'] ++ b)) = some b := dropPrefix?_some.mpr (by rw [e]; rfl)
      have e2 : ([] : Str) ++ (".post".toList ++ b) = '.' :: (['p', 'o', 's', 't'] ++ b) := by rw [e]; rfl
      rw [e2] at hf ⊢
      unfold splitAux
      rw [hd]
      simp only
      rw [splitAux_absent (by simp at hf; omega) hb]
      simp
  | cons c a ih =>
    intro fuel cur hf h
    cases fuel with
    | zero => simp at hf
    | succ fuel =>
      have hd : dropPrefix? ".post".toList (c :: (a ++ (".post".toList ++ b))) = none :=
        dropPrefix?_none (post_no_overlap h)
      rw [List.cons_append] at hf ⊢
      unfold splitAux
      rw [hd]
      simp only
      rw [ih (by simpa using hf) fun hi => h (hi.trans (List.suffix_cons c a).isInfix)]
      simp

theorem style_pep440_pre (p : Pieces) : renderStyle p (effectiveStyle "pep440-pre".toList) = renderPep440Pre p := by
  have e : effectiveStyle "pep440-pre".toList = "pep440-pre".toList := by decide
  rw [e]
  unfold renderStyle
  rw [if_neg (by decide), if_neg (by decide), if_pos rfl]

theorem digits_no_post (n : Nat) : ¬ ".post".toList <:+: digits n := by
  intro h
  have hd : '.' ∈ digits n := h.subset (by decide)
  have := Nat.isDigit_of_mem_toDigits (b := 10) (n := n) (by decide) (by decide) hd
  exact absurd this (by decide)

theorem repr_toList (n : Nat) : (Nat.repr n).toList = digits n := by simp [Nat.repr, digits]

/-- **C61 (pre-releases, release tags).** Commits after a tag without a post-release segment have the version of
the tag with `.post0.dev` and the distance; without a tag it is that of `0`. -/
theorem C61_pre_release {p : Pieces} (he : p.error = none) (hd : p.distance ≠ 0 ∨ p.closestTag.getD [] = [])
    (h : ¬ ".post".toList <:+: Spec.base p) :
    Spec.VersionIs p "pep440-pre" (Spec.base p ++ ".post0.dev".toList ++ (Nat.repr p.distance).toList) := by
  rw [repr_toList]
  refine versionIs (w := Spec.base p ++ ".post0.dev".toList ++ digits p.distance) he ?_ rfl
  rw [style_pep440_pre]
  unfold renderPep440Pre
  unfold Spec.base at h ⊢
  match ht : p.closestTag with
  | none => rfl
  | some [] => rfl
  | some (c :: l) =>
    rw [ht] at h hd
    have hd' : p.distance ≠ 0 := hd.resolve_right (by simp)
    simp only [truthy, if_pos hd']
    have hs : splitPost (c :: l) = .ok (c :: l, none) := by
      unfold splitPost splitOn
      rw [splitAux_absent le_rfl h]
      simp
    unfold preOf
    rw [hs]
    rfl

/-- **C61 (pre-releases, post-release tags).** Commits after a post-release tag have the version of the next
post-release; a segment without a number counts as number zero. -/
theorem C61_pre_post {p : Pieces} (he : p.error = none) (hd : p.distance ≠ 0) {a : Str} {n : Nat}
    (ht : p.closestTag = some (a ++ ".post".toList ++ (Nat.repr n).toList) ∨ n = 0 ∧ p.closestTag = some (a ++ ".post".toList))
    (h : ¬ ".post".toList <:+: a) :
    Spec.VersionIs p "pep440-pre"
      (a ++ ".post".toList ++ (Nat.repr (n + 1)).toList ++ ".dev".toList ++ (Nat.repr p.distance).toList) := by
  rw [repr_toList, repr_toList]
  rw [repr_toList] at ht
  have key : ∀ (b : Str), ¬ ".post".toList <:+: b → postNumber b = .ok n → p.closestTag = some (a ++ ".post".toList ++ b) →
      renderPep440Pre p = .ok (a ++ ".post".toList ++ digits (n + 1) ++ ".dev".toList ++ digits p.distance) := by
    intro b hb hn hc
    have hne : a ++ ".post".toList ++ b ≠ [] := by
      intro h0
      simp at h0
    have hs : splitPost (a ++ ".post".toList ++ b) = .ok (a, some n) := by
      unfold splitPost splitOn
      rw [List.append_assoc, splitAux_post hb le_rfl h]
      simp [hn, Except.map]
    unfold renderPep440Pre
    rw [hc, truthy_some hne]
    simp only [if_pos hd]
    unfold preOf
    rw [hs]
    rfl
  refine versionIs (w := a ++ ".post".toList ++ digits (n + 1) ++ ".dev".toList ++ digits p.distance) he ?_ rfl
  rw [style_pep440_pre]
  rcases ht with ht | ⟨rfl, ht⟩
  · refine key _ (digits_no_post n) ?_ ht
    have hne := digits_ne_nil n
    have hall : (digits n).all Char.isDigit = true := List.all_eq_true.mpr fun c hc =>
      Nat.isDigit_of_mem_toDigits (b := 10) (n := n) (by decide) (by decide) hc
    have hp : parseInt (digits n) = .ok n := by
      unfold parseInt
      rw [if_pos ⟨hne, hall⟩, ofDigitChars_digits]
    unfold postNumber
    split
    · exact absurd ‹_› hne
    · exact hp
  · exact key [] (by decide) rfl (by rw [ht, List.append_nil])

/-- a text after `.post` that is no number raises `ValueError`; the text starts with a letter, so that `int` refuses it -/
theorem C61_pre_raises {p : Pieces} (he : p.error = none) (hd : p.distance ≠ 0) {a b : Str} {c : Char} (hc : c.isAlpha = true)
    (ht : p.closestTag = some (a ++ ".post".toList ++ c :: b)) (h : ¬ ".post".toList <:+: a)
    (hb : ¬ ".post".toList <:+: c :: b) : render p "pep440-pre".toList = .error .valueError := by
  have hne : a ++ ".post".toList ++ c :: b ≠ [] := by simp
  have hdig : c.isDigit = false := by
    simp only [Char.isAlpha, Char.isUpper, Char.isLower, Char.isDigit, Bool.or_eq_true, Bool.and_eq_true,
      decide_eq_true_eq, Bool.and_eq_false_iff, decide_eq_false_iff_not] at hc ⊢
    right
    intro hle
    have h9 : c.val.toNat ≤ 57 := UInt32.le_iff_toNat_le.mp hle
    rcases hc with hc | hc
    · have : 65 ≤ c.val.toNat := UInt32.le_iff_toNat_le.mp hc.1
      omega
    · have : 97 ≤ c.val.toNat := UInt32.le_iff_toNat_le.mp hc.1
      omega
  have hs : splitPost (a ++ ".post".toList ++ c :: b) = .error .valueError := by
    unfold splitPost splitOn
    rw [List.append_assoc, splitAux_post hb le_rfl h]
    simp [postNumber, parseInt, hdig, Except.map]
  unfold render
  rw [he]
  simp only [truthy]
  rw [style_pep440_pre]
  unfold renderPep440Pre
  rw [ht, truthy_some hne]
  simp only [if_pos hd]
  unfold preOf
  rw [hs]
  rfl

example : (render ⟨some "1.2".toList, 3, "abc".toList, true, "dev".toList, "abc".toList, none, none⟩ "pep440-pre".toList).toOption.map
    (fun v => String.ofList v.version) = some "1.2.post0.dev3" := by decide +kernel

example : (render ⟨some "1.2.post9".toList, 3, "abc".toList, true, "dev".toList, "abc".toList, none, none⟩
    "pep440-pre".toList).toOption.map (fun v => String.ofList v.version) = some "1.2.post10.dev3" := by decide +kernel

example : ¬ ".post".toList <:+: "1.2".toList ∧ ¬ ".post".toList <:+: "1.dev2".toList ∧ ('d').isAlpha = true := by decide

end Verif.Version
