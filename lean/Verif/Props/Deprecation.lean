import Verif.Model.Deprecation

/-! # Property C60 (deprecation) -/

namespace Verif.Deprecation

open Version (Str stripChars isSpace)

variable {σ A R : Type}

/-- a deprecated object does exactly what the original does, after one warning was shown -/
theorem C60_transparent {dedent : Str → Str} {o : Options} {obj obj' : Obj σ A R}
    (h : decorate dedent o obj = .ok obj') :
    ∃ w : Warning, w.category = (if o.pending then .pendingDeprecation else .rdtoolsDeprecation) ∧
      ∀ a s, s.raises w = false → obj'.call a s = obj.call a { s with log := s.log ++ [w] } := by
  unfold decorate at h
  cases hm : generateMessage (withName o obj) (objType obj.kind) with
  | error e => rw [hm] at h; cases h
  | ok m =>
    rw [hm] at h
    cases h
    refine ⟨⟨stripChars isSpace m, categoryOf o.pending⟩, rfl, fun a s hs => ?_⟩
    simp only [wrapper, warn, hs, Bool.false_eq_true, if_false]

/-- kind, name and identity of the object are kept, and the old documentation is kept after the notice -/
theorem C60_metadata {dedent : Str → Str} {o : Options} {obj obj' : Obj σ A R}
    (h : decorate dedent o obj = .ok obj') :
    obj'.kind = obj.kind ∧ obj'.name = obj.name ∧
    ∃ m tail, obj'.doc = some ("\n.. deprecated:: ".toList ++ o.since ++ m ++ tail) ∧
      (tail = stripChars (fun c => c = '\n') (dedent (obj.doc.getD [])) ∨
        (stripChars (fun c => c = '\n') (dedent (obj.doc.getD [])) = [] ∧ tail = "\\ ".toList)) := by
  unfold decorate at h
  cases hm : generateMessage (withName o obj) (objType obj.kind) with
  | error e => rw [hm] at h; cases h
  | ok m =>
    rw [hm] at h
    cases h
    have key : ∀ (since msg d : Str), d = stripChars (fun c => c = '\n') (dedent (obj.doc.getD [])) →
        newDoc dedent since msg obj.doc = "\n.. deprecated:: ".toList ++ since ++
          ("\n    ".toList ++ msg ++ "\n\n".toList) ++ (if d = [] then "\\ ".toList else d) := by
      intro since msg d hd
      unfold newDoc
      rw [← hd]
      generalize "\n.. deprecated:: ".toList = s1
      generalize "\n    ".toList = s2
      generalize "\n\n".toList = s3
      generalize "\\ ".toList = s4
      by_cases he : d = []
      · rw [if_pos he, if_pos he, he]; simp only [List.append_assoc, List.nil_append]
      · rw [if_neg he, if_neg he]; simp only [List.append_assoc, List.append_nil]
    refine ⟨rfl, rfl, _, _, congrArg some (key _ _ _ rfl), ?_⟩
    by_cases he : stripChars (fun c => c = '\n') (dedent (obj.doc.getD [])) = []
    · exact .inr ⟨he, by rw [if_pos he]⟩
    · exact .inl (by rw [if_neg he])

/-- the warning of an object is the same at every call: after `n` calls of a function that issues no warnings itself,
exactly `n` equal warnings were added, and results and other effects are those of the original -/
theorem C60_history {dedent : Str → Str} {o : Options} {obj obj' : Obj σ A R}
    (h : decorate dedent o obj = .ok obj') (step : A → σ → Except PyErr R × σ)
    (quiet : ∀ a s, obj.call a s = ((step a s.rest).1, { s with rest := (step a s.rest).2 }))
    (calls : List A) (s : World σ) (hs : ∀ w, s.raises w = false) :
    ∃ w : Warning,
      (runCalls obj'.call calls s).1 = (runCalls obj.call calls s).1 ∧
      (runCalls obj'.call calls s).2.rest = (runCalls obj.call calls s).2.rest ∧
      (runCalls obj'.call calls s).2.log = s.log ++ List.replicate calls.length w := by
  obtain ⟨w, -, hw⟩ := C60_transparent h
  refine ⟨w, ?_⟩
  have key : ∀ (calls : List A) (s t : World σ), s.rest = t.rest → (∀ w, s.raises w = false) →
      (runCalls obj'.call calls s).1 = (runCalls obj.call calls t).1 ∧
      (runCalls obj'.call calls s).2.rest = (runCalls obj.call calls t).2.rest ∧
      (runCalls obj'.call calls s).2.log = s.log ++ List.replicate calls.length w := by
    intro calls
    induction calls with
    | nil => intro s t hst _; exact ⟨rfl, hst, by simp [runCalls]⟩
    | cons a l ih =>
      intro s t hst hr
      have e1 : obj'.call a s = ((step a s.rest).1, ⟨s.log ++ [w], s.raises, (step a s.rest).2⟩) := by
        rw [hw a s (hr w), quiet]
      have e2 := quiet a t
      obtain ⟨i1, i2, i3⟩ := ih (⟨s.log ++ [w], s.raises, (step a s.rest).2⟩ : World σ)
        { t with rest := (step a t.rest).2 } (by rw [hst]) hr
      simp only [runCalls, e1, e2]
      refine ⟨?_, ?_, ?_⟩
      · rw [i1, hst]
      · exact i2
      · rw [i3]; simp [List.replicate_succ]
  exact key calls s s rfl hs

/-- when warnings are turned into exceptions the original is not run -/
theorem C60_error_filter {dedent : Str → Str} {o : Options} {obj obj' : Obj σ A R}
    (h : decorate dedent o obj = .ok obj') (a : A) (s : World σ) (hs : ∀ w, s.raises w = true) :
    obj'.call a s = (.error .exception, s) := by
  unfold decorate at h
  cases hm : generateMessage (withName o obj) (objType obj.kind) with
  | error e => rw [hm] at h; cases h
  | ok m =>
    rw [hm] at h
    cases h
    simp only [wrapper, warn, hs, if_true]

/-! ## Text -/

/-- the announced removal: nothing for `None`, soon by default -/
def Spec.removalClause : Option Str → Str
  | some [] => " and will be removed soon".toList
  | some r => " and will be removed in ".toList ++ r
  | none => []

/-- the clause for a removal text -/
def textClause : Option Str → Str
  | some r => " and will be removed ".toList ++ r
  | none => []

/-- the sentence shown without a message of the user -/
def Spec.sentence (o : Options) (name objType : Str) : Str :=
  "The ".toList ++ name ++ " ".toList ++ objType ++
  (if o.pending then " will be deprecated in a future version".toList
   else " was deprecated in rdtools ".toList ++ o.since ++
    Spec.removalClause o.removal) ++
  ".".toList ++
  (if o.alternative = [] then [] else " Use ".toList ++ o.alternative ++ " instead.".toList) ++
  (if o.addendum = [] then [] else " ".toList ++ o.addendum)

theorem render_chars (d : List (Str × Str)) (s : Str) (l : List Piece) :
    renderPieces d (s.map Piece.char ++ l) = (renderPieces d l).map (s ++ ·) := by
  induction s with
  | nil => cases h : renderPieces d l <;> simp [h, Except.map]
  | cons c s ih =>
    simp only [List.map_cons, List.cons_append, renderPieces, ih]
    cases renderPieces d l <;> rfl

/-- pieces of the default template -/
def defaultPieces (pending removal alternative addendum : Bool) : List Piece :=
  "The ".toList.map .char ++ .key "name".toList :: (" ".toList.map .char ++ .key "obj_type".toList ::
  ((if pending then " will be deprecated in a future version".toList.map .char
   else " was deprecated in ".toList.map .char ++ .key "projectName".toList :: (" ".toList.map .char ++
    .key "since".toList :: (if removal then " and will be removed ".toList.map .char ++ [.key "removal".toList] else []))) ++
  (".".toList.map .char ++
  ((if alternative then " Use ".toList.map .char ++ .key "alternative".toList :: " instead.".toList.map .char else []) ++
  (if addendum then " ".toList.map .char ++ [.key "addendum".toList] else [])))))

/-- the default template as a text -/
def defaultTemplate (pending removal alternative addendum : Bool) : Str :=
  "The %(name)s %(obj_type)s".toList ++
    (if pending then " will be deprecated in a future version".toList
     else " was deprecated in %(projectName)s %(since)s".toList ++
      (if removal then " and will be removed %(removal)s".toList else [])) ++
    ".".toList ++
    (if alternative then " Use %(alternative)s instead.".toList else []) ++
    (if addendum then " %(addendum)s".toList else [])

theorem parse_default (a b c d : Bool) :
    parseFormat (defaultTemplate a b c d).length (defaultTemplate a b c d) = .ok (defaultPieces a b c d) := by
  cases a <;> cases b <;> cases c <;> cases d <;> decide +kernel

theorem render_append (d : List (Str × Str)) (l1 l2 : List Piece) {s1 : Str} (h : renderPieces d l1 = .ok s1) :
    renderPieces d (l1 ++ l2) = (renderPieces d l2).map (s1 ++ ·) := by
  induction l1 generalizing s1 with
  | nil => cases h; cases h2 : renderPieces d l2 <;> simp [h2, Except.map]
  | cons p l1 ih =>
    cases p with
    | char c =>
      simp only [renderPieces, List.cons_append] at h ⊢
      cases hr : renderPieces d l1 with
      | error e => rw [hr] at h; cases h
      | ok s =>
        rw [hr] at h; cases h
        rw [ih hr]; cases renderPieces d l2 <;> rfl
    | key k =>
      simp only [renderPieces, List.cons_append] at h ⊢
      cases hk : lookupKey d k with
      | error e => rw [hk] at h; cases h
      | ok v =>
        rw [hk] at h
        cases hr : renderPieces d l1 with
        | error e => rw [hr] at h; cases h
        | ok s =>
          rw [hr] at h; cases h
          simp only [ih hr]; cases renderPieces d l2 <;> simp [Except.map]

theorem render_key {d : List (Str × Str)} {k v : Str} (h : lookupKey d k = .ok v) (l : List Piece) :
    renderPieces d (.key k :: l) = (renderPieces d l).map (v ++ ·) := by
  simp only [renderPieces, h]

theorem render_chars' (d : List (Str × Str)) (s : Str) : renderPieces d (s.map Piece.char) = .ok s := by
  have := render_chars d s []
  simpa [renderPieces, Except.map] using this

theorem render_clause {d : List (Str × Str)} {removal : Option Str} {other : Str}
    (k : lookupKey d "removal".toList = .ok (removal.getD other)) :
    renderPieces d (if removal.isSome = true then " and will be removed ".toList.map .char ++ [.key "removal".toList] else []) =
      .ok (textClause removal) := by
  unfold textClause
  generalize " and will be removed ".toList = w1
  generalize "removal".toList = w2 at *
  cases removal with
  | none => rfl
  | some r =>
    rw [if_pos Option.isSome_some, render_chars, render_key k]
    simp only [renderPieces, Except.map, Option.getD_some, List.append_nil]

theorem clause_in (c : Char) (r : Str) : textClause (some ("in ".toList ++ c :: r)) = Spec.removalClause (some (c :: r)) := by
  have : " and will be removed in ".toList = " and will be removed ".toList ++ "in ".toList := by decide +kernel
  unfold textClause Spec.removalClause
  rw [this]
  generalize " and will be removed ".toList = w1
  generalize "in ".toList = w2
  simp only [List.append_assoc]

/-- the default text is the sentence, whatever characters the options contain -/
theorem C60_default_text {o : Options} {objType : Str} (hm : o.message = [])
    (hp : ¬ (o.pending = true ∧ ∃ r, o.removal = some r ∧ r ≠ [])) :
    generateMessage o objType = .ok (Spec.sentence o o.name objType) := by
  have core : ∀ removal : Option Str, format (template o removal) (formatDict o objType removal) =
      .ok ("The ".toList ++ o.name ++ " ".toList ++ objType ++
        (if o.pending then " will be deprecated in a future version".toList
         else " was deprecated in rdtools ".toList ++ o.since ++
          textClause removal) ++
        ".".toList ++
        (if o.alternative = [] then [] else " Use ".toList ++ o.alternative ++ " instead.".toList) ++
        (if o.addendum = [] then [] else " ".toList ++ o.addendum)) := by
    intro removal
    have ht : template o removal = defaultTemplate o.pending removal.isSome (decide (o.alternative ≠ []))
        (decide (o.addendum ≠ [])) := by
      unfold template defaultTemplate
      rw [if_neg (not_not_intro hm)]
      simp only [decide_eq_true_eq]
    unfold format
    rw [ht, parse_default]
    simp only
    have k1 : lookupKey (formatDict o objType removal) "name".toList = .ok o.name := rfl
    have k2 : lookupKey (formatDict o objType removal) "obj_type".toList = .ok objType := rfl
    have k3 : lookupKey (formatDict o objType removal) "since".toList = .ok o.since := rfl
    have k4 : lookupKey (formatDict o objType removal) "removal".toList = .ok (removal.getD "None".toList) := rfl
    have k5 : lookupKey (formatDict o objType removal) "alternative".toList = .ok o.alternative := rfl
    have k6 : lookupKey (formatDict o objType removal) "addendum".toList = .ok o.addendum := rfl
    have k7 : lookupKey (formatDict o objType removal) "projectName".toList = .ok "rdtools".toList := rfl
    generalize formatDict o objType removal = d at *
    unfold defaultPieces
    have p6 : renderPieces d (if decide (o.addendum ≠ []) = true then " ".toList.map .char ++ [.key "addendum".toList] else []) =
        .ok (if o.addendum = [] then [] else " ".toList ++ o.addendum) := by
      by_cases h : o.addendum = []
      · rw [if_neg (by simp [h]), if_pos h]; rfl
      · rw [if_pos (by simp [h]), if_neg h, render_chars, render_key k6]; simp [renderPieces, Except.map]
    have p5 : renderPieces d (if decide (o.alternative ≠ []) = true then " Use ".toList.map .char ++
        .key "alternative".toList :: " instead.".toList.map .char else []) =
        .ok (if o.alternative = [] then [] else " Use ".toList ++ o.alternative ++ " instead.".toList) := by
      by_cases h : o.alternative = []
      · rw [if_neg (by simp [h]), if_pos h]; rfl
      · rw [if_pos (by simp [h]), if_neg h, render_chars, render_key k5, render_chars']
        simp only [Except.map, List.append_assoc]
    have p4 : renderPieces d (if o.pending then " will be deprecated in a future version".toList.map .char
        else " was deprecated in ".toList.map .char ++ .key "projectName".toList :: (" ".toList.map .char ++
          .key "since".toList :: (if removal.isSome = true then " and will be removed ".toList.map .char ++ [.key "removal".toList] else []))) =
        .ok (if o.pending then " will be deprecated in a future version".toList
         else " was deprecated in rdtools ".toList ++ o.since ++
          textClause removal) := by
      have hw : " was deprecated in rdtools ".toList = " was deprecated in ".toList ++ ("rdtools".toList ++ " ".toList) := by
        decide +kernel
      rw [hw]
      cases o.pending with
      | true => simp only [if_true]; exact render_chars' _ _
      | false =>
        simp only [Bool.false_eq_true, if_false]
        rw [render_chars, render_key k7, render_chars, render_key k3, render_clause k4]
        generalize " was deprecated in ".toList = w1
        generalize "rdtools".toList = w2
        generalize " ".toList = w3
        simp only [Except.map, List.append_assoc]
    rw [render_chars, render_key k1, render_chars, render_key k2, render_append d _ _ p4, render_chars,
      render_append d _ _ p5, p6]
    simp only [Except.map, List.append_assoc]
  have e1 : ∀ r c, textClause r = c → .ok ("The ".toList ++ o.name ++ " ".toList ++ objType ++
        (if o.pending then " will be deprecated in a future version".toList
         else " was deprecated in rdtools ".toList ++ o.since ++ textClause r) ++
        ".".toList ++
        (if o.alternative = [] then [] else " Use ".toList ++ o.alternative ++ " instead.".toList) ++
        (if o.addendum = [] then [] else " ".toList ++ o.addendum)) =
      (.ok ("The ".toList ++ o.name ++ " ".toList ++ objType ++
        (if o.pending then " will be deprecated in a future version".toList
         else " was deprecated in rdtools ".toList ++ o.since ++ c) ++
        ".".toList ++
        (if o.alternative = [] then [] else " Use ".toList ++ o.alternative ++ " instead.".toList) ++
        (if o.addendum = [] then [] else " ".toList ++ o.addendum)) : Except PyErr Str) := by
    intro r c h; rw [h]
  have e2 : ∀ r, removalText o = .ok r → textClause r = Spec.removalClause o.removal →
      generateMessage o objType = .ok (Spec.sentence o o.name objType) := by
    intro r hr hc
    unfold generateMessage
    rw [hr]
    exact (core r).trans (e1 r _ hc)
  cases hr : o.removal with
  | none => exact e2 none (by unfold removalText; rw [hr]) (by rw [hr]; rfl)
  | some r =>
    cases r with
    | nil => exact e2 (some "soon".toList) (by unfold removalText; rw [hr]) (by rw [hr]; decide +kernel)
    | cons c r =>
      have : o.pending = false := by
        cases h : o.pending with
        | false => rfl
        | true => exact absurd ⟨h, _, hr, by simp⟩ hp
      refine e2 (some ("in ".toList ++ c :: r)) (by unfold removalText; rw [hr, this]; rfl) ?_
      rw [hr]
      exact clause_in c r

/-- the function `warn_deprecated` issues exactly one warning with the sentence and the documented category, unless
warnings are turned into exceptions -/
theorem C60_warn_function {o : Options} {objType : Str} (hm : o.message = [])
    (hp : ¬ (o.pending = true ∧ ∃ r, o.removal = some r ∧ r ≠ [])) (s : World σ) :
    ∃ w : Warning, w.text = '\n' :: Spec.sentence o o.name objType ∧ (w.category = .pendingDeprecation ↔ o.pending = true) ∧
      warnDeprecated o objType s =
        if s.raises w then (.error .exception, s) else (.ok (), { s with log := s.log ++ [w] }) := by
  refine ⟨⟨'\n' :: Spec.sentence o o.name objType, categoryOf o.pending⟩, rfl, by cases o.pending <;> simp [categoryOf], ?_⟩
  unfold warnDeprecated
  rw [C60_default_text hm hp]
  rfl

/-- a pending deprecation with a scheduled removal is refused, and with the default text nothing else is -/
theorem C60_refused {o : Options} {objType : Str} :
    (o.pending = true → (∃ r, o.removal = some r ∧ r ≠ []) → generateMessage o objType = .error .valueError) ∧
    (o.message = [] → generateMessage o objType = .error .valueError →
      o.pending = true ∧ ∃ r, o.removal = some r ∧ r ≠ []) := by
  constructor
  · rintro hp ⟨r, hr, hne⟩
    unfold generateMessage removalText
    cases r with
    | nil => exact absurd rfl hne
    | cons c r => simp only [hr, hp, if_true]
  · intro hm he
    by_contra hc
    rw [C60_default_text hm hc] at he
    cases he

theorem parse_plain {s : Str} (h : '%' ∉ s) : ∀ fuel, s.length ≤ fuel → parseFormat fuel s = .ok (s.map .char) := by
  induction s with
  | nil => intro fuel _; cases fuel <;> rfl
  | cons c s ih =>
    intro fuel hf
    cases fuel with
    | zero => simp at hf
    | succ fuel =>
      have hc : c ≠ '%' := fun e => h (e ▸ List.mem_cons_self)
      have := ih (fun m => h (List.mem_cons_of_mem _ m)) fuel (by simpa using hf)
      rw [parseFormat]
      · rw [this]; rfl
      all_goals intros; simp_all

/-- a message of the user without `%` is shown as it is, without surrounding blanks -/
theorem C60_custom_text {dedent : Str → Str} {o : Options} {obj obj' : Obj σ A R}
    (hm : o.message ≠ []) (hp : '%' ∉ o.message) (h : decorate dedent o obj = .ok obj') (a : A) (s : World σ)
    (hs : ∀ w, s.raises w = false) :
    obj'.call a s = obj.call a
      { s with log := s.log ++ [⟨stripChars isSpace o.message, categoryOf o.pending⟩] } := by
  have hmsg : ∀ objType m, generateMessage (withName o obj) objType = .ok m → m = o.message := by
    intro objType m hg
    have e1 : (withName o obj).message = o.message := by unfold withName; split_ifs <;> rfl
    unfold generateMessage at hg
    cases hr : removalText (withName o obj) with
    | error e => rw [hr] at hg; cases hg
    | ok r =>
      rw [hr] at hg
      simp only [template, e1, if_pos hm, format, parse_plain hp _ le_rfl, render_chars'] at hg
      cases hg; rfl
  unfold decorate at h
  cases hg : generateMessage (withName o obj) (objType obj.kind) with
  | error e => rw [hg] at h; cases h
  | ok m =>
    rw [hg] at h
    cases h
    simp only [wrapper, warn, hs, Bool.false_eq_true, if_false, hmsg _ m hg]

/-- the warning of a decorated object without a message of the user is the sentence with the name of the object, unless a
name was given -/
theorem C60_object_text {dedent : Str → Str} {o : Options} {obj : Obj σ A R} (hm : o.message = [])
    (hp : ¬ (o.pending = true ∧ ∃ r, o.removal = some r ∧ r ≠ [])) :
    ∃ obj', decorate dedent o obj = .ok obj' ∧ ∀ a s, (∀ w, s.raises w = false) →
      obj'.call a s = obj.call a { s with log := s.log ++ [⟨stripChars isSpace
        (Spec.sentence o (if o.name = [] then obj.name else o.name)
          (if obj.kind = .cls then "class".toList else "function".toList)),
        if o.pending then .pendingDeprecation else .rdtoolsDeprecation⟩] } := by
  have hn : (withName o obj).message = [] ∧ (withName o obj).pending = o.pending ∧
      (withName o obj).removal = o.removal ∧ (withName o obj).name = (if o.name = [] then obj.name else o.name) ∧
      ∀ n t, Spec.sentence (withName o obj) n t = Spec.sentence o n t := by
    unfold withName
    split_ifs with h
    · exact ⟨hm, rfl, rfl, rfl, fun _ _ => rfl⟩
    · exact ⟨hm, rfl, rfl, rfl, fun _ _ => rfl⟩
  obtain ⟨n1, n2, n3, n4, n5⟩ := hn
  have hg := C60_default_text (o := withName o obj) (objType := objType obj.kind) n1 (by rw [n2, n3]; exact hp)
  have hk : objType obj.kind = if obj.kind = .cls then "class".toList else "function".toList := by
    cases obj.kind <;> rfl
  unfold decorate
  rw [hg]
  refine ⟨_, rfl, fun a s hs => ?_⟩
  simp only [wrapper, warn, hs, Bool.false_eq_true, if_false, n5, n4, hk, categoryOf]

/-! ## Messages with fields -/

/-- a message of the user: plain text, a percent sign, or a field -/
inductive Spec.Seg where
  | text (s : Str)
  | percent
  | field (k : Str)

/-- how the user writes the message: `%%` for a percent sign and `%(key)s` for a field -/
def Spec.written : List Spec.Seg → Str
  | [] => []
  | .text s :: l => s ++ Spec.written l
  | .percent :: l => '%' :: '%' :: Spec.written l
  | .field k :: l => '%' :: '(' :: (k ++ ')' :: 's' :: Spec.written l)

/-- the announced removal as a field: `None`, soon by default -/
def Spec.removalField : Option Str → Str
  | some [] => "soon".toList
  | some r => "in ".toList ++ r
  | none => "None".toList

/-- the fields a message may refer to -/
def Spec.fieldValue (o : Options) (objType k : Str) : Option Str :=
  if k = "func".toList ∨ k = "name".toList then some o.name
  else if k = "obj_type".toList then some objType
  else if k = "since".toList then some o.since
  else if k = "removal".toList then some (Spec.removalField o.removal)
  else if k = "alternative".toList then some o.alternative
  else if k = "addendum".toList then some o.addendum
  else if k = "projectName".toList then some "rdtools".toList
  else none

/-- what is shown for a message; `none` if it refers to a field that does not exist -/
def Spec.shown (value : Str → Option Str) : List Spec.Seg → Option Str
  | [] => some []
  | .text s :: l => (Spec.shown value l).map (s ++ ·)
  | .percent :: l => (Spec.shown value l).map ('%' :: ·)
  | .field k :: l => (value k).bind fun v => (Spec.shown value l).map (v ++ ·)

/-- plain text has no percent sign, the key of a field no parenthesis -/
def Spec.Seg.Plain : Spec.Seg → Prop
  | .text s => '%' ∉ s
  | .percent => True
  | .field k => '(' ∉ k ∧ ')' ∉ k

/-- pieces of a message -/
def segPieces : List Spec.Seg → List Piece
  | [] => []
  | .text s :: l => s.map .char ++ segPieces l
  | .percent :: l => .char '%' :: segPieces l
  | .field k :: l => .key k :: segPieces l

theorem readKey_field {k : Str} (h : ')' ∉ k) : ∀ acc rest, readKey acc (k ++ ')' :: 's' :: rest) = some (acc.reverse ++ k, rest) := by
  induction k with
  | nil => intro acc rest; simp [readKey]
  | cons c k ih =>
    intro acc rest
    have hc : c ≠ ')' := fun e => h (e ▸ List.mem_cons_self)
    rw [List.cons_append, readKey]
    · rw [ih (fun m => h (List.mem_cons_of_mem _ m))]
      simp
    · intros; simp_all
    · intros; simp_all

theorem parse_text {s : Str} (h : '%' ∉ s) {r : Str} {ps : List Piece} : ∀ fuel, (∀ fuel', r.length ≤ fuel' → parseFormat fuel' r = .ok ps) →
    (s ++ r).length ≤ fuel → parseFormat fuel (s ++ r) = .ok (s.map .char ++ ps) := by
  induction s with
  | nil => intro fuel hr hf; exact hr fuel hf
  | cons c s ih =>
    intro fuel hr hf
    cases fuel with
    | zero => simp at hf
    | succ fuel =>
      have hc : c ≠ '%' := fun e => h (e ▸ List.mem_cons_self)
      have := ih (fun m => h (List.mem_cons_of_mem _ m)) fuel hr (by simpa using hf)
      rw [List.cons_append, parseFormat]
      · rw [this]; rfl
      all_goals intros; simp_all

theorem parse_written {l : List Spec.Seg} (h : ∀ x ∈ l, x.Plain) : ∀ fuel, (Spec.written l).length ≤ fuel →
    parseFormat fuel (Spec.written l) = .ok (segPieces l) := by
  induction l with
  | nil => intro fuel _; cases fuel <;> rfl
  | cons x l ih =>
    have ih := ih fun y hy => h y (List.mem_cons_of_mem _ hy)
    have hx := h x List.mem_cons_self
    intro fuel hf
    cases x with
    | text s => exact parse_text hx fuel ih hf
    | percent =>
      cases fuel with
      | zero => simp [Spec.written] at hf
      | succ fuel =>
        simp only [Spec.written, List.length_cons] at hf ⊢
        rw [parseFormat, ih fuel (by omega)]
        rfl
    | field k =>
      cases fuel with
      | zero => simp [Spec.written] at hf
      | succ fuel =>
        simp only [Spec.written, List.length_cons, List.length_append] at hf ⊢
        rw [parseFormat, readKey_field hx.2]
        simp only [List.reverse_nil, List.nil_append]
        rw [ih fuel (by omega)]
        rfl

theorem render_segs {d : List (Str × Str)} {value : Str → Option Str} (hd : ∀ k, lookupKey d k = match value k with | some v => .ok v | none => .error .keyError)
    (l : List Spec.Seg) : renderPieces d (segPieces l) = match Spec.shown value l with | some s => .ok s | none => .error .keyError := by
  induction l with
  | nil => rfl
  | cons x l ih =>
    cases x with
    | text s =>
      rw [segPieces, render_chars, ih, Spec.shown]
      cases Spec.shown value l <;> rfl
    | percent =>
      rw [segPieces, renderPieces, ih, Spec.shown]
      cases Spec.shown value l <;> rfl
    | field k =>
      rw [segPieces, renderPieces, hd k, Spec.shown]
      cases value k with
      | none => rfl
      | some v =>
        simp only [ih, Option.bind_some]
        cases Spec.shown value l <;> rfl

/-- **C60 (fields).** A message of the user is shown with `%%` as a percent sign and every field replaced by its value,
whatever characters the values contain; a field that does not exist raises KeyError. -/
theorem C60_fields {o : Options} {objType : Str} {l : List Spec.Seg} (hm : o.message = Spec.written l) (hne : o.message ≠ [])
    (hl : ∀ x ∈ l, x.Plain) (hp : ¬ (o.pending = true ∧ ∃ r, o.removal = some r ∧ r ≠ [])) :
    (∀ s, Spec.shown (Spec.fieldValue o objType) l = some s → generateMessage o objType = .ok s) ∧
    (Spec.shown (Spec.fieldValue o objType) l = none → generateMessage o objType = .error .keyError) := by
  have key : ∃ removal : Option Str, removalText o = .ok removal ∧ removal.getD "None".toList = Spec.removalField o.removal := by
    unfold removalText Spec.removalField
    cases hr : o.removal with
    | none => exact ⟨_, rfl, rfl⟩
    | some r =>
      cases r with
      | nil => exact ⟨_, rfl, rfl⟩
      | cons c r =>
        have : o.pending = false := by
          cases hq : o.pending with
          | false => rfl
          | true => exact absurd ⟨hq, _, hr, by simp⟩ hp
        simp only [this, Bool.false_eq_true, if_false]
        exact ⟨_, rfl, rfl⟩
  obtain ⟨removal, h1, h2⟩ := key
  have hd : ∀ k, lookupKey (formatDict o objType removal) k = match Spec.fieldValue o objType k with | some v => .ok v | none => .error .keyError := by
    intro k
    unfold lookupKey formatDict Spec.fieldValue
    rw [h2]
    by_cases c1 : k = "func".toList
    · subst c1; rfl
    by_cases c2 : k = "name".toList
    · subst c2; rfl
    by_cases c3 : k = "obj_type".toList
    · subst c3; rfl
    by_cases c4 : k = "since".toList
    · subst c4; rfl
    by_cases c5 : k = "removal".toList
    · subst c5; rfl
    by_cases c6 : k = "alternative".toList
    · subst c6; rfl
    by_cases c7 : k = "addendum".toList
    · subst c7; rfl
    by_cases c8 : k = "projectName".toList
    · subst c8; rfl
    simp only [List.lookup, beq_false_of_ne c1, beq_false_of_ne c2, beq_false_of_ne c3, beq_false_of_ne c4, beq_false_of_ne c5,
      beq_false_of_ne c6, beq_false_of_ne c7, beq_false_of_ne c8, c1, c2, c3, c4, c5, c6, c7, c8, or_self, if_false]
  have hg : generateMessage o objType = match Spec.shown (Spec.fieldValue o objType) l with | some s => .ok s | none => .error .keyError := by
    unfold generateMessage
    rw [h1]
    simp only [template, if_pos hne, format]
    rw [hm, parse_written hl _ le_rfl]
    exact render_segs hd l
  rw [hg]
  constructor
  · intro s hs; rw [hs]
  · intro hs; rw [hs]

/-! ## Examples -/

/-- a counter: adds the argument to its state and returns the sum -/
def exFn : Obj Nat Nat Nat :=
  ⟨.func, "total".toList, some "Sum.".toList, fun a s => (.ok (s.rest + a), { s with rest := s.rest + a })⟩

/-- options with a percent sign -/
def exOpts : Options := { since := "2%".toList, alternative := "sum".toList, removal := some "3.0".toList }

/-- empty log, warnings shown -/
def exWorld : World Nat := ⟨[], fun _ => false, 5⟩

example : (generateMessage { exOpts with name := "f".toList } "function".toList) =
    .ok "The f function was deprecated in rdtools 2% and will be removed in 3.0. Use sum instead.".toList := by
  decide +kernel
example : (decorate id exOpts exFn).toOption.map (fun f => (f.call 4 exWorld).1.toOption) = some (some 9) := by
  decide +kernel
example : (decorate id exOpts exFn).toOption.map (fun f => (f.call 4 exWorld).2.log.length) = some 1 := by
  decide +kernel
example : (decorate id exOpts exFn).toOption.map (fun f => (runCalls f.call [1, 2, 3] exWorld).2.log.length) =
    some 3 := by decide +kernel
example : (decorate id { exOpts with pending := true } exFn).toOption.isNone = true := by decide +kernel
example : (decorate id { exOpts with message := " bye ".toList } exFn).toOption.map
    (fun f => (f.call 4 exWorld).2.log) = some [⟨"bye".toList, .rdtoolsDeprecation⟩] := by decide +kernel
-- a message with a percent sign and a field, and one with a field that does not exist
example : generateMessage { exOpts with message := "100%% of %(since)s".toList } "function".toList = .ok "100% of 2%".toList := by
  decide +kernel
example : Spec.written [.text "100".toList, .percent, .text " of ".toList, .field "since".toList] = "100%% of %(since)s".toList ∧
    Spec.shown (Spec.fieldValue exOpts "function".toList) [.text "100".toList, .percent, .text " of ".toList, .field "since".toList] =
      some "100% of 2%".toList ∧
    Spec.shown (Spec.fieldValue exOpts "function".toList) [.field "version".toList] = none := by decide +kernel

end Verif.Deprecation
