import Verif.Model.FilterDict

/-! # Property C52 (filter parameter dictionaries) -/

namespace Verif

/-- a dict that holds only known filters, each once -/
def Spec.Known {V : Type} (valid : List String) (d : Dict V) : Prop :=
  (∀ p ∈ d, p.1 ∈ valid) ∧ (d.map Prod.fst).Nodup

namespace Dict
variable {V : Type}

theorem mem_set {d : Dict V} {k : String} {v : V} {p : String × V} (h : p ∈ d.set k v) : p = (k, v) ∨ p ∈ d := by
  induction d with
  | nil => simp only [set, List.mem_singleton] at h; exact .inl h
  | cons q d ih =>
    obtain ⟨k', v'⟩ := q
    unfold set at h
    split_ifs at h with hk
    · rcases List.mem_cons.mp h with h | h
      · exact .inl h
      · exact .inr (List.mem_cons_of_mem _ h)
    · rcases List.mem_cons.mp h with h | h
      · exact .inr (h ▸ List.mem_cons_self)
      · exact (ih h).imp_right (List.mem_cons_of_mem _)

theorem keys_set (d : Dict V) (k : String) (v : V) :
    (d.set k v).map Prod.fst = if k ∈ d.map Prod.fst then d.map Prod.fst else d.map Prod.fst ++ [k] := by
  induction d with
  | nil => simp [set]
  | cons q d ih =>
    obtain ⟨k', v'⟩ := q
    unfold set
    by_cases hk : k' = k
    · subst hk; simp
    · rw [if_neg hk, List.map_cons, ih]
      by_cases hm : k ∈ d.map Prod.fst
      · rw [if_pos hm, if_pos (by rw [List.map_cons]; exact List.mem_cons_of_mem _ hm)]; rfl
      · rw [if_neg hm, if_neg (by simp only [List.map_cons, List.mem_cons, not_or]; exact ⟨fun e => hk e.symm, hm⟩)]
        rfl

theorem get?_set (d : Dict V) (k j : String) (v : V) :
    (d.set k v).get? j = if j = k then some v else d.get? j := by
  induction d with
  | nil =>
    by_cases h : j = k
    · subst h; simp [set, get?]
    · have : ¬ k = j := fun e => h e.symm
      simp [set, get?, h, this]
  | cons q d ih =>
    obtain ⟨k', v'⟩ := q
    unfold set
    by_cases hk : k' = k
    · subst hk
      by_cases h : j = k'
      · subst h; simp [get?]
      · have : ¬ k' = j := fun e => h e.symm
        simp [get?, h, this]
    · rw [if_neg hk]
      by_cases h : k' = j
      · subst h; simp [get?, hk]
      · simp only [get?, if_neg h, ih]

theorem get?_del (d : Dict V) (k j : String) : (d.del k).get? j = if j = k then none else d.get? j := by
  unfold del
  induction d with
  | nil => simp [get?]
  | cons q d ih =>
    obtain ⟨k', v'⟩ := q
    by_cases hk : k' = k
    · subst hk
      rw [List.filter_cons_of_neg (by simp), ih]
      by_cases hj : j = k'
      · rw [if_pos hj, if_pos hj]
      · rw [if_neg hj, if_neg hj]
        show _ = if k' = j then some v' else get? d j
        rw [if_neg (fun e => hj e.symm)]
    · rw [List.filter_cons_of_pos (by simpa using hk)]
      show (if k' = j then some v' else get? (List.filter _ d) j) = if j = k then none else if k' = j then some v' else get? d j
      by_cases hj : k' = j
      · subst hj
        rw [if_pos rfl, if_pos rfl, if_neg hk]
      · rw [if_neg hj, if_neg hj, ih]

theorem known_set {valid : List String} {d : Dict V} (h : Spec.Known valid d) {k : String} (hk : k ∈ valid) (v : V) :
    Spec.Known valid (d.set k v) := by
  refine ⟨fun p hp => ?_, ?_⟩
  · rcases mem_set hp with rfl | hp
    · exact hk
    · exact h.1 p hp
  · rw [keys_set]
    split_ifs with hm
    · exact h.2
    · exact List.nodup_append.mpr ⟨h.2, by simp, fun a ha b hb => by
        rw [List.mem_singleton] at hb; subst hb; exact fun e => hm (e ▸ ha)⟩

theorem known_setAll {valid : List String} {kv : List (String × V)} (hkv : ∀ p ∈ kv, p.1 ∈ valid) :
    ∀ {d : Dict V}, Spec.Known valid d → Spec.Known valid (d.setAll kv) := by
  unfold setAll
  induction kv with
  | nil => exact fun h => h
  | cons p kv ih =>
    intro d h
    exact ih (fun q hq => hkv q (List.mem_cons_of_mem _ hq)) (known_set h (hkv p (by simp)) p.2)

theorem key_mem_setAll (kv : List (String × V)) : ∀ (d : Dict V) (k : String),
    k ∈ (d.setAll kv).map Prod.fst ↔ k ∈ d.map Prod.fst ∨ k ∈ kv.map Prod.fst := by
  unfold setAll
  induction kv with
  | nil => simp
  | cons p kv ih =>
    intro d k
    rw [List.foldl_cons, ih, keys_set]
    simp only [List.map_cons, List.mem_cons]
    split_ifs with hm
    · constructor
      · rintro (h | h)
        · exact .inl h
        · exact .inr (.inr h)
      · rintro (h | rfl | h)
        · exact .inl h
        · exact .inl hm
        · exact .inr h
    · simp only [List.mem_append, List.mem_singleton]; tauto

/-- the last value given for a key wins, other keys keep their value -/
theorem get?_setAll (kv : List (String × V)) : ∀ (d : Dict V) (k : String),
    (d.setAll kv).get? k = ((kv.reverse.find? fun p => decide (p.1 = k)).map Prod.snd).or (d.get? k) := by
  unfold setAll
  induction kv with
  | nil => simp
  | cons p kv ih =>
    intro d k
    rw [List.foldl_cons, ih, get?_set, List.reverse_cons, List.find?_append]
    cases h : kv.reverse.find? (fun p => decide (p.1 = k)) with
    | some q => simp
    | none =>
      by_cases hk : p.1 = k
      · simp [hk]
      · have : ¬ k = p.1 := fun e => hk e.symm
        simp [hk, this]

theorem setAll_self {d : Dict V} : ∀ {acc : Dict V}, ((acc ++ d).map Prod.fst).Nodup → acc.setAll d = acc ++ d := by
  unfold setAll
  induction d with
  | nil => simp
  | cons p d ih =>
    intro acc h
    rw [List.foldl_cons]
    have hnot : p.1 ∉ acc.map Prod.fst := by
      rw [List.map_append, List.nodup_append] at h
      intro hm
      exact h.2.2 p.1 hm p.1 (by simp) rfl
    have hset : ∀ (acc : Dict V), p.1 ∉ acc.map Prod.fst → acc.set p.1 p.2 = acc ++ [p] := by
      intro acc hn
      induction acc with
      | nil => rfl
      | cons q acc ih2 =>
        obtain ⟨k', v'⟩ := q
        simp only [List.map_cons, List.mem_cons, not_or] at hn
        unfold set
        rw [if_neg (fun e => hn.1 e.symm), ih2 hn.2]; rfl
    rw [hset acc hnot, ih (by rw [List.append_assoc]; exact h), List.append_assoc]
    rfl

end Dict

namespace FilterDict
variable {V : Type}

/-- **C52 (construction).** Construction succeeds exactly if every given key is a known filter, and raises
KeyError otherwise; the new dict then holds only known filters, each with the last value given for it. -/
theorem C52_construct (valid : List String) (pairs : List (String × V)) :
    ((∃ d, construct valid pairs = .ok d) ↔ ∀ p ∈ pairs, p.1 ∈ valid) ∧
    ((∃ p ∈ pairs, p.1 ∉ valid) → construct valid pairs = .error .keyError) ∧
    (∀ d, construct valid pairs = .ok d → d.valid = valid ∧ Spec.Known valid d.items ∧
      ∀ j, d.items.get? j = (pairs.reverse.find? fun p => decide (p.1 = j)).map Prod.snd) := by
  have hall : ((Dict.setAll [] pairs).all fun p => decide (p.1 ∈ valid)) = true ↔ ∀ p ∈ pairs, p.1 ∈ valid := by
    rw [List.all_eq_true]
    have key := Dict.key_mem_setAll pairs []
    constructor
    · intro h p hp
      have : p.1 ∈ (Dict.setAll [] pairs).map Prod.fst := (key p.1).mpr (.inr (List.mem_map_of_mem hp))
      obtain ⟨q, hq, e⟩ := List.mem_map.mp this
      have := h q hq
      rw [decide_eq_true_eq, e] at this
      exact this
    · intro h q hq
      have : q.1 ∈ (Dict.setAll [] pairs).map Prod.fst := List.mem_map_of_mem hq
      rcases (key q.1).mp this with h' | h'
      · simp at h'
      · obtain ⟨p, hp, e⟩ := List.mem_map.mp h'
        rw [decide_eq_true_eq, ← e]
        exact h p hp
  unfold construct validateKeys
  simp only
  refine ⟨?_, ?_, ?_⟩
  · rw [← hall]
    split_ifs with h
    · exact ⟨fun _ => h, fun _ => ⟨_, rfl⟩⟩
    · exact ⟨fun ⟨d, hd⟩ => (nomatch hd), fun h' => absurd h' h⟩
  · rintro ⟨p, hp, hn⟩
    rw [if_neg]
    · rfl
    · intro h
      exact hn (hall.mp h p hp)
  · intro d hd
    split_ifs at hd with h
    · simp only [Except.map, Except.ok.injEq] at hd
      subst hd
      refine ⟨rfl, Dict.known_setAll (hall.mp h) ⟨by simp, by simp⟩, fun j => ?_⟩
      show (Dict.setAll [] pairs).get? j = _
      rw [Dict.get?_setAll]
      cases (pairs.reverse.find? fun p => decide (p.1 = j)).map Prod.snd <;> rfl
    · cases hd

/-- **C52 (pickling).** A dict of known filters survives pickling unchanged, order included. -/
theorem C52_pickle {d : FilterDict V} (h : Spec.Known d.valid d.items) : d.pickled = .ok d := by
  unfold pickled construct validateKeys
  simp only
  rw [Dict.setAll_self (by simpa using h.2), List.nil_append, if_pos]
  · rfl
  · rw [List.all_eq_true]
    intro p hp
    exact decide_eq_true (h.1 p hp)

/-- **C52 (assignment).** Assignment of a known filter stores the value and leaves the other entries; of an
unknown one it raises KeyError. -/
theorem C52_set_item (d : FilterDict V) (k : String) (v : V) :
    (k ∉ d.valid → d.setItem k v = .error .keyError) ∧
    (k ∈ d.valid → ∃ d', d.setItem k v = .ok d' ∧ ∀ j, d'.items.get? j = if j = k then some v else d.items.get? j) := by
  unfold setItem
  refine ⟨fun h => if_neg h, fun h => ⟨_, if_pos h, fun j => Dict.get?_set _ _ _ _⟩⟩

/-- **C52 (update).** `update` raises KeyError exactly if some given key is unknown. Otherwise, for a mapping
or keyword arguments, the last value given for a key is stored and the other entries are left. Missing from
the full statement: the pairs of an iterator are dropped (`C52_update_iterator`). -/
theorem C52_update_partial (d : FilterDict V) (a : UpdateArg V) :
    ((∃ p ∈ a.pairs ++ a.kwargs, p.1 ∉ d.valid) ↔ d.update a = .error .keyError) ∧
    (a.oneShot = false → (∀ p ∈ a.pairs ++ a.kwargs, p.1 ∈ d.valid) → ∃ d', d.update a = .ok d' ∧
      ∀ j, d'.items.get? j =
        (((a.pairs ++ a.kwargs).reverse.find? fun p => decide (p.1 = j)).map Prod.snd).or (d.items.get? j)) := by
  have hall : ((Dict.setAll [] (a.pairs ++ a.kwargs)).all fun p => decide (p.1 ∈ d.valid)) = true ↔
      ∀ p ∈ a.pairs ++ a.kwargs, p.1 ∈ d.valid := by
    have h := (C52_construct d.valid (a.pairs ++ a.kwargs)).1
    rw [← h]
    unfold construct validateKeys
    simp only
    split_ifs with h'
    · exact ⟨fun _ => ⟨_, rfl⟩, fun _ => h'⟩
    · exact ⟨fun e => absurd e h', fun ⟨d, hd⟩ => (nomatch hd)⟩
  unfold update
  simp only
  refine ⟨?_, ?_⟩
  · split_ifs with h
    · have := hall.mp h
      simp only [reduceCtorEq, iff_false]
      rintro ⟨p, hp, hn⟩
      exact hn (this p hp)
    · simp only [iff_true]
      rw [hall] at h
      push Not at h
      exact h
  · intro ho hv
    rw [if_pos (hall.mpr hv), ho]
    exact ⟨_, rfl, fun j => Dict.get?_setAll _ _ _⟩

/-- **C52 (refuted for iterators).** `update` with an iterator of known filters succeeds and changes
nothing. -/
theorem C52_update_iterator (d : FilterDict V) (pairs : List (String × V)) (h : ∀ p ∈ pairs, p.1 ∈ d.valid) :
    d.update ⟨pairs, true, []⟩ = .ok d := by
  have := ((C52_update_partial d ⟨pairs, true, []⟩).1).not.mp (by
    rintro ⟨p, hp, hn⟩
    simp only [List.append_nil] at hp
    exact hn (h p hp))
  unfold update at this ⊢
  simp only at this ⊢
  split_ifs with h'
  · simp [Dict.setAll]
  · rw [if_neg h'] at this
    exact absurd rfl this

theorem step_known {d : FilterDict V} (h : Spec.Known d.valid d.items) (op : Op V) :
    (step d op).1.valid = d.valid ∧ Spec.Known d.valid (step d op).1.items := by
  cases op with
  | setItem k v =>
    unfold step setItem
    simp only
    by_cases hk : k ∈ d.valid
    · rw [if_pos hk]; exact ⟨rfl, Dict.known_set h hk v⟩
    · rw [if_neg hk]; exact ⟨rfl, h⟩
  | update a =>
    unfold step
    simp only
    cases hu : d.update a with
    | error e => exact ⟨rfl, h⟩
    | ok d' =>
      have hv : ∀ p ∈ a.pairs ++ a.kwargs, p.1 ∈ d.valid := by
        by_contra hn
        push Not at hn
        rw [((C52_update_partial d a).1).mp hn] at hu
        cases hu
      unfold update at hu
      simp only at hu
      split_ifs at hu
      · cases hu
        refine ⟨rfl, Dict.known_setAll (fun p hp => hv p ?_) h⟩
        simp only [List.nil_append] at hp
        exact List.mem_append_right _ hp
      · cases hu
        exact ⟨rfl, Dict.known_setAll hv h⟩
  | delItem k =>
    unfold step delItem
    simp only
    by_cases hk : d.items.has k = true
    · rw [if_pos hk]
      refine ⟨rfl, fun p hp => h.1 p (List.mem_filter.mp hp).1, ?_⟩
      exact (List.filter_sublist.map _).nodup h.2
    · rw [if_neg hk]; exact ⟨rfl, h⟩
  | clear => exact ⟨rfl, by simp [step, FilterDict.clear, Spec.Known]⟩
  | pickle =>
    unfold step
    simp only [C52_pickle h]
    exact ⟨trivial, h⟩

/-- **C52 (invariant).** Whatever operations follow a successful construction, the dict holds only known
filters, each at most once. -/
theorem C52_always_known {valid : List String} {pairs : List (String × V)} {d : FilterDict V}
    (h : construct valid pairs = .ok d) (ops : List (Op V)) :
    Spec.Known valid (ops.foldl (fun d op => (step d op).1) d).items := by
  obtain ⟨hv, hk, -⟩ := (C52_construct valid pairs).2.2 d h
  suffices ∀ (ops : List (Op V)) (d : FilterDict V), d.valid = valid → Spec.Known valid d.items →
      Spec.Known valid (ops.foldl (fun d op => (step d op).1) d).items from this ops d hv hk
  intro ops
  induction ops with
  | nil => exact fun d _ h => h
  | cons op ops ih =>
    intro d hv hk
    subst hv
    obtain ⟨h1, h2⟩ := step_known hk op
    exact ih _ h1 h2

/-- **C52 (failure).** An operation that raises raises KeyError and leaves the dict unchanged, in any state
reached by operations. -/
theorem C52_failure_unchanged {d : FilterDict V} (h : Spec.Known d.valid d.items) {op : Op V} {e : PyErr}
    (he : (step d op).2 = .error e) : (step d op).1 = d ∧ e = .keyError := by
  cases op with
  | setItem k v =>
    unfold step setItem at *
    simp only at *
    by_cases hk : k ∈ d.valid
    · rw [if_pos hk] at he; cases he
    · rw [if_neg hk] at he ⊢; cases he; exact ⟨rfl, rfl⟩
  | update a =>
    unfold step update at *
    simp only at *
    generalize ((Dict.setAll [] (a.pairs ++ a.kwargs)).all fun p => decide (p.1 ∈ d.valid)) = b at *
    cases b
    · rw [if_neg (by decide)] at he ⊢; cases he; exact ⟨rfl, rfl⟩
    · rw [if_pos rfl] at he; cases he
  | delItem k =>
    unfold step delItem at *
    simp only at *
    by_cases hk : d.items.has k = true
    · rw [if_pos hk] at he; cases he
    · rw [if_neg hk] at he ⊢; cases he; exact ⟨rfl, rfl⟩
  | clear => cases he
  | pickle =>
    unfold step at he
    simp only [C52_pickle h] at he
    cases he

/-- **C52 (deletion).** Deleting a filter that is there removes it and leaves the other entries; deleting another raises KeyError;
`clear` removes all. The known filters remain the same. -/
theorem C52_delete (d : FilterDict V) (k : String) :
    (d.items.get? k = none → d.delItem k = .error .keyError) ∧
    (∀ v, d.items.get? k = some v → ∃ d', d.delItem k = .ok d' ∧ d'.valid = d.valid ∧
      ∀ j, d'.items.get? j = if j = k then none else d.items.get? j) ∧
    (clear d).valid = d.valid ∧ ∀ j, (clear d).items.get? j = none := by
  refine ⟨fun h => ?_, fun v h => ?_, rfl, fun j => rfl⟩
  · unfold delItem Dict.has
    rw [h]
    rfl
  · refine ⟨{ d with items := d.items.del k }, by unfold delItem Dict.has; rw [h]; rfl, rfl, fun j => ?_⟩
    exact Dict.get?_del _ _ _

/-- **C52 (other dict methods).** `setdefault` stores the value if the filter has none and changes nothing otherwise, `|=` stores the
last value given for each key; neither looks at the known filters. -/
theorem C52_other_methods (d : FilterDict V) (k : String) (v : V) (pairs : List (String × V)) (j : String) :
    (setDefault d k v).items.get? j = (d.items.get? j).or (if j = k then some v else none) ∧
    (ior d pairs).items.get? j = ((pairs.reverse.find? fun p => decide (p.1 = j)).map Prod.snd).or (d.items.get? j) := by
  refine ⟨?_, Dict.get?_setAll _ _ _⟩
  unfold setDefault Dict.has
  cases h : d.items.get? k with
  | none =>
    show (d.items.set k v).get? j = _
    rw [Dict.get?_set]
    by_cases hj : j = k
    · rw [if_pos hj, if_pos hj, hj, h]; rfl
    · rw [if_neg hj, if_neg hj, Option.or_none]
  | some u =>
    show d.items.get? j = _
    by_cases hj : j = k
    · rw [hj, h]; rfl
    · rw [if_neg hj, Option.or_none]

/-- **C52 (refuted for other dict methods).** `setdefault` and `|=` accept an unknown filter. -/
theorem C52_bypass_refuted (valid : List String) (v : V) (k : String) (hk : k ∉ valid) :
    ¬ Spec.Known valid (setDefault (⟨valid, []⟩ : FilterDict V) k v).items ∧
    ¬ Spec.Known valid (ior (⟨valid, []⟩ : FilterDict V) [(k, v)]).items := by
  have e1 : (setDefault (⟨valid, []⟩ : FilterDict V) k v).items = [(k, v)] := rfl
  have e2 : (ior (⟨valid, []⟩ : FilterDict V) [(k, v)]).items = [(k, v)] := rfl
  rw [e1, e2]
  exact ⟨fun h => hk (h.1 (k, v) (by simp)), fun h => hk (h.1 (k, v) (by simp))⟩

example : construct ["poa_filter", "clip_filter"] [("poa_filter", 1), ("clip_filter", 2), ("poa_filter", 3)] =
    .ok ⟨["poa_filter", "clip_filter"], [("poa_filter", 3), ("clip_filter", 2)]⟩ := by decide
example : (delItem (⟨["a", "b"], [("a", 1), ("b", 2)]⟩ : FilterDict Nat) "a") = .ok ⟨["a", "b"], [("b", 2)]⟩ := by decide
example : (setDefault (⟨["a", "b"], [("a", 1)]⟩ : FilterDict Nat) "c" 3).items = [("a", 1), ("c", 3)] := by decide
example : construct ["poa_filter"] [("poa_filter", 1), ("clip_filter", 2)] = .error .keyError := by decide
example : (step (⟨["poa_filter", "clip_filter"], [("poa_filter", 3)]⟩ : FilterDict Nat)
    (.update ⟨[("clip_filter", 1), ("tcell", 2)], false, []⟩)).2 = .error .keyError := by decide
example : Spec.Known ["poa_filter", "clip_filter"] [("poa_filter", 3), ("clip_filter", 2)] := by
  unfold Spec.Known; decide
example : "tcel_filter" ∉ ["poa_filter", "tcell_filter"] := by decide

end FilterDict
end Verif
