import Verif.Model.ClipLoad

/-! # Property C118: the clipping model is loaded before it is used -/

namespace Verif.Clip

/-! ## specification -/

/-- a call is over -/
def Spec.Over (p : Pc) : Prop := p = .done ∨ ∃ e, p = .raised e

/-- a call is neither begun nor in progress -/
def Spec.Idle (p : Pc) : Prop := p = .start ∨ Spec.Over p

/-- nothing the schedule asks of the outside world fails -/
def Spec.NoFailure (sched : List (Nat × Bool)) : Prop := ∀ x ∈ sched, x.2 = true

/-- the model of the file is ready: the global variable holds a loaded classifier -/
def Spec.Ready (s : LoadState) : Prop := ∃ g, s.global = some g ∧ s.loaded g = true

/-! ## lemmas -/

theorem loadRun_nil (s : LoadState) : loadRun s [] = s := rfl

theorem loadRun_cons (s : LoadState) (x : Nat × Bool) (l : List (Nat × Bool)) :
    loadRun s (x :: l) = loadRun (loadStep s x.1 x.2) l := rfl

theorem loadRun_append (s : LoadState) (a b : List (Nat × Bool)) :
    loadRun s (a ++ b) = loadRun (loadRun s a) b := by
  unfold loadRun; rw [List.foldl_append]

theorem loadRun_invariant {P : LoadState → Prop} (h : ∀ s c ok, P s → P (loadStep s c ok)) {s : LoadState} (hs : P s)
    (l : List (Nat × Bool)) : P (loadRun s l) := by
  induction l generalizing s with
  | nil => exact hs
  | cons x l ih => rw [loadRun_cons]; exact ih (h s x.1 x.2 hs)

/-- ready, and no call can replace the classifier: those in progress hold or will fetch the loaded one -/
def Warm (s : LoadState) : Prop :=
  ∃ g, s.global = some g ∧ s.loaded g = true ∧
    ∀ c, s.calls c = .start ∨ s.calls c = .fetch ∨ s.calls c = .predict g ∨ Spec.Over (s.calls c)

/-- what a step of a warm state keeps -/
theorem warm_step {s : LoadState} (h : Warm s) (c : Nat) (ok : Bool) :
    Warm (loadStep s c ok) ∧ (loadStep s c ok).global = s.global ∧ (loadStep s c ok).loaded = s.loaded ∧
      (loadStep s c ok).made = s.made ∧ (loadStep s c ok).reads = s.reads ∧
      ∀ d, (∀ e, s.calls d ≠ .raised e) → ∀ e, (loadStep s c ok).calls d ≠ .raised e := by
  obtain ⟨g, hg, hl, hc⟩ := h
  have key : ∀ p : Pc, (p = .start ∨ p = .fetch ∨ p = .predict g ∨ p = .done) →
      loadStep s c ok = s.move c p → Warm (loadStep s c ok) ∧ (loadStep s c ok).global = s.global ∧
        (loadStep s c ok).loaded = s.loaded ∧ (loadStep s c ok).made = s.made ∧ (loadStep s c ok).reads = s.reads ∧
        ∀ d, (∀ e, s.calls d ≠ .raised e) → ∀ e, (loadStep s c ok).calls d ≠ .raised e := by
    intro p hp h
    rw [h]
    refine ⟨⟨g, hg, hl, fun d => ?_⟩, rfl, rfl, rfl, rfl, fun d hd e => ?_⟩
    · unfold LoadState.move
      simp only
      split
      · rcases hp with r | r | r | r <;> subst r <;> simp [Spec.Over]
      · exact hc d
    · unfold LoadState.move
      simp only
      split
      · rcases hp with r | r | r | r <;> subst r <;> simp
      · exact hd e
  have same : loadStep s c ok = s → Warm (loadStep s c ok) ∧ (loadStep s c ok).global = s.global ∧
        (loadStep s c ok).loaded = s.loaded ∧ (loadStep s c ok).made = s.made ∧ (loadStep s c ok).reads = s.reads ∧
        ∀ d, (∀ e, s.calls d ≠ .raised e) → ∀ e, (loadStep s c ok).calls d ≠ .raised e := by
    intro h; rw [h]; exact ⟨⟨g, hg, hl, hc⟩, rfl, rfl, rfl, rfl, fun d hd => hd⟩
  rcases hc c with r | r | r | r | ⟨e, r⟩
  · exact key .fetch (by simp) (by simp [loadStep, r, hg])
  · exact key (.predict g) (by simp) (by simp [loadStep, r, hg])
  · exact key .done (by simp) (by simp [loadStep, r, hl])
  · exact same (by simp [loadStep, r])
  · exact same (by simp [loadStep, r])

theorem warm_run {s : LoadState} (h : Warm s) (l : List (Nat × Bool)) :
    Warm (loadRun s l) ∧ (loadRun s l).global = s.global ∧ (loadRun s l).loaded = s.loaded ∧
      (loadRun s l).made = s.made ∧ (loadRun s l).reads = s.reads ∧
      ∀ d, (∀ e, s.calls d ≠ .raised e) → ∀ e, (loadRun s l).calls d ≠ .raised e := by
  induction l generalizing s with
  | nil => exact ⟨h, rfl, rfl, rfl, rfl, fun d hd => hd⟩
  | cons x l ih =>
    rw [loadRun_cons]
    obtain ⟨a1, a2, a3, a4, a5, a6⟩ := warm_step h x.1 x.2
    obtain ⟨b1, b2, b3, b4, b5, b6⟩ := ih a1
    exact ⟨b1, b2.trans a2, b3.trans a3, b4.trans a4, b5.trans a5, fun d hd => b6 d (a6 d hd)⟩

/-- the classifier in the global variable was never loaded, and no call will load it -/
def Stuck (s : LoadState) : Prop :=
  ∃ g, s.global = some g ∧ s.loaded g = false ∧
    ∀ c, s.calls c = .start ∨ s.calls c = .fetch ∨ s.calls c = .predict g ∨ Spec.Over (s.calls c)

theorem stuck_step {s : LoadState} (h : Stuck s) (c : Nat) (ok : Bool) :
    Stuck (loadStep s c ok) ∧ ∀ d, s.calls d ≠ .done → (loadStep s c ok).calls d ≠ .done := by
  obtain ⟨g, hg, hl, hc⟩ := h
  have key : ∀ p : Pc, (p = .start ∨ p = .fetch ∨ p = .predict g ∨ ∃ e, p = .raised e) →
      loadStep s c ok = s.move c p → Stuck (loadStep s c ok) ∧
        ∀ d, s.calls d ≠ .done → (loadStep s c ok).calls d ≠ .done := by
    intro p hp h
    rw [h]
    refine ⟨⟨g, hg, hl, fun d => ?_⟩, fun d hd => ?_⟩
    · unfold LoadState.move
      simp only
      split
      · rcases hp with r | r | r | ⟨e, r⟩ <;> subst r <;> simp [Spec.Over]
      · exact hc d
    · unfold LoadState.move
      simp only
      split
      · rcases hp with r | r | r | ⟨e, r⟩ <;> subst r <;> simp
      · exact hd
  have same : loadStep s c ok = s → Stuck (loadStep s c ok) ∧
      ∀ d, s.calls d ≠ .done → (loadStep s c ok).calls d ≠ .done := by
    intro h; rw [h]; exact ⟨⟨g, hg, hl, hc⟩, fun d hd => hd⟩
  rcases hc c with r | r | r | r | ⟨e, r⟩
  · exact key .fetch (by simp) (by simp [loadStep, r, hg])
  · exact key (.predict g) (by simp) (by simp [loadStep, r, hg])
  · exact key (.raised .valueError) (by simp) (by simp [loadStep, r, hl])
  · exact same (by simp [loadStep, r])
  · exact same (by simp [loadStep, r])

/-! ## one call after the other -/

/-- **C118 (history).** When calls are made one after the other and nothing fails, every one of them uses the loaded model, and
the file is read only once. -/
theorem C118_history_partial (n : Nat) :
    let s := (List.range n).foldl (fun s c => loadCall s c true true) LoadState.init
    (∀ c < n, s.calls c = .done) ∧ s.made ≤ 1 ∧ s.reads ≤ 1 ∧ (0 < n → Spec.Ready s) := by
  intro s
  have : s = if n = 0 then LoadState.init else
      { global := some 0, loaded := fun o => decide (o = 0), made := 1, reads := 1
        calls := fun c => if c < n then .done else .start } := by
    show (List.range n).foldl (fun s c => loadCall s c true true) LoadState.init = _
    induction n with
    | zero => rfl
    | succ n ih =>
      rw [List.range_succ, List.foldl_append, ih]
      rcases Nat.eq_zero_or_pos n with h | h
      · subst h
        simp [loadCall, loadRun, loadStep, LoadState.init, LoadState.move]
        funext d
        by_cases hd : d = 0 <;> simp [hd]
      · rw [if_neg (by omega), if_neg (by omega)]
        simp [loadCall, loadRun, loadStep, LoadState.move]
        funext d
        by_cases hd : d = n
        · simp [hd]
        · simp only [hd, if_false]
          congr 1
          simp only [eq_iff_iff]
          omega
  rw [this]
  split
  · rename_i h; subst h
    exact ⟨fun c hc => by omega, by simp [LoadState.init], by simp [LoadState.init], fun h => by omega⟩
  · exact ⟨fun c hc => by simp [hc], le_refl _, le_refl _, fun _ => ⟨0, rfl, rfl⟩⟩

/-- **C118 (after a failure), refuted.** If reading the file fails once, the next call raises too, even though the file
can be read again. -/
theorem C118_retry_refuted :
    ¬ ∀ c d, c ≠ d → (loadCall (loadCall LoadState.init c true false) d true true).calls d = .done := by
  intro h
  have := h 0 1 (by decide)
  revert this
  decide +kernel

/-- **C118 (after a failure).** More than that: after a failed reading no call ever succeeds in this process, whatever the
schedule and however often the file could be read, until the module is imported anew. -/
theorem C118_stuck (c : Nat) (sched : List (Nat × Bool)) (d : Nat) :
    (loadRun (loadCall LoadState.init c true false) sched).calls d ≠ .done := by
  have h0 : Stuck (loadCall LoadState.init c true false) := by
    refine ⟨0, ?_, ?_, fun e => ?_⟩
    · simp [loadCall, loadRun, loadStep, LoadState.init, LoadState.move]
    · simp [loadCall, loadRun, loadStep, LoadState.init, LoadState.move]
    · by_cases he : e = c <;> simp [loadCall, loadRun, loadStep, LoadState.init, LoadState.move, he, Spec.Over]
  have h1 : ∀ e, (loadCall LoadState.init c true false).calls e ≠ .done := by
    intro e
    by_cases he : e = c <;> simp [loadCall, loadRun, loadStep, LoadState.init, LoadState.move, he]
  have := loadRun_invariant (P := fun s => Stuck s ∧ ∀ e, s.calls e ≠ .done)
    (fun s a ok h => ⟨(stuck_step h.1 a ok).1, fun e => (stuck_step h.1 a ok).2 e (h.2 e)⟩) ⟨h0, h1⟩ sched
  exact this.2 d

/-- **C118 (failed reading).** The first call of a process whose reading of the file fails raises ValueError there and then; nothing
that other calls do before it would have gone on can change that, and the file counts as not read. -/
theorem C118_failed_reading {s : LoadState} {c : Nat} (hg : s.global = none) (hs : s.calls c = .start)
    (sched : List (Nat × Bool)) :
    (loadRun s ((c, true) :: (c, true) :: (c, false) :: sched)).calls c = .raised .valueError ∧
      (loadRun s [(c, true), (c, true), (c, false)]).reads = s.reads := by
  have h3 : (loadRun s [(c, true), (c, true), (c, false)]).calls c = .raised .valueError := by
    simp [loadRun, loadStep, LoadState.move, hg, hs]
  refine ⟨?_, by simp [loadRun, loadStep, LoadState.move, hg, hs]⟩
  rw [show (c, true) :: (c, true) :: (c, false) :: sched = [(c, true), (c, true), (c, false)] ++ sched from rfl, loadRun_append]
  refine loadRun_invariant (P := fun s => s.calls c = .raised .valueError) (fun s d ok h => ?_) h3 sched
  by_cases hd : d = c
  · subst hd; simp only [loadStep, h]
  · have hd' : c ≠ d := fun e => hd e.symm
    unfold loadStep
    split
    · simp [LoadState.move, hd', h]
    · split <;> simp [LoadState.move, hd', h]
    · split
      · split <;> simp [LoadState.move, hd', h]
      · simp [LoadState.move, hd', h]
    · split <;> simp [LoadState.move, hd', h]
    · simp [LoadState.move, hd', h]
    · exact h
    · exact h

/-- another call reads the file right after the failure; the first call has raised all the same -/
example : (loadRun LoadState.init [(0, true), (0, true), (0, false), (1, true), (0, true), (0, true)]).calls 0 =
    .raised .valueError := (C118_failed_reading rfl rfl _).1

/-- a failed constructor does no harm: the next call loads the model -/
theorem C118_constructor_retry (c d : Nat) (h : d ≠ c) :
    (loadCall (loadCall LoadState.init c false true) d true true).calls d = .done := by
  simp [loadCall, loadRun, loadStep, LoadState.init, LoadState.move, h]

example : (loadCall (loadCall LoadState.init 0 false true) 1 true true).calls 1 = .done := C118_constructor_retry 0 1 (by decide)

/-! ## calls in several threads -/

/-- **C118 (threads), refuted.** Of two calls made at the same time, one may get the classifier before the other
has read the file into it, and raises although nothing fails. -/
theorem C118_threads_refuted :
    ¬ ∀ sched, Spec.NoFailure sched → ∀ c e, (loadRun LoadState.init sched).calls c ≠ .raised e := by
  intro h
  exact h [(0, true), (0, true), (1, true), (1, true), (1, true)] (by unfold Spec.NoFailure; decide) 1 .valueError
    (by decide +kernel)

/-- **C118 (threads).** Once one call has completed with no other in progress, any calls in any number of threads and any
schedule use the loaded model: none of them raises, those that finish have used it, and the file is not read again, even
if it has become unreadable. -/
theorem C118_threads_partial {s : LoadState} (hr : Spec.Ready s) (hidle : ∀ c, Spec.Idle (s.calls c))
    (sched : List (Nat × Bool)) :
    Spec.Ready (loadRun s sched) ∧ (loadRun s sched).reads = s.reads ∧ (loadRun s sched).made = s.made ∧
      ∀ c, s.calls c = .start → ∀ e, (loadRun s sched).calls c ≠ .raised e := by
  obtain ⟨g, hg, hl⟩ := hr
  have hw : Warm s := ⟨g, hg, hl, fun c => by
    rcases hidle c with h | h
    · exact Or.inl h
    · exact Or.inr (Or.inr (Or.inr h))⟩
  obtain ⟨-, b2, b3, b4, b5, b6⟩ := warm_run hw sched
  exact ⟨⟨g, by rw [b2, hg], by rw [b3, hl]⟩, b5, b4, fun c hc => b6 c (by simp [hc])⟩

/-- a call that gets its three steps (test, fetch, predict), in whatever schedule, finishes -/
theorem C118_threads_finish {s : LoadState} (hr : Spec.Ready s) (hidle : ∀ c, Spec.Idle (s.calls c))
    {sched : List (Nat × Bool)} {c : Nat} (hc : s.calls c = .start) (hn : 3 ≤ (sched.map Prod.fst).count c) :
    (loadRun s sched).calls c = .done := by
  obtain ⟨g, hg, hl⟩ := hr
  have hw : Warm s := ⟨g, hg, hl, fun c => by
    rcases hidle c with h | h
    · exact Or.inl h
    · exact Or.inr (Or.inr (Or.inr h))⟩
  -- the steps a call still needs
  have main : ∀ (l : List (Nat × Bool)) (s : LoadState), Warm s → s.global = some g → s.loaded g = true →
      (s.calls c = .start ∧ 3 ≤ (l.map Prod.fst).count c ∨ s.calls c = .fetch ∧ 2 ≤ (l.map Prod.fst).count c ∨
        s.calls c = .predict g ∧ 1 ≤ (l.map Prod.fst).count c ∨ s.calls c = .done) →
      (loadRun s l).calls c = .done := by
    intro l
    induction l with
    | nil =>
      intro s _ _ _ h
      rw [loadRun_nil]
      simpa using h
    | cons x l ih =>
      intro s hw hg hl h
      rw [loadRun_cons]
      obtain ⟨a1, a2, a3, -⟩ := warm_step hw x.1 x.2
      refine ih _ a1 (a2.trans hg) (by rw [a3]; exact hl) ?_
      by_cases hx : x.1 = c
      · rw [List.map_cons, hx, List.count_cons_self] at h
        rw [hx]
        rcases h with ⟨h, hn⟩ | ⟨h, hn⟩ | ⟨h, hn⟩ | h
        · right; left
          exact ⟨by simp [loadStep, h, hg, LoadState.move], by omega⟩
        · right; right; left
          exact ⟨by simp [loadStep, h, hg, LoadState.move], by omega⟩
        · right; right; right
          simp [loadStep, h, hl, LoadState.move]
        · right; right; right
          simp [loadStep, h]
      · rw [List.map_cons, List.count_cons_of_ne hx] at h
        have hsame : (loadStep s x.1 x.2).calls c = s.calls c := by
          have hx' : ¬ c = x.1 := fun h => hx h.symm
          unfold loadStep LoadState.move
          split <;> (try split) <;> (try split) <;> simp [hx']
        rw [hsame]
        exact h
  exact main sched s hw hg hl (Or.inl ⟨hc, hn⟩)

/-- a warm start after one call, then two threads in turns -/
example : (loadRun (loadCall LoadState.init 7 true true)
    [(0, true), (1, false), (0, true), (1, false), (1, false), (0, true)]).calls 1 = .done :=
  C118_threads_finish ⟨0, by decide +kernel, by decide +kernel⟩
    (fun c => by by_cases h : c = 7 <;> simp [loadCall, loadRun, loadStep, LoadState.init, LoadState.move, h,
      Spec.Idle, Spec.Over])
    (by decide +kernel) (by decide)

/-- **C118 (threads, settled).** Whatever the schedule, when nothing has failed and all calls that began are over, the model is
ready: the calls that raised have done no lasting harm. -/
theorem C118_settles {sched : List (Nat × Bool)} (hok : Spec.NoFailure sched)
    (hidle : ∀ c, Spec.Idle ((loadRun LoadState.init sched).calls c))
    (hsome : ∃ c, Spec.Over ((loadRun LoadState.init sched).calls c)) :
    Spec.Ready (loadRun LoadState.init sched) := by
  have main : ∀ (l : List (Nat × Bool)) (s : LoadState), Spec.NoFailure l →
      (s.global = none ∨ Spec.Ready s ∨ ∃ c, s.calls c = .load) →
      ((loadRun s l).global = none ∨ Spec.Ready (loadRun s l) ∨ ∃ c, (loadRun s l).calls c = .load) := by
    intro l
    induction l with
    | nil => intro s _ h; exact h
    | cons x l ih =>
      intro s hok h
      rw [loadRun_cons]
      refine ih _ (fun y hy => hok y (by simp [hy])) ?_
      have hx : x.2 = true := hok x (by simp)
      rw [hx]
      generalize x.1 = c
      unfold loadStep
      split
      · rcases h with h | h | ⟨d, h⟩
        · exact Or.inl h
        · exact Or.inr (Or.inl h)
        · right; right
          refine ⟨d, ?_⟩
          unfold LoadState.move
          simp only
          rw [if_neg (by rintro rfl; simp_all), h]
      · rw [if_pos rfl]
        right; right
        exact ⟨c, by simp [LoadState.move]⟩
      · rename_i hc
        split
        · rename_i g hg
          rw [if_pos rfl]
          right; left
          exact ⟨g, hg, by simp⟩
        · rename_i hg
          exact Or.inl hg
      · split
        · rename_i g hg
          rcases h with h | h | ⟨d, h⟩
          · exact Or.inl h
          · exact Or.inr (Or.inl h)
          · right; right
            refine ⟨d, ?_⟩
            unfold LoadState.move
            simp only
            rw [if_neg (by rintro rfl; simp_all), h]
        · rename_i hg
          exact Or.inl hg
      · rcases h with h | h | ⟨d, h⟩
        · exact Or.inl h
        · exact Or.inr (Or.inl h)
        · right; right
          refine ⟨d, ?_⟩
          unfold LoadState.move
          simp only
          rw [if_neg (by rintro rfl; simp_all), h]
      · exact h
      · exact h
  have none_begun : ∀ (l : List (Nat × Bool)) (s : LoadState), Spec.NoFailure l →
      (s.global = none → ∀ c, s.calls c = .start ∨ s.calls c = .make) →
      (loadRun s l).global = none → ∀ c, (loadRun s l).calls c = .start ∨ (loadRun s l).calls c = .make := by
    intro l
    induction l with
    | nil => intro s _ h; exact h
    | cons x l ih =>
      intro s hok h
      rw [loadRun_cons]
      refine ih _ (fun y hy => hok y (by simp [hy])) ?_
      have hx : x.2 = true := hok x (by simp)
      rw [hx]
      generalize x.1 = c
      intro hg d
      by_cases hs : s.global = none
      · have hd := h hs d
        rcases h hs c with hc | hc
        · simp only [loadStep, hc, hs, if_true, LoadState.move]
          by_cases hdc : d = c
          · simp [hdc]
          · simpa [hdc] using hd
        · simp [loadStep, hc] at hg
      · exfalso
        revert hg
        unfold loadStep LoadState.move
        split <;> (try split) <;> (try split) <;> simp_all
  rcases main sched LoadState.init hok (Or.inl rfl) with h | h | ⟨c, h⟩
  · obtain ⟨c, hc⟩ := hsome
    have := none_begun sched LoadState.init hok (fun _ c => Or.inl rfl) h c
    rcases hc with g | ⟨e, g⟩ <;> rw [g] at this <;> simp at this
  · exact h
  · rcases hidle c with g | g | ⟨e, g⟩ <;> rw [h] at g <;> cases g

/-- the schedule that makes the second call raise, carried on until the first is over -/
example : Spec.Ready (loadRun LoadState.init
    [(0, true), (0, true), (1, true), (1, true), (1, true), (0, true), (0, true), (0, true)]) := by
  refine C118_settles (by unfold Spec.NoFailure; decide) (fun c => ?_) ⟨0, Or.inl (by decide +kernel)⟩
  by_cases h0 : c = 0
  · subst h0; right; left; decide +kernel
  · by_cases h1 : c = 1
    · subst h1; right; right; exact ⟨.valueError, by decide +kernel⟩
    · left; simp [loadRun, loadStep, LoadState.init, LoadState.move, h0, h1]

end Verif.Clip
