import Verif.Model.ClearskyFilter
import Verif.Props.AvailBand
import Verif.Lemmas.Frame

/-! # Property C19, continued (the published limits and the call of the clear-sky detection) -/

namespace Verif
open Spec

/-- **C19 (published limits).** With look-up on an index of `m` minutes the four limits are read from the published tables at
`m`, linearly between 1, 5, 15 and 30 minutes and with the end values outside. -/
theorem C19_published (m : ℚ) (p : ClearskyParams) :
    Verif.Spec.Interpolated [(1, 50), (5, 60), (15, 90), (30, 120)] m (clearskyLookup true (some (m * 60 * 10 ^ 9)) p).window ∧
    Verif.Spec.Interpolated [(1, 60), (5, 65), (15, 75), (30, 90)] m (clearskyLookup true (some (m * 60 * 10 ^ 9)) p).maxDiff ∧
    Verif.Spec.Interpolated [(1, 5 / 1000), (5, 10 / 1000), (15, 32 / 1000), (30, 70 / 1000)] m
      (clearskyLookup true (some (m * 60 * 10 ^ 9)) p).varDiff ∧
    Verif.Spec.Interpolated [(1, 50), (5, 60), (15, 75), (30, 96)] m
      (clearskyLookup true (some (m * 60 * 10 ^ 9)) p).slopeDev := by
  have hm : m * 60 * 10 ^ 9 / 10 ^ 9 / 60 = m := by ring
  have key : ∀ tbl : List (ℚ × ℚ), (tbl.map Prod.fst).Pairwise (· < ·) → tbl ≠ [] →
      Verif.Spec.Interpolated tbl m ((interp1d tbl m).getD 0) := by
    intro tbl h1 h2
    have h3 : ∃ v, interp1d tbl m = some v := by
      clear h1 hm
      induction tbl with
      | nil => exact absurd rfl h2
      | cons a l ih =>
        cases l with
        | nil => exact ⟨_, rfl⟩
        | cons b l =>
          unfold interp1d
          split_ifs
          · exact ⟨_, rfl⟩
          · exact ⟨_, rfl⟩
          · exact ih (by simp)
    obtain ⟨v, hv⟩ := h3
    rw [hv]
    exact interp1d_interpolated h1 hv
  unfold clearskyLookup
  simp only [hm]
  refine ⟨key windowsTable ?_ ?_, key maxDiffTable ?_ ?_, ?_, key slopeDevTable ?_ ?_⟩
  · decide +kernel
  · decide +kernel
  · decide +kernel
  · decide +kernel
  · have := key varDiffTable (by decide +kernel) (by decide +kernel)
    have e : varDiffTable = [(1, 5 / 1000), (5, 10 / 1000), (15, 32 / 1000), (30, 70 / 1000)] := by decide +kernel
    rw [← e]
    exact this
  · decide +kernel
  · decide +kernel

/-- **C19 (call).** The detection sees every timestamp of either series exactly once, in increasing order, with the reading and
the modelled value of that timestamp (missing if that series does not have it); the caller's limits go through unless looked up,
the other three always; components are never requested, whatever the caller passes on. -/
theorem C19_call {measured clearsky : Series} {freqNs : Option ℚ} {p : ClearskyParams} {a b c : ℚ} {lookup : Bool}
    {kwargs : List (String × String)} {d : DetectCall} (hm : (measured.map Prod.fst).Pairwise (· < ·))
    (hc : (clearsky.map Prod.fst).Pairwise (· < ·))
    (h : clearskyCall measured clearsky freqNs p a b c lookup kwargs = .ok d) :
    (d.rows.map Prod.fst).Pairwise (· < ·) ∧
    (∀ t, t ∈ d.rows.map Prod.fst ↔ t ∈ measured.map Prod.fst ∨ t ∈ clearsky.map Prod.fst) ∧
    (∀ t x y, (t, x, y) ∈ d.rows →
      ((∀ v, (t, v) ∈ measured → x = v) ∧ (t ∉ measured.map Prod.fst → x = none)) ∧
      ((∀ v, (t, v) ∈ clearsky → y = v) ∧ (t ∉ clearsky.map Prod.fst → y = none))) ∧
    d.limits = clearskyLookup lookup freqNs p ∧ d.meanDiff = a ∧ d.lowerLine = b ∧ d.upperLine = c ∧
    d.returnComponents = false ∧ ∀ k, k ∈ d.extra ↔ k ∈ kwargs ∧ k.1 ≠ "return_components" := by
  have nd : ∀ {l : List Int}, l.Pairwise (· < ·) → l.Nodup := fun h => h.imp fun h => ne_of_lt h
  have uniq : ∀ {s : Series}, (s.map Prod.fst).Nodup → ∀ {t v w}, (t, v) ∈ s → (t, w) ∈ s → v = w := by
    intro s hs t v w h1 h2
    have := List.inj_on_of_nodup_map hs h1 h2 rfl
    exact (Prod.mk.inj this).2
  unfold clearskyCall at h
  cases hr : concatOuter measured clearsky with
  | error e => rw [hr] at h; cases h
  | ok rows =>
    rw [hr] at h
    simp only [Except.map, Except.ok.injEq] at h
    subst h
    refine ⟨?_, ?_, ?_, rfl, rfl, rfl, rfl, rfl, fun k => by simp [List.mem_filter]⟩
    all_goals
      unfold concatOuter at hr
      by_cases he : measured.map Prod.fst = clearsky.map Prod.fst
    · rw [if_pos he] at hr
      cases hr
      have : (List.zipWith (fun m c => (m.1, m.2, c.2)) measured clearsky).map Prod.fst = measured.map Prod.fst := by
        have hlen : measured.length = clearsky.length := by simpa using congrArg List.length he
        clear he hm hc
        induction measured generalizing clearsky with
        | nil => rfl
        | cons r l ih =>
          cases clearsky with
          | nil => cases hlen
          | cons s l' => simp only [List.zipWith_cons_cons, List.map_cons]; rw [ih (by simpa using hlen)]
      rw [this]; exact hm
    · rw [if_neg he, if_neg (by simp [nd hm, nd hc])] at hr
      cases hr
      rw [List.map_map]
      have : (Prod.fst ∘ fun t => (t, lookupK measured t, lookupK clearsky t)) = (id : Int → Int) := rfl
      rw [this, List.map_id]
      exact sortedUnion_sorted _
    · rw [if_pos he] at hr
      cases hr
      intro t
      have : (List.zipWith (fun m c => (m.1, m.2, c.2)) measured clearsky).map Prod.fst = measured.map Prod.fst := by
        have hlen : measured.length = clearsky.length := by simpa using congrArg List.length he
        clear he hm hc
        induction measured generalizing clearsky with
        | nil => rfl
        | cons r l ih =>
          cases clearsky with
          | nil => cases hlen
          | cons s l' => simp only [List.zipWith_cons_cons, List.map_cons]; rw [ih (by simpa using hlen)]
      rw [this, ← he]
      simp
    · rw [if_neg he, if_neg (by simp [nd hm, nd hc])] at hr
      cases hr
      intro t
      rw [List.map_map]
      have : (Prod.fst ∘ fun t => (t, lookupK measured t, lookupK clearsky t)) = (id : Int → Int) := rfl
      rw [this, List.map_id, mem_sortedUnion, List.mem_append]
    · rw [if_pos he] at hr
      cases hr
      intro t x y hxy
      have hz : (t, x) ∈ measured ∧ (t, y) ∈ clearsky := by
        clear hm hc
        induction measured generalizing clearsky with
        | nil => cases hxy
        | cons r l ih =>
          cases clearsky with
          | nil => cases hxy
          | cons s l' =>
            simp only [List.map_cons, List.cons.injEq] at he
            rcases List.mem_cons.mp hxy with h1 | h1
            · simp only [Prod.mk.injEq] at h1
              obtain ⟨e1, e2, e3⟩ := h1
              refine ⟨List.mem_cons.mpr (Or.inl (Prod.ext e1 e2)), List.mem_cons.mpr (Or.inl (Prod.ext ?_ e3))⟩
              rw [e1, he.1]
            · obtain ⟨h2, h3⟩ := ih he.2 h1
              exact ⟨List.mem_cons_of_mem _ h2, List.mem_cons_of_mem _ h3⟩
      refine ⟨⟨fun v hv => uniq (nd hm) hz.1 hv, fun h1 => ?_⟩, fun v hv => uniq (nd hc) hz.2 hv, fun h1 => ?_⟩
      · exact absurd (List.mem_map.mpr ⟨_, hz.1, rfl⟩) h1
      · exact absurd (List.mem_map.mpr ⟨_, hz.2, rfl⟩) h1
    · rw [if_neg he, if_neg (by simp [nd hm, nd hc])] at hr
      cases hr
      intro t x y hxy
      obtain ⟨u, -, e⟩ := List.mem_map.mp hxy
      simp only [Prod.mk.injEq] at e
      obtain ⟨rfl, rfl, rfl⟩ := e
      refine ⟨⟨fun v hv => lookupK_of_mem (nd hm) hv, fun h1 => lookupK_of_not_mem h1⟩,
        fun v hv => lookupK_of_mem (nd hc) hv, fun h1 => lookupK_of_not_mem h1⟩

/-- two overlapping series, `return_components` requested and refused -/
example : clearskyCall [(0, some 500), (1, none)] [(1, some 700), (2, some 800)] none ⟨90, 75, 32 / 1000, 75⟩ 75 (-5) 10 true
    [("return_components", "True"), ("infer_limits", "False")] =
    .ok ⟨[(0, some 500, none), (1, none, some 700), (2, none, some 800)], ⟨90, 75, 32 / 1000, 75⟩, 75, -5, 10, false,
      [("infer_limits", "False")]⟩ := by decide +kernel

/-- **C19 (duplicates).** Two series on one index, whatever it is, go to the detection row by row; on different indexes, a
repeated timestamp in either is a `ValueError`, and nothing else is. -/
theorem C19_duplicates {measured clearsky : Series} {freqNs : Option ℚ} {p : ClearskyParams} {a b c : ℚ} {lookup : Bool}
    {kwargs : List (String × String)} :
    (measured.map Prod.fst = clearsky.map Prod.fst → ∃ d,
      clearskyCall measured clearsky freqNs p a b c lookup kwargs = .ok d ∧
      d.rows.map (fun r => (r.1, r.2.1)) = measured ∧ d.rows.map (fun r => (r.1, r.2.2)) = clearsky) ∧
    (measured.map Prod.fst ≠ clearsky.map Prod.fst →
      (clearskyCall measured clearsky freqNs p a b c lookup kwargs = .error .valueError ↔
        ¬ ((measured.map Prod.fst).Nodup ∧ (clearsky.map Prod.fst).Nodup)) ∧
      ((measured.map Prod.fst).Nodup ∧ (clearsky.map Prod.fst).Nodup →
        ∃ d, clearskyCall measured clearsky freqNs p a b c lookup kwargs = .ok d)) := by
  unfold clearskyCall concatOuter
  constructor
  · intro he
    rw [if_pos he]
    refine ⟨_, rfl, ?_, ?_⟩
    all_goals
      simp only
      induction measured generalizing clearsky with
      | nil => cases clearsky with
        | nil => rfl
        | cons s l => cases he
      | cons r l ih =>
        cases clearsky with
        | nil => cases he
        | cons s l' =>
          simp only [List.map_cons, List.cons.injEq] at he
          simp only [List.zipWith_cons_cons, List.map_cons]
          rw [ih he.2]
          try rw [he.1]
  · intro he
    rw [if_neg he]
    by_cases h : (measured.map Prod.fst).Nodup ∧ (clearsky.map Prod.fst).Nodup
    · rw [if_neg (by push Not; exact h)]
      refine ⟨⟨fun h' => (by cases h'), fun h' => absurd h h'⟩, fun _ => ⟨_, rfl⟩⟩
    · rw [if_pos (by rw [← not_and_or]; exact h)]
      exact ⟨⟨fun _ => h, fun _ => rfl⟩, fun h' => absurd h' h⟩

/-- a repeated reading is refused on a different index and kept on the same -/
example : clearskyCall [(0, some 5), (0, some 6)] [(1, some 7)] none ⟨90, 75, 32 / 1000, 75⟩ 75 (-5) 10 false [] =
    .error .valueError ∧
    (clearskyCall [(0, some 5), (0, some 6)] [(0, some 7), (0, none)] none ⟨90, 75, 32 / 1000, 75⟩ 75 (-5) 10 false []).map
      DetectCall.rows = .ok [(0, some 5, some 7), (0, some 6, none)] := by decide +kernel

end Verif
