import Verif.Model.Filtering
import Verif.Lemmas.Filtering
import Verif.Lemmas.Quantile

/-! # Property C103 (the outlier filters keep exactly the documented points) -/

namespace Verif
open Spec

/-! ## Specification -/

/-- the present values of the rows whose time satisfies `P` -/
def Spec.presentWhere (P : Int → Prop) [DecidablePred P] : List (Int × Cell) → List ℚ
  | [] => []
  | (u, some x) :: l => if P u then x :: presentWhere P l else presentWhere P l
  | (_, none) :: l => presentWhere P l

/-- `dev` lists, row by row, the deviation of the reading from the median `med t` that its window has: missing for missing
readings and for windows without a median -/
def Spec.Deviations (f : ℚ → ℚ → ℚ) (med : Int → ℚ → Prop) (s : List (Int × Cell)) (dev : List Cell) : Prop :=
  dev.length = s.length ∧
  ∀ (i : Nat) (t : Int) (c : Cell), s[i]? = some (t, c) →
    (∀ x m, c = some x → med t m → dev[i]? = some (some (f x m))) ∧
    ((c = none ∨ ∀ m, ¬ med t m) → dev[i]? = some none)

/-- median of the present readings in `(t - k/2, t + k/2]` -/
def Spec.CenteredMedian (s : List (Int × Cell)) (k : ℚ) (t : Int) (m : ℚ) : Prop :=
  IsMedian (presentWhere (fun u => (t : ℚ) - k / 2 < u ∧ (u : ℚ) ≤ t + k / 2) s) m

/-- median of the present readings in `[t - P, t]`, if there are at least five -/
def Spec.PastMedian (s : List (Int × Cell)) (P t : Int) (m : ℚ) : Prop :=
  5 ≤ (presentWhere (fun u => t - P ≤ u ∧ u ≤ t) s).length ∧ IsMedian (presentWhere (fun u => t - P ≤ u ∧ u ≤ t) s) m

/-- median of the present readings in `[t, t + P]`, if there are at least five -/
def Spec.FutureMedian (s : List (Int × Cell)) (P t : Int) (m : ℚ) : Prop :=
  5 ≤ (presentWhere (fun u => t ≤ u ∧ u ≤ t + P) s).length ∧ IsMedian (presentWhere (fun u => t ≤ u ∧ u ≤ t + P) s) m

/-- `d` lies strictly between the fences of the deviations -/
def Spec.InsideFences (k : ℚ) (dev : List Cell) (d : ℚ) : Prop :=
  ∃ q1 q3, IsQuantile (dev.filterMap id) (1 / 4) q1 ∧ IsQuantile (dev.filterMap id) (3 / 4) q3 ∧
    q1 - 3 / 2 * (q3 - q1) < d ∧ d < q3 + k * (q3 - q1)

/-! ## Lemmas -/

theorem presentWhere_eq (P : Int → Prop) [DecidablePred P] (w : Int → Bool) (hw : ∀ u, w u = true ↔ P u)
    (s : List (Int × Cell)) : presentWhere P s = valids ((s.filter fun u => w u.1).map Prod.snd) := by
  induction s with
  | nil => rfl
  | cons r l ih =>
    obtain ⟨u, c⟩ := r
    cases c with
    | none =>
      unfold presentWhere
      rw [ih]
      by_cases h : w u = true
      · rw [List.filter_cons_of_pos (by simpa using h)]; rfl
      · rw [List.filter_cons_of_neg (by simpa using h)]
    | some x =>
      unfold presentWhere
      by_cases h : w u = true
      · rw [if_pos ((hw u).mp h), List.filter_cons_of_pos (by simpa using h), ih]; rfl
      · rw [if_neg (fun hp => h ((hw u).mpr hp)), List.filter_cons_of_neg (by simpa using h), ih]

theorem rollMedian_getElem? (win : Int → Int → Bool) (minP : Nat) (s : Series) (i : Nat) :
    (rollMedian win minP s)[i]? = (s[i]?).map fun r =>
      if (valids ((s.filter fun u => win r.1 u.1).map Prod.snd)).length < minP then none
      else median (valids ((s.filter fun u => win r.1 u.1).map Prod.snd)) := by
  unfold rollMedian
  rw [List.getElem?_map]

/-- deviations from rolling medians, for windows and numbers of values given by a specification `med` -/
theorem deviations_of {f : ℚ → ℚ → ℚ} {med : Int → ℚ → Prop} {s : Series} {ms : List Cell}
    (hlen : ms.length = s.length)
    (hm : ∀ (i : Nat) t c, s[i]? = some (t, c) → (∀ m, med t m ↔ ms[i]? = some (some m))) :
    Deviations f med s (List.zipWith (cellOp f) (s.map Prod.snd) ms) := by
  refine ⟨by simp [hlen], fun i t c hi => ?_⟩
  have hlt : i < ms.length := by
    rw [hlen]
    exact (List.getElem?_eq_some_iff.mp hi).1
  have hz : (List.zipWith (cellOp f) (s.map Prod.snd) ms)[i]? = some (cellOp f c ms[i]) := by
    rw [List.getElem?_zipWith, List.getElem?_map, hi, List.getElem?_eq_getElem hlt]
    rfl
  rw [hz]
  refine ⟨fun x m hc hmed => ?_, fun h => ?_⟩
  · have := (hm i t c hi m).mp hmed
    rw [List.getElem?_eq_getElem hlt, Option.some.injEq] at this
    rw [hc, this]
    rfl
  · rcases h with rfl | h
    · rfl
    · cases hc : ms[i] with
      | none => cases c <;> rfl
      | some m =>
        exact absurd ((hm i t c hi m).mpr (by rw [List.getElem?_eq_getElem hlt, hc])) (h m)

theorem rollMedian_length (win : Int → Int → Bool) (minP : Nat) (s : Series) : (rollMedian win minP s).length = s.length := by
  simp [rollMedian]

/-- rolling medians in terms of a window specification -/
theorem rollMedian_spec {win : Int → Int → Bool} {minP : Nat} {s : Series} {P : Int → Int → Prop}
    [∀ t, DecidablePred (P t)] (hP : ∀ t u, win t u = true ↔ P t u) (i : Nat) (t : Int) (c : Cell)
    (hi : s[i]? = some (t, c)) (m : ℚ) :
    (minP ≤ (presentWhere (P t) s).length ∧ IsMedian (presentWhere (P t) s) m) ↔
      (rollMedian win minP s)[i]? = some (some m) := by
  rw [rollMedian_getElem?, hi, Option.map_some, presentWhere_eq (P t) (win t) (hP t), isMedian_iff]
  simp only
  by_cases h : (valids ((s.filter fun u => win t u.1).map Prod.snd)).length < minP
  · rw [if_pos h]
    constructor
    · rintro ⟨h1, -⟩; omega
    · intro h1; cases h1
  · rw [if_neg h, Option.some.injEq]
    exact ⟨fun h1 => h1.2, fun h1 => ⟨by omega, h1⟩⟩

theorem isMedian_ne_nil {l : List ℚ} {m : ℚ} (h : IsMedian l m) : 1 ≤ l.length := by
  rw [isMedian_iff] at h
  unfold median at h
  have := (quantile_eq_some h).1
  exact List.length_pos_iff.mpr this

theorem cellCmp_le_iff {a b : Cell} : cellCmp (fun x y => decide (x ≤ y)) a b = true ↔
    ∃ x y, a = some x ∧ b = some y ∧ x ≤ y := by
  cases a <;> cases b <;> simp [cellCmp]

/-! ## Theorems -/

/-- **C103 (hampel_filter).** A reading is kept iff it is present and its distance to the median of the readings around it is at
most `t0` times 1.4826 times the median of these distances over the same window. -/
theorem C103_hampel (s : Series) (k t0 : ℚ) :
    ∃ dev, Deviations (fun x m => |m - x|) (CenteredMedian s k) s dev ∧ (hampelFilter s k t0).length = s.length ∧
      ∀ (i : Nat) (t : Int) (c : Cell), s[i]? = some (t, c) →
        ((hampelFilter s k t0)[i]? = some true ↔
          ∃ d mad, dev[i]? = some (some d) ∧ CenteredMedian ((s.map Prod.fst).zip dev) k t mad ∧
            d ≤ t0 * (14826 / 10000) * mad) := by
  have hw : ∀ t u : Int, centerWin k t u = true ↔ ((t : ℚ) - k / 2 < u ∧ (u : ℚ) ≤ t + k / 2) := by
    intro t u; unfold centerWin; rw [decide_eq_true_eq]
  have hmed : ∀ (s : Series) (i : Nat) (t : Int) (c : Cell), s[i]? = some (t, c) → ∀ m, CenteredMedian s k t m ↔
      (rollMedian (centerWin k) 1 s)[i]? = some (some m) := by
    intro s i t c hi m
    rw [← rollMedian_spec hw i t c hi m]
    unfold CenteredMedian
    exact ⟨fun h => ⟨isMedian_ne_nil h, h⟩, fun h => h.2⟩
  have hdif : List.zipWith (cellOp fun x y => |x - y|) (rollMedian (centerWin k) 1 s) (s.map Prod.snd) =
      List.zipWith (cellOp fun x m => |m - x|) (s.map Prod.snd) (rollMedian (centerWin k) 1 s) := by
    rw [List.zipWith_comm]
    congr 1
    funext a b
    cases a <;> cases b <;> rfl
  have hdev := deviations_of (f := fun x m => |m - x|) (rollMedian_length (centerWin k) 1 s) (hmed s)
  refine ⟨_, hdev, ?_, fun i t c hi => ?_⟩
  · unfold hampelFilter
    simp [rollMedian_length]
  · unfold hampelFilter
    simp only
    rw [hdif]
    generalize hD : List.zipWith (cellOp fun x m => |m - x|) (s.map Prod.snd) (rollMedian (centerWin k) 1 s) = dev at hdev
    have hlen := hdev.1
    have hlt : i < s.length := (List.getElem?_eq_some_iff.mp hi).1
    have hlt' : i < dev.length := by omega
    have hi' : ((s.map Prod.fst).zip dev)[i]? = some (t, dev[i]) := by
      rw [List.getElem?_zip_eq_some]
      exact ⟨by rw [List.getElem?_map, hi]; rfl, List.getElem?_eq_getElem hlt'⟩
    rw [List.getElem?_zipWith, List.getElem?_map, List.getElem?_eq_getElem hlt']
    have hml : i < (rollMedian (centerWin k) 1 ((s.map Prod.fst).zip dev)).length := by
      rw [rollMedian_length]; simp; omega
    have hmm := hmed _ i t _ hi'
    rw [List.getElem?_eq_getElem hml] at hmm ⊢
    simp only [Option.map_some, Option.some.injEq]
    rw [cellCmp_le_iff]
    constructor
    · rintro ⟨x, y, hx, hy, hle⟩
      obtain ⟨mad, hmad, rfl⟩ := Option.map_eq_some_iff.mp hy
      exact ⟨x, mad, hx, (hmm mad).mpr (by rw [hmad]), hle⟩
    · rintro ⟨d, mad, hd, hmad, hle⟩
      refine ⟨d, t0 * (14826 / 10000) * mad, hd, ?_, hle⟩
      rw [Option.some.inj ((hmm mad).mp hmad)]
      rfl

theorem inside_iff {k d : ℚ} {dev : List Cell} :
    (cellCmp (fun a b => decide (a > b)) (some d) (tukeyFence dev k).1 &&
      cellCmp (fun a b => decide (a < b)) (some d) (tukeyFence dev k).2) = true ↔ InsideFences k dev d := by
  unfold tukeyFence InsideFences
  have hv : valids dev = dev.filterMap id := rfl
  rw [hv]
  constructor
  · intro h
    cases h1 : quantile (dev.filterMap id) (1 / 4) with
    | none => rw [h1] at h; simp [cellOp, cellCmp] at h
    | some q1 =>
      cases h3 : quantile (dev.filterMap id) (3 / 4) with
      | none => rw [h1, h3] at h; simp [cellOp, cellCmp] at h
      | some q3 =>
        rw [h1, h3] at h
        simp only [cellOp, cellCmp, Bool.and_eq_true, decide_eq_true_eq] at h
        exact ⟨q1, q3, (isQuantile_iff (by norm_num) (by norm_num)).mpr h1,
          (isQuantile_iff (by norm_num) (by norm_num)).mpr h3, by linarith [h.1], by linarith [h.2]⟩
  · rintro ⟨q1, q3, h1, h3, ha, hb⟩
    rw [(isQuantile_iff (by norm_num) (by norm_num)).mp h1, (isQuantile_iff (by norm_num) (by norm_num)).mp h3]
    simp only [cellOp, cellCmp, Bool.and_eq_true, decide_eq_true_eq]
    exact ⟨by linarith, by linarith⟩

theorem inside_none {k : ℚ} {dev : List Cell} :
    (cellCmp (fun a b => decide (a > b)) none (tukeyFence dev k).1 &&
      cellCmp (fun a b => decide (a < b)) none (tukeyFence dev k).2) = false := by
  simp [cellCmp]

/-- **C103 (directional_tukey_filter).** A reading is kept iff it is present and its deviation from the median of the window
after it lies strictly between the Tukey fences of all such deviations, or the same holds for the windows before; a window needs
five present readings. -/
theorem C103_tukey (s : Series) (P : Int) (k : ℚ) :
    ∃ past future, Deviations (fun x m => x - m) (PastMedian s P) s past ∧
      Deviations (fun x m => x - m) (FutureMedian s P) s future ∧ (directionalTukeyFilter s P k).length = s.length ∧
      ∀ (i : Nat) (t : Int) (c : Cell), s[i]? = some (t, c) →
        ((directionalTukeyFilter s P k)[i]? = some true ↔
          (∃ d, future[i]? = some (some d) ∧ InsideFences k future d) ∨
          (∃ d, past[i]? = some (some d) ∧ InsideFences k past d)) := by
  have hb : ∀ t u : Int, backWin P t u = true ↔ (t - P ≤ u ∧ u ≤ t) := by
    intro t u; unfold backWin; rw [decide_eq_true_eq]
  have hf : ∀ t u : Int, fwdWin P t u = true ↔ (t ≤ u ∧ u ≤ t + P) := by
    intro t u; unfold fwdWin; rw [decide_eq_true_eq]
  have hback := deviations_of (f := fun x m => x - m) (med := PastMedian s P) (rollMedian_length (backWin P) 5 s)
    (fun i t c hi m => rollMedian_spec hb i t c hi m)
  have hfwd := deviations_of (f := fun x m => x - m) (med := FutureMedian s P) (rollMedian_length (fwdWin P) 5 s)
    (fun i t c hi m => rollMedian_spec hf i t c hi m)
  refine ⟨_, _, hback, hfwd, ?_, fun i t c hi => ?_⟩
  · unfold directionalTukeyFilter
    simp [rollMedian_length]
  · unfold directionalTukeyFilter
    simp only
    generalize List.zipWith (cellOp fun x m => x - m) (s.map Prod.snd) (rollMedian (backWin P) 5 s) = past at hback
    generalize List.zipWith (cellOp fun x m => x - m) (s.map Prod.snd) (rollMedian (fwdWin P) 5 s) = future at hfwd
    have hlt : i < s.length := (List.getElem?_eq_some_iff.mp hi).1
    have l1 : i < past.length := by have := hback.1; omega
    have l2 : i < future.length := by have := hfwd.1; omega
    rw [List.getElem?_zipWith, List.getElem?_eq_getElem l1, List.getElem?_eq_getElem l2]
    simp only [Option.some.injEq, Bool.or_eq_true]
    have key : ∀ (dev : List Cell) (x : Cell),
        (cellCmp (fun a b => decide (a > b)) x (tukeyFence dev k).1 &&
          cellCmp (fun a b => decide (a < b)) x (tukeyFence dev k).2) = true ↔
        ∃ d, x = some d ∧ InsideFences k dev d := by
      intro dev x
      cases x with
      | none =>
        rw [inside_none]
        constructor
        · intro h; cases h
        · rintro ⟨d, h, -⟩; cases h
      | some d =>
        rw [inside_iff]
        constructor
        · intro h; exact ⟨d, rfl, h⟩
        · rintro ⟨d', h, h'⟩; cases h; exact h'
    rw [key, key]

/-! ## Examples -/

/-- seven readings with one outlier and one gap, one per day -/
def exOutlier : Series :=
  [(0, some 10), (1, some 11), (2, some 10), (3, some 50), (4, some 12), (5, none), (6, some 11), (7, some 10)]

example : hampelFilter exOutlier 6 3 = [true, true, true, false, true, false, true, true] := by decide +kernel
/-- distances 5, 1, 0, 1, 4 to the median 5, against 1.4826 times their median 1 -/
example : hampelFilter [(0, some 0), (1, some 4), (2, some 5), (3, some 6), (4, some 9)] 100 1 =
    [false, true, true, true, false] := by decide +kernel
example : directionalTukeyFilter exOutlier 6 (3 / 2) = [true, true, true, false, true, false, true, true] := by decide +kernel

end Verif
