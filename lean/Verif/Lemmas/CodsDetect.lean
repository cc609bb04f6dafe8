import Verif.Model.CodsEvents
import Verif.Lemmas.Percentile
import Verif.Lemmas.SrrDaily

/-! # Lemmas about the detection of events -/

namespace Verif.Cods

open Verif

/-! ### Number of values beyond a quantile -/

theorem filter_le_length {s : List ℚ} (hs : s.Pairwise (· ≤ ·)) {k : Nat} (hk : k < s.length) {v : ℚ}
    (hv : s.getD k 0 ≤ v) : (s.filter fun x => v < x).length ≤ s.length - 1 - k := by
  have h1 : (s.take (k + 1)).filter (fun x => v < x) = [] := by
    rw [List.filter_eq_nil_iff]
    intro x hx
    obtain ⟨i, hi, rfl⟩ := List.mem_iff_getElem.mp hx
    rw [List.length_take] at hi
    rw [List.getElem_take]
    have := getD_mono hs (i := i) (j := k) (by omega) hk
    rw [List.getD_eq_getElem?_getD, List.getElem?_eq_getElem (by omega), Option.getD_some] at this
    simp only [decide_eq_true_eq, not_lt]
    exact this.trans hv
  have h2 : s.filter (fun x => v < x) = (s.drop (k + 1)).filter (fun x => v < x) := by
    conv_lhs => rw [← List.take_append_drop (k + 1) s]
    rw [List.filter_append, h1, List.nil_append]
  rw [h2]
  refine (List.length_filter_le _ _).trans ?_
  rw [List.length_drop]; omega

/-- at most a quarter of the values, rounded up, exceed the upper quartile -/
theorem count_gt_quartile {l : List ℚ} {v : ℚ} (h : quantile l (3 / 4) = some v) :
    4 * (l.filter fun x => v < x).length ≤ l.length + 2 := by
  obtain ⟨hne, hv⟩ := quantile_eq_some h
  have hpos := sortQ_length_pos hne
  obtain ⟨a1, a2, a3, a4⟩ := quantile_index hpos (q := 3 / 4) (by norm_num) (by norm_num)
  have hb := quantileSorted_between (sortQ_pairwise l) hpos (q := 3 / 4) (by norm_num) (by norm_num)
  rw [← hv] at hb
  generalize hk : ⌊3 / 4 * (((sortQ l).length : ℚ) - 1)⌋.toNat = k at *
  have h1 := filter_le_length (sortQ_pairwise l) a3 hb.1
  have h2 : (l.filter fun x => v < x).length = ((sortQ l).filter fun x => v < x).length :=
    ((sortQ_perm l).filter _).length_eq.symm
  rw [h2]
  rw [sortQ_length] at *
  have h3 : (3 : ℚ) * l.length < 4 * k + 7 := by linarith
  have h4 : 3 * l.length < 4 * k + 7 := by exact_mod_cast h3
  omega

/-! ### Affine changes of the input -/

/-- a cell changed by a function -/
def mapC (f : ℚ → ℚ) (x : List Cell) : List Cell := x.map (Option.map f)

theorem length_mapC (f : ℚ → ℚ) (x : List Cell) : (mapC f x).length = x.length := List.length_map _

theorem cellAt_mapC (f : ℚ → ℚ) (x : List Cell) (i : Nat) : cellAt (mapC f x) i = (cellAt x i).map f := by
  unfold cellAt mapC
  rw [List.getElem?_map]
  cases x[i]? with
  | none => rfl
  | some c => rfl

theorem valids_mapC (f : ℚ → ℚ) (x : List Cell) : valids (mapC f x) = (valids x).map f := by
  unfold valids mapC
  induction x with
  | nil => rfl
  | cons c l ih =>
    cases c with
    | none => exact ih
    | some a => exact congrArg (f a :: ·) ih

theorem ffillFrom_mapC (f : ℚ → ℚ) (p : Cell) (x : List Cell) :
    ffillFrom (p.map f) (mapC f x) = mapC f (ffillFrom p x) := by
  induction x generalizing p with
  | nil => rfl
  | cons c l ih =>
    cases c with
    | none => simp only [mapC, List.map_cons, Option.map_none, ffillFrom] at ih ⊢; rw [ih]
    | some a =>
      have := ih (some a)
      simp only [mapC, List.map_cons, Option.map_some, ffillFrom] at this ⊢; rw [this]

theorem ffill_mapC (f : ℚ → ℚ) (x : List Cell) : ffill (mapC f x) = mapC f (ffill x) := ffillFrom_mapC f none x

theorem bfill_mapC (f : ℚ → ℚ) (x : List Cell) : bfill (mapC f x) = mapC f (bfill x) := by
  induction x with
  | nil => rfl
  | cons c l ih =>
    cases c with
    | none =>
      simp only [mapC, List.map_cons, Option.map_none, bfill] at ih ⊢
      rw [ih]
      congr 1
      cases bfill l with
      | nil => rfl
      | cons d m => rfl
    | some a => simp only [mapC, List.map_cons, Option.map_some, bfill] at ih ⊢; rw [ih]

theorem rollMedianC_affine {a : ℚ} (ha : 0 < a) (b : ℚ) (w : Nat) (x : List Cell) :
    rollMedianC w (mapC (fun v => a * v + b) x) = mapC (fun v => a * v + b) (rollMedianC w x) := by
  unfold rollMedianC
  rw [length_mapC]
  conv_rhs => unfold mapC
  rw [List.map_map]
  apply List.map_congr_left
  intro i _
  simp only [Function.comp]
  have e : ((List.range w).map fun k : Nat => cellAt (mapC (fun v => a * v + b) x) (i - w / 2 + k)) =
      mapC (fun v => a * v + b) ((List.range w).map fun k : Nat => cellAt x (i - w / 2 + k)) := by
    conv_rhs => unfold mapC
    rw [List.map_map]
    apply List.map_congr_left
    intro k _
    rw [cellAt_mapC]; rfl
  rw [e]
  generalize ((List.range w).map fun k : Nat => cellAt x (i - w / 2 + k)) = win
  have e2 : (mapC (fun v => a * v + b) win).all Option.isSome = win.all Option.isSome := by
    unfold mapC
    rw [List.all_map]
    congr 1
    funext c
    cases c <;> rfl
  rw [e2]
  split_ifs with h
  · rw [valids_mapC]
    unfold median
    exact quantile_affine ha b (by norm_num) (by norm_num)
  · rfl

theorem cellDiff_affine (a b : ℚ) (x : List Cell) :
    cellDiff (mapC (fun v => a * v + b) x) = mapC (fun v => a * v) (cellDiff x) := by
  unfold cellDiff
  rw [length_mapC]
  conv_rhs => unfold mapC
  rw [List.map_map]
  apply List.map_congr_left
  intro i _
  simp only [Function.comp]
  split_ifs
  · rfl
  · rw [cellAt_mapC, cellAt_mapC]
    cases cellAt x i <;> cases cellAt x (i - 1) <;> simp [cellOp]
    ring

theorem cellAbs_scale {a : ℚ} (ha : 0 < a) (x : List Cell) :
    cellAbs (mapC (fun v => a * v) x) = mapC (fun v => a * v) (cellAbs x) := by
  unfold cellAbs mapC
  rw [List.map_map, List.map_map]
  apply List.map_congr_left
  intro c _
  cases c with
  | none => rfl
  | some v => simp [abs_mul, abs_of_pos ha]

theorem cellQuantile_scale {a : ℚ} (ha : 0 < a) (x : List Cell) {q : ℚ} (h0 : 0 ≤ q) (h1 : q ≤ 1) :
    cellQuantile (mapC (fun v => a * v) x) q = (cellQuantile x q).map fun v => a * v := by
  unfold cellQuantile
  rw [valids_mapC]
  exact quantile_smul ha h0 h1

theorem filledMedian_affine {a : ℚ} (ha : 0 < a) (b : ℚ) (fwd : Bool) (w : Nat) (y : List Cell) :
    filledMedian fwd w (mapC (fun v => a * v + b) y) = mapC (fun v => a * v + b) (filledMedian fwd w y) := by
  unfold filledMedian
  cases fwd
  · rw [if_neg (by simp), if_neg (by simp), bfill_mapC, rollMedianC_affine ha]
  · rw [if_pos rfl, if_pos rfl, ffill_mapC, rollMedianC_affine ha]

/-! ### Constant signals -/

theorem cellDiff_mem {x : List Cell} {d : ℚ} (h : some d ∈ cellDiff x) :
    ∃ i, 0 < i ∧ i < x.length ∧ ∃ u v, cellAt x i = some u ∧ cellAt x (i - 1) = some v ∧ d = u - v := by
  unfold cellDiff at h
  obtain ⟨i, hi, e⟩ := List.mem_map.mp h
  have hi := List.mem_range.mp hi
  split_ifs at e with h0
  refine ⟨i, by omega, hi, ?_⟩
  cases hu : cellAt x i <;> cases hv : cellAt x (i - 1) <;> rw [hu, hv] at e <;> simp [cellOp] at e
  exact ⟨_, _, rfl, rfl, e.symm⟩

theorem ffillFrom_const {p : Cell} {c : ℚ} {x : List Cell} (hp : ∀ v, p = some v → v = c)
    (h : ∀ v, some v ∈ x → v = c) : ∀ v, some v ∈ ffillFrom p x → v = c := by
  induction x generalizing p with
  | nil => intro v hv; cases hv
  | cons d l ih =>
    intro v hv
    cases d with
    | none =>
      rcases List.mem_cons.mp hv with e | e
      · exact hp v e.symm
      · exact ih hp (fun u hu => h u (List.mem_cons_of_mem _ hu)) v e
    | some a =>
      rcases List.mem_cons.mp hv with e | e
      · cases e; exact h _ List.mem_cons_self
      · refine ih (p := some a) ?_ (fun u hu => h u (List.mem_cons_of_mem _ hu)) v e
        intro u hu; cases hu; exact h _ List.mem_cons_self

theorem bfill_const {c : ℚ} {x : List Cell} (h : ∀ v, some v ∈ x → v = c) : ∀ v, some v ∈ bfill x → v = c := by
  induction x with
  | nil => intro v hv; cases hv
  | cons d l ih =>
    have ih := ih (fun u hu => h u (List.mem_cons_of_mem _ hu))
    intro v hv
    cases d with
    | none =>
      rcases List.mem_cons.mp hv with e | e
      · apply ih v
        cases hb : bfill l with
        | nil => rw [hb] at e; cases e
        | cons a m =>
          rw [hb] at e
          simp only [List.head?_cons, Option.join_some] at e
          rw [e]; exact List.mem_cons_self
      · exact ih v e
    | some a =>
      rcases List.mem_cons.mp hv with e | e
      · cases e; exact h _ List.mem_cons_self
      · exact ih v e

theorem cellAt_mem {x : List Cell} {i : Nat} {v : ℚ} (h : cellAt x i = some v) : some v ∈ x := by
  unfold cellAt at h
  cases hx : x[i]? with
  | none => rw [hx] at h; cases h
  | some c =>
    rw [hx] at h
    simp only [Option.join_some] at h
    subst h
    exact List.mem_of_getElem? hx

theorem rollMedianC_range {lo hi : ℚ} {w : Nat} {x : List Cell} (h : ∀ v, some v ∈ x → lo ≤ v ∧ v ≤ hi) :
    ∀ v, some v ∈ rollMedianC w x → lo ≤ v ∧ v ≤ hi := by
  intro v hv
  unfold rollMedianC at hv
  obtain ⟨i, -, e⟩ := List.mem_map.mp hv
  simp only at e
  split_ifs at e
  have hall : ∀ u ∈ valids ((List.range w).map fun k : Nat => cellAt x (i - w / 2 + k)), lo ≤ u ∧ u ≤ hi := by
    intro u hu
    unfold valids at hu
    obtain ⟨d, hd, rfl⟩ := List.mem_filterMap.mp hu
    obtain ⟨k, -, hk⟩ := List.mem_map.mp hd
    exact h u (cellAt_mem hk)
  exact ⟨median_ge e fun u hu => (hall u hu).1, median_le e fun u hu => (hall u hu).2⟩

theorem filledMedian_const {c : ℚ} (fwd : Bool) (w : Nat) {y : List Cell} (h : ∀ v, some v ∈ y → v = c) :
    ∀ v, some v ∈ filledMedian fwd w y → v = c := by
  intro v hv
  unfold filledMedian at hv
  have h1 : ∀ v, some v ∈ (if fwd then ffill y else bfill y) → c ≤ v ∧ v ≤ c := by
    intro v hv
    have : v = c := by
      cases fwd
      · exact bfill_const h v hv
      · exact ffillFrom_const (p := none) (by simp) h v hv
    exact ⟨this.ge, this.le⟩
  have := rollMedianC_range h1 v hv
  exact le_antisymm this.2 this.1

end Verif.Cods
