import Verif.Model.Degradation
import Verif.Lemmas.Tactics

/-! # Properties C27, C28 (Mann-Kendall test) -/

namespace Verif

/-- Independent description of the statistic: later-larger pairs minus later-smaller pairs. -/
def Spec.concordant (x : List ℚ) : Nat :=
  ((List.range x.length).map fun j =>
    ((List.range j).filter fun i => decide (x.getD i 0 < x.getD j 0)).length).sum

def Spec.discordant (x : List ℚ) : Nat :=
  ((List.range x.length).map fun j =>
    ((List.range j).filter fun i => decide (x.getD j 0 < x.getD i 0)).length).sum

theorem signQ_neg (a : ℚ) : signQ (-a) = - signQ a := by
  unfold signQ
  rcases lt_trichotomy a 0 with h | h | h
  · rw [if_pos (by linarith), if_neg (by linarith), if_pos h]; rfl
  · subst h; simp
  · rw [if_neg (by linarith), if_pos (by linarith), if_pos h]

theorem signQ_bound (a : ℚ) : -1 ≤ signQ a ∧ signQ a ≤ 1 := by
  unfold signQ; split_ifs <;> omega

theorem signQ_sub_mono {f : ℚ → ℚ} (hf : StrictMono f) (a b : ℚ) :
    signQ (f a - f b) = signQ (a - b) := by
  unfold signQ
  rcases lt_trichotomy a b with h | h | h
  · have := hf h
    rw [if_neg (by linarith), if_pos (by linarith), if_neg (by linarith), if_pos (by linarith)]
  · subst h; simp
  · have := hf h
    rw [if_pos (by linarith), if_pos (by linarith)]

theorem mkS_snoc (l : List ℚ) (x : ℚ) :
    mkS (l ++ [x]) = mkS l + (l.map fun y => signQ (x - y)).sum := by
  induction l with
  | nil => simp [mkS]
  | cons a l ih =>
    simp only [List.cons_append, mkS, ih, List.map_append, List.sum_append, List.map_cons,
      List.map_nil, List.sum_cons, List.sum_nil]
    ring

theorem sum_sign_split (l : List ℚ) (x : ℚ) :
    (l.map fun y => signQ (x - y)).sum =
      ((l.filter fun y => decide (y < x)).length : Int) - (l.filter fun y => decide (x < y)).length := by
  induction l with
  | nil => simp
  | cons a l ih =>
    simp only [List.map_cons, List.sum_cons, ih, List.filter_cons]
    unfold signQ
    rcases lt_trichotomy a x with h | h | h
    · rw [if_pos (by linarith), if_pos (by simpa using h), if_neg (by simp [h.le])]
      simp; ring
    · subst h; simp
    · rw [if_neg (by linarith), if_pos (by linarith), if_neg (by simp [h.le]), if_pos (by simpa using h)]
      simp; ring

theorem filter_range_getD (l : List ℚ) (P : ℚ → Bool) :
    ((List.range l.length).filter fun i => P (l.getD i 0)).length = (l.filter P).length := by
  have : (List.range l.length).map (fun i => l.getD i 0) = l := by
    apply List.ext_getElem
    · simp
    · intro i h1 h2
      simp at h1
      simp [List.getD_eq_getElem?_getD, h2]
  conv_rhs => rw [← this, List.filter_map, List.length_map]
  rfl

/-- **C27 (definition).** The statistic is the number of pairs in which the later value is larger minus
the number in which it is smaller. -/
theorem C27_statistic (x : List ℚ) :
    mkS x = (Spec.concordant x : Int) - Spec.discordant x := by
  induction x using List.reverseRecOn with
  | nil => rfl
  | append_singleton l x ih =>
    rw [mkS_snoc, ih, sum_sign_split]
    have gen : ∀ Q : ℚ → ℚ → Bool,
        ((List.range (l ++ [x]).length).map fun j =>
          ((List.range j).filter fun i => Q ((l ++ [x]).getD i 0) ((l ++ [x]).getD j 0)).length).sum =
        ((List.range l.length).map fun j =>
          ((List.range j).filter fun i => Q (l.getD i 0) (l.getD j 0)).length).sum +
          (l.filter fun y => Q y x).length := by
      intro Q
      have hget : ∀ i, i < l.length → (l ++ [x]).getD i 0 = l.getD i 0 := by
        intro i hi
        simp [List.getD_eq_getElem?_getD, List.getElem?_append_left hi]
      have hlast : (l ++ [x]).getD l.length 0 = x := by simp [List.getD_eq_getElem?_getD]
      rw [List.length_append, List.length_singleton, List.range_succ, List.map_append, List.sum_append]
      congr 1
      · congr 1
        apply List.map_congr_left
        intro j hj
        rw [List.mem_range] at hj
        congr 1
        apply List.filter_congr
        intro i hi
        rw [List.mem_range] at hi
        rw [hget i (by omega), hget j hj]
      · simp only [List.map_cons, List.map_nil, List.sum_cons, List.sum_nil, add_zero, hlast]
        rw [← filter_range_getD l fun y => Q y x]
        congr 1
        apply List.filter_congr
        intro i hi
        rw [List.mem_range] at hi
        rw [hget i hi]
    have g1 := gen fun a b => decide (a < b)
    have g2 := gen fun a b => decide (b < a)
    unfold Spec.concordant Spec.discordant
    rw [g1, g2]
    push_cast
    ring

theorem sum_sign_bound (l : List ℚ) (f : ℚ → ℚ) :
    -(l.length : Int) ≤ (l.map fun y => signQ (f y)).sum ∧
      (l.map fun y => signQ (f y)).sum ≤ l.length := by
  induction l with
  | nil => simp
  | cons a l ih =>
    have := signQ_bound (f a)
    simp only [List.map_cons, List.sum_cons, List.length_cons]
    push_cast
    omega

/-- **C27 (bound).** `|S|` is at most the number of pairs. -/
theorem C27_bounded (x : List ℚ) : 2 * |mkS x| ≤ x.length * (x.length - 1 : Int) := by
  have : ∀ x : List ℚ, -(x.length * (x.length - 1 : Int)) ≤ 2 * mkS x ∧
      2 * mkS x ≤ x.length * (x.length - 1 : Int) := by
    intro x
    induction x with
    | nil => simp [mkS]
    | cons a l ih =>
      have := sum_sign_bound l fun y => y - a
      simp only [mkS, List.length_cons]
      push_cast
      constructor <;> nlinarith [ih.1, ih.2, this.1, this.2]
  have h := this x
  rw [abs_eq_max_neg]
  rcases le_total (mkS x) (-mkS x) with h' | h'
  · rw [max_eq_right h']; linarith [h.1]
  · rw [max_eq_left h']; exact h.2

/-- **C27 (negation).** -/
theorem C27_negate (x : List ℚ) : mkS (x.map (- ·)) = - mkS x := by
  induction x with
  | nil => rfl
  | cons a l ih =>
    simp only [List.map_cons, mkS, ih, List.map_map]
    have : (fun y => signQ (y - -a)) ∘ (fun y => -y) = fun y => - signQ (y - a) := by
      funext y
      simp only [Function.comp_apply]
      rw [← signQ_neg]; congr 1; ring
    rw [this]
    have : (l.map fun y => - signQ (y - a)).sum = - (l.map fun y => signQ (y - a)).sum := by
      clear ih
      induction l with
      | nil => rfl
      | cons b l ih => simp only [List.map_cons, List.sum_cons, ih]; ring
    rw [this]; ring

/-- **C27 (reversal).** -/
theorem C27_reverse (x : List ℚ) : mkS x.reverse = - mkS x := by
  induction x with
  | nil => rfl
  | cons a l ih =>
    rw [List.reverse_cons, mkS_snoc, ih, List.map_reverse, List.sum_reverse]
    simp only [mkS]
    have : (l.map fun y => signQ (a - y)).sum = - (l.map fun y => signQ (y - a)).sum := by
      clear ih
      induction l with
      | nil => rfl
      | cons b l ih =>
        simp only [List.map_cons, List.sum_cons, ih]
        rw [show a - b = -(b - a) by ring, signQ_neg]; ring
    rw [this]; ring

/-- **C27 (ranks only).** A strictly increasing transformation does not change the statistic. -/
theorem C27_monotone_invariant {f : ℚ → ℚ} (hf : StrictMono f) (x : List ℚ) : mkS (x.map f) = mkS x := by
  induction x with
  | nil => rfl
  | cons a l ih =>
    simp only [List.map_cons, mkS, ih, List.map_map]
    congr 2
    apply List.map_congr_left
    intro y _
    exact signQ_sub_mono hf y a

/-- **C27 (maximum).** A strictly increasing series attains the maximum. -/
theorem C27_increasing_max {x : List ℚ} (h : x.Pairwise (· < ·)) :
    2 * mkS x = x.length * (x.length - 1 : Int) := by
  induction x with
  | nil => rfl
  | cons a l ih =>
    rw [List.pairwise_cons] at h
    have : (l.map fun y => signQ (y - a)).sum = l.length := by
      have h1 := h.1
      clear ih h
      induction l with
      | nil => rfl
      | cons b l ih =>
        have hb := h1 b (by simp)
        simp only [List.map_cons, List.sum_cons, ih fun y hy => h1 y (by simp [hy]), List.length_cons]
        rw [signQ, if_pos (by linarith)]
        push_cast; ring
    simp only [mkS, this, List.length_cons]
    push_cast
    linarith [ih h.2]

/-- **C27 (constant).** A constant series has statistic zero and is reported as no trend. -/
theorem C27_constant_no_trend (crit c : ℚ) (n : Nat) :
    mkS (List.replicate n c) = 0 ∧ mkTrend crit (List.replicate n c) = .noTrend := by
  have h : mkS (List.replicate n c) = 0 := by
    induction n with
    | zero => rfl
    | succ n ih => simp [List.replicate_succ, mkS, ih, signQ]
  refine ⟨h, ?_⟩
  unfold mkTrend
  simp [h]

theorem mkVar_noTies {x : List ℚ} (h : x.Nodup) :
    mkVar x = x.length * (x.length - 1) * (2 * x.length + 5) / 18 := by
  unfold mkVar uniqueQ
  rw [if_pos (by rw [List.Nodup.dedup h])]

/-- **C27 (detection).** A strictly increasing series of at least five values is reported as increasing
at the 5% level, whose critical value is below 1.96. -/
theorem C27_increasing_detected {x : List ℚ} (h : x.Pairwise (· < ·)) (hn : 5 ≤ x.length) {crit : ℚ}
    (h0 : 0 ≤ crit) (h1 : crit ≤ 196/100) : mkTrend crit x = .increasing := by
  have hS := C27_increasing_max h
  have hv := mkVar_noTies (h.imp fun h => h.ne)
  obtain ⟨m, hm⟩ : ∃ m : Nat, x.length = m + 5 := ⟨x.length - 5, by omega⟩
  have hlen : (x.length : Int) = m + 5 := by exact_mod_cast hm
  have hlenQ : (x.length : ℚ) = m + 5 := by exact_mod_cast hm
  have hm0 : (0 : Int) ≤ m := by positivity
  rw [hlen] at hS
  have hS1 : 10 ≤ mkS x := by nlinarith
  have hSQ : (mkS x : ℚ) = (m + 5) * (m + 4) / 2 := by
    have : (2 * mkS x : ℚ) = (m + 5) * (m + 5 - 1) := by exact_mod_cast hS
    linarith
  unfold mkTrend
  have hgt : crit ^ 2 * mkVar x < ((|mkS x| : Int) - 1 : ℚ) ^ 2 := by
    rw [abs_of_nonneg (by omega), hSQ, hv, hlenQ]
    have hc2 : crit ^ 2 ≤ 4 := by nlinarith
    have hc3 : crit ^ 2 ≤ 38416/10000 := by nlinarith
    have hmq : (0 : ℚ) ≤ m := by positivity
    have hpos : (0 : ℚ) ≤ (m + 5) * (m + 5 - 1) * (2 * (m + 5) + 5) / 18 := by
      have : (0:ℚ) ≤ m + 5 - 1 := by linarith
      positivity
    have step : crit ^ 2 * ((m + 5) * (m + 5 - 1) * (2 * (m + 5) + 5) / 18) ≤
        38416/10000 * ((m + 5) * (m + 5 - 1) * (2 * (m + 5) + 5) / 18) :=
      mul_le_mul_of_nonneg_right hc3 hpos
    refine lt_of_le_of_lt step ?_
    nlinarith [mul_nonneg hmq hmq, mul_nonneg (mul_nonneg hmq hmq) hmq,
      mul_nonneg (mul_nonneg (mul_nonneg hmq hmq) hmq) hmq]
  rw [if_neg (by
    have : ¬ (mkS x < -1) := by omega
    simp [this]), if_pos]
  have h1 : mkS x > 1 := by omega
  have h2 : mkS x ≠ 0 := by omega
  simp only [h1, h2, decide_true, ne_eq, not_false_eq_true, Bool.true_and, decide_eq_true_eq]
  exact hgt

theorem mkVar_perm {x y : List ℚ} (h : x.Perm y) : mkVar x = mkVar y := by
  unfold mkVar uniqueQ
  have hd : x.dedup.Perm y.dedup := h.dedup
  have e : (x.dedup.map fun u => ((x.count u : Nat) : ℚ)).Perm
      (y.dedup.map fun u => ((y.count u : Nat) : ℚ)) := by
    have : (x.dedup.map fun u => ((x.count u : Nat) : ℚ)) =
        x.dedup.map fun u => ((y.count u : Nat) : ℚ) :=
      List.map_congr_left fun u _ => by rw [h.count_eq]
    rw [this]
    exact hd.map _
  have e2 := (e.map fun t : ℚ => t * (t - 1) * (2 * t + 5)).sum_eq
  simp only [h.length_eq, hd.length_eq, e2]

theorem mkVar_inj {f : ℚ → ℚ} (hf : Function.Injective f) (x : List ℚ) : mkVar (x.map f) = mkVar x := by
  unfold mkVar uniqueQ
  rw [List.dedup_map_of_injective hf]
  have : ((x.dedup.map f).map fun u => (((x.map f).count u : Nat) : ℚ)) =
      x.dedup.map fun u => ((x.count u : Nat) : ℚ) := by
    rw [List.map_map]
    apply List.map_congr_left
    intro u _
    simp only [Function.comp_apply]
    rw [List.count_map_of_injective x f hf]
  simp only [List.length_map, this]

/-- the opposite trend -/
def Spec.oppositeTrend : Trend → Trend
  | .increasing => .decreasing
  | .decreasing => .increasing
  | .noTrend => .noTrend

theorem mkTrend_of_neg {crit : ℚ} {x y : List ℚ} (hs : mkS y = - mkS x) (hv : mkVar y = mkVar x) :
    mkTrend crit y = Spec.oppositeTrend (mkTrend crit x) := by
  unfold mkTrend
  simp only [hs, hv, abs_neg]
  by_cases h : crit ^ 2 * mkVar x < ((|mkS x| : Int) - 1 : ℚ) ^ 2
  · simp only [h, decide_true, Bool.and_true]
    rcases lt_trichotomy (mkS x) 0 with h' | h' | h'
    · by_cases h1 : mkS x < -1
      · have e1 : ¬ (-mkS x < -1) := by omega
        have e2 : -mkS x > 1 := by omega
        have e3 : mkS x ≠ 0 := by omega
        simp [h1, e1, e3, Spec.oppositeTrend]; omega
      · have e1 : ¬ (-mkS x < -1) := by omega
        have e2 : ¬ (-mkS x > 1) := by omega
        have e3 : ¬ (mkS x > 1) := by omega
        simp [h1, e1, e3, Spec.oppositeTrend]; omega
    · simp [h', Spec.oppositeTrend]
    · by_cases h1 : mkS x > 1
      · have e1 : -mkS x < -1 := by omega
        have e2 : ¬ (mkS x < -1) := by omega
        have e3 : mkS x ≠ 0 := by omega
        simp [h1, e2, e3, Spec.oppositeTrend]
      · have e1 : ¬ (-mkS x < -1) := by omega
        have e2 : ¬ (mkS x < -1) := by omega
        have e3 : ¬ (-mkS x > 1) := by omega
        simp [h1, e2, e3, Spec.oppositeTrend]
  · simp only [h, decide_false, Bool.and_false, Bool.false_eq_true, if_false, Spec.oppositeTrend]

/-- **C27 (trend).** Negating or reversing the series turns the reported trend around; a strictly
increasing transformation keeps it. -/
theorem C27_trend_symmetry (crit : ℚ) (x : List ℚ) :
    mkTrend crit (x.map (- ·)) = Spec.oppositeTrend (mkTrend crit x) ∧
      mkTrend crit x.reverse = Spec.oppositeTrend (mkTrend crit x) ∧
      ∀ f, StrictMono f → mkTrend crit (x.map f) = mkTrend crit x := by
  refine ⟨mkTrend_of_neg (C27_negate x) (mkVar_inj neg_injective x),
    mkTrend_of_neg (C27_reverse x) (mkVar_perm (List.reverse_perm x)), fun f hf => ?_⟩
  unfold mkTrend
  rw [C27_monotone_invariant hf, mkVar_inj hf.injective]

example : mkS [1, 3, 2, 5, 4] = 6 ∧ mkTrend (196/100) [1, 2, 3, 4, 5] = .increasing ∧
    mkTrend (196/100) [1, 2, 3, 4] = .noTrend := by decide +kernel

/-! ## C28 -/

/-- The variance of the Mann-Kendall statistic in the presence of ties (textbook formula). -/
def Spec.tieVariance (x : List ℚ) : ℚ :=
  ((x.length : ℚ) * (x.length - 1) * (2 * x.length + 5) -
    (x.dedup.map fun u => ((x.count u : Nat) : ℚ) * ((x.count u : Nat) - 1) *
      (2 * (x.count u : Nat) + 5)).sum) / 18

/-- **C28.** Without ties the variance is the textbook variance. Missing: with ties the correction has the
wrong sign (`C28_ties_refuted`). -/
theorem C28_variance_partial {x : List ℚ} (h : x.Nodup) : mkVar x = Spec.tieVariance x := by
  rw [mkVar_noTies h]
  unfold Spec.tieVariance
  have : (x.dedup.map fun u => ((x.count u : Nat) : ℚ) * ((x.count u : Nat) - 1) *
      (2 * (x.count u : Nat) + 5)).sum = 0 := by
    apply List.sum_eq_zero
    intro y hy
    obtain ⟨u, hu, rfl⟩ := List.mem_map.mp hy
    rw [List.count_eq_one_of_mem h (List.mem_dedup.mp hu)]
    norm_num
  rw [this]; ring

theorem tie_terms_pos {x : List ℚ} (h : ¬ x.Nodup) :
    0 < (x.dedup.map fun u => ((x.count u : Nat) : ℚ) * ((x.count u : Nat) - 1) *
      (2 * (x.count u : Nat) + 5)).sum := by
  have hnn : ∀ u : ℚ, (0 : ℚ) ≤ ((x.count u : Nat) : ℚ) * ((x.count u : Nat) - 1) *
      (2 * (x.count u : Nat) + 5) := by
    intro u
    rcases Nat.eq_zero_or_pos (x.count u) with h | h
    · simp [h]
    · have : (1 : ℚ) ≤ (x.count u : Nat) := by exact_mod_cast h
      have h2 : (0 : ℚ) ≤ (x.count u : Nat) - 1 := by linarith
      positivity
  obtain ⟨a, ha⟩ : ∃ a, 2 ≤ x.count a := by
    by_contra hcon
    push Not at hcon
    exact h (List.nodup_iff_count_le_one.mpr fun a => by have := hcon a; omega)
  have hmem : a ∈ x.dedup := List.mem_dedup.mpr (List.count_pos_iff.mp (by omega))
  have hle : ((x.count a : Nat) : ℚ) * ((x.count a : Nat) - 1) * (2 * (x.count a : Nat) + 5) ≤
      (x.dedup.map fun u => ((x.count u : Nat) : ℚ) * ((x.count u : Nat) - 1) *
        (2 * (x.count u : Nat) + 5)).sum := by
    apply List.single_le_sum
    · intro y hy
      obtain ⟨u, -, rfl⟩ := List.mem_map.mp hy
      exact hnn u
    · exact List.mem_map.mpr ⟨a, hmem, rfl⟩
  have h2 : (2 : ℚ) ≤ (x.count a : Nat) := by exact_mod_cast ha
  have h3 : (0 : ℚ) < (x.count a : Nat) - 1 := by linarith
  have h4 : (0 : ℚ) < ((x.count a : Nat) : ℚ) * ((x.count a : Nat) - 1) * (2 * (x.count a : Nat) + 5) := by
    positivity
  linarith

/-- **C28 is false**: for every series with ties the variance used is larger than the untied variance,
and the textbook variance is smaller. -/
theorem C28_ties_refuted {x : List ℚ} (h : ¬ x.Nodup) :
    (x.length : ℚ) * (x.length - 1) * (2 * x.length + 5) / 18 < mkVar x ∧
      Spec.tieVariance x < (x.length : ℚ) * (x.length - 1) * (2 * x.length + 5) / 18 := by
  have hpos := tie_terms_pos h
  have hlen : x.length ≠ (uniqueQ x).length := by
    intro he
    apply h
    unfold uniqueQ at he
    have hsub := List.dedup_sublist x
    have := hsub.eq_of_length he.symm
    rw [← this]
    exact List.nodup_dedup x
  constructor
  · unfold mkVar
    rw [if_neg hlen]
    simp only [uniqueQ, List.map_map, Function.comp_def]
    linarith
  · unfold Spec.tieVariance
    linarith

/-- The wrong sign changes a verdict: with the textbook variance this series has a significant trend. -/
theorem C28_changes_verdict :
    ∃ x : List ℚ, mkTrend (196/100) x = .noTrend ∧ 1 < mkS x ∧
      (196/100) ^ 2 * Spec.tieVariance x < ((mkS x : ℚ) - 1) ^ 2 :=
  ⟨[1, 1, 2, 2, 2, 3], by decide +kernel, by decide +kernel, by decide +kernel⟩

example : ¬ ([1, 1, 2] : List ℚ).Nodup := by decide +kernel
example : mkVar [1, 2, 3] = Spec.tieVariance [1, 2, 3] := by decide +kernel

end Verif
