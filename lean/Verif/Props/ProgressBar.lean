import Verif.Model.ProgressBar
import Mathlib.Tactic.Linarith
import Mathlib.Tactic.FieldSimp
import Mathlib.Tactic.Ring
import Mathlib.Tactic.Push

/-! # C120: the progress bar of the CODS bootstrap -/

namespace Verif.Cods

/-- a bar of `n` characters whose arrow ends at the `k`-th -/
def Spec.barOf (k n : Nat) : List Char := List.replicate (k - 1) '-' ++ '>' :: List.replicate (n - k) ' '

theorem pyRound_bounds (x : ℚ) : x - 1/2 ≤ pyRound x ∧ (pyRound x : ℚ) ≤ x + 1/2 := by
  have h1 := Int.floor_le x
  have h2 := Int.lt_floor_add_one x
  unfold pyRound
  split_ifs <;> push_cast <;> constructor <;> linarith

/-- at a tie the even neighbour -/
theorem pyRound_tie {x : ℚ} (h : |x - pyRound x| = 1/2) : pyRound x % 2 = 0 := by
  have h1 := Int.floor_le x
  have h2 := Int.lt_floor_add_one x
  unfold pyRound at h ⊢
  split_ifs with a b c
  · rw [if_pos a, abs_of_nonneg (by linarith)] at h; linarith
  · rw [if_neg a, if_pos b, abs_of_nonpos (by push_cast; linarith)] at h; push_cast at h; linarith
  · exact c
  · omega

theorem pyRound_mono {x y : ℚ} (h : x ≤ y) : pyRound x ≤ pyRound y := by
  have hf := Int.floor_le_floor h
  rcases hf.lt_or_eq with hlt | heq
  · have a : pyRound x ≤ ⌊x⌋ + 1 := by unfold pyRound; split_ifs <;> omega
    have b : ⌊y⌋ ≤ pyRound y := by unfold pyRound; split_ifs <;> omega
    omega
  · unfold pyRound
    rw [heq] at *
    split_ifs <;> first | omega | (exfalso; linarith)

theorem pyRound_int (n : Int) : pyRound n = n := by
  unfold pyRound
  rw [Int.floor_intCast]
  simp

/-- **C120 (progress).** While `value` of `endvalue` steps are done, at least one, the bar is always as long as asked for, an arrow
of the share that is done, rounded (ties to even), and at least one character; the bar is full at the end. The time left is what the
remaining steps take at the pace so far: nothing at the end, never negative. -/
theorem C120_progress {value endvalue : Int} {time : ℚ} {n : Nat} (h0 : 0 < value) (h1 : value ≤ endvalue) (hn : 1 ≤ n)
    (ht : 0 ≤ time) :
    ∃ r k, progressBar value endvalue time n = .ok r ∧ r.bar = Spec.barOf k n ∧ r.bar.length = n ∧ 1 ≤ k ∧ k ≤ n ∧
      (k : ℚ) ≤ max 1 ((value : ℚ) / endvalue * n + 1/2) ∧ (value : ℚ) / endvalue * n - 1/2 ≤ k ∧
      (|(value : ℚ) / endvalue * n - k| = 1/2 → (value : ℚ) / endvalue * n = 1/2 ∨ k % 2 = 0) ∧
      r.percent = 100 * ((value : ℚ) / endvalue) ∧ r.used = time / 60 ∧
      r.left * value = r.used * (endvalue - value) ∧ 0 ≤ r.left ∧ (value = endvalue → k = n ∧ r.left = 0) := by
  have he : (0 : ℚ) < endvalue := by exact_mod_cast h0.trans_le h1
  have hv : (0 : ℚ) < value := by exact_mod_cast h0
  have hve : (value : ℚ) ≤ endvalue := by exact_mod_cast h1
  have hx : (value : ℚ) / endvalue * 100 / 100 * ((n : Int) : ℚ) = value / endvalue * n := by
    push_cast; ring
  have hp : (value : ℚ) / endvalue * 100 ≠ 0 := by positivity
  set q := (value : ℚ) / endvalue with hq
  have hq0 : 0 < q := div_pos hv he
  have hq1 : q ≤ 1 := (div_le_one he).mpr hve
  set R := pyRound (q * n) with hR
  obtain ⟨r1, r2⟩ := pyRound_bounds (q * n)
  rw [← hR] at r1 r2
  have hn' : (1 : ℚ) ≤ n := by exact_mod_cast hn
  have hRn : R ≤ n := by
    have := pyRound_mono (show q * n ≤ ((n : Int) : ℚ) by push_cast; nlinarith)
    rwa [pyRound_int] at this
  have hR0 : 0 ≤ R := by
    have := pyRound_mono (show ((0 : Int) : ℚ) ≤ q * n by push_cast; positivity)
    rwa [pyRound_int] at this
  have hk : (max 1 R).toNat - 1 = (R - 1).toNat := by omega
  have hbar : List.replicate (R - 1).toNat '-' ++ ['>'] ++
      List.replicate ((n : Int) - ((List.replicate (R - 1).toNat '-' ++ ['>']).length : Int)).toNat ' ' =
      Spec.barOf (max 1 R).toNat n := by
    unfold Spec.barOf
    rw [hk]
    simp only [List.append_assoc, List.cons_append, List.nil_append, List.length_append, List.length_replicate,
      List.length_cons, List.length_nil]
    congr 3
    push_cast
    omega
  have hlen : (Spec.barOf (max 1 R).toNat n).length = n := by
    unfold Spec.barOf
    simp only [List.length_append, List.length_replicate, List.length_cons]
    omega
  have hcast : (((max 1 R).toNat : Nat) : ℚ) = max 1 (R : ℚ) := by
    have : (((max 1 R).toNat : Nat) : Int) = max 1 R := Int.toNat_of_nonneg (by omega)
    have h2 : ((((max 1 R).toNat : Nat) : Int) : ℚ) = ((max 1 R : Int) : ℚ) := by rw [this]
    push_cast at h2
    exact h2
  have hleft : time / 60 / (q * 100) * (100 - q * 100) * value = time / 60 * (endvalue - value) := by
    rw [hq]; field_simp
  refine ⟨{ bar := Spec.barOf (max 1 R).toNat n, percent := q * 100, used := time / 60
            left := time / 60 / (q * 100) * (100 - q * 100) }, (max 1 R).toNat, ?_, rfl, hlen, by omega, by omega, ?_, ?_,
    ?_, by simp only; ring, rfl, hleft, ?_, ?_⟩
  · unfold progressBar
    rw [if_neg (by omega)]
    simp only
    rw [if_neg hp, hx, ← hR, hbar]
  · rw [hcast]
    refine max_le (le_max_left _ _) ?_
    have := le_max_right (1 : ℚ) (q * n + 1/2)
    linarith
  · rw [hcast]; have := le_max_right (1 : ℚ) R; linarith
  · intro ht
    rw [hcast] at ht
    rcases le_total R 0 with hz | hz
    · have hR' : R = 0 := le_antisymm hz hR0
      left
      rw [hR'] at r1 ht
      norm_num at r1 ht
      rw [abs_eq (by norm_num)] at ht
      rcases ht with ht | ht <;> linarith
    · rcases (show R = 0 ∨ 1 ≤ R by omega) with hR' | hR'
      · left
        rw [hR'] at r1 ht
        norm_num at r1 ht
        rw [abs_eq (by norm_num)] at ht
        rcases ht with ht | ht <;> linarith
      · right
        rw [max_eq_right (by exact_mod_cast hR')] at ht
        have := pyRound_tie ht
        rw [← hR] at this
        omega
  · simp only
    have : 0 ≤ 100 - q * 100 := by linarith
    positivity
  · intro heq
    have hq' : q = 1 := by rw [hq, heq]; exact div_self he.ne'
    refine ⟨?_, by simp only; rw [hq']; ring⟩
    have : R = n := by rw [hR, hq', one_mul]; exact pyRound_int n
    omega

/-- **C120 (monotone).** The arrow never goes back. -/
theorem C120_monotone {v w endvalue : Int} {s t : ℚ} {n : Nat} (h0 : 0 < v) (hvw : v ≤ w) (h1 : w ≤ endvalue) (hn : 1 ≤ n)
    {a b : Progress} (ha : progressBar v endvalue s n = .ok a)
    (hb : progressBar w endvalue t n = .ok b) : a.bar.count '-' ≤ b.bar.count '-' := by
  have he : (0 : ℚ) < endvalue := by exact_mod_cast (h0.trans_le hvw).trans_le h1
  have key : ∀ {x : Int} {t : ℚ} {r : Progress}, progressBar x endvalue t n = .ok r →
      r.bar.count '-' = (pyRound ((x : ℚ) / endvalue * n) - 1).toNat := by
    intro x t r h
    unfold progressBar at h
    rw [if_neg (by omega)] at h
    simp only at h
    split_ifs at h
    rw [Except.ok.injEq] at h
    rw [← h]
    simp only [List.count_append, List.count_replicate]
    rw [show (x : ℚ) / endvalue * 100 / 100 * ((n : Int) : ℚ) = x / endvalue * n by push_cast; ring]
    simp
  rw [key ha, key hb]
  have : pyRound ((v : ℚ) / endvalue * n) ≤ pyRound ((w : ℚ) / endvalue * n) := by
    apply pyRound_mono
    have : (v : ℚ) ≤ w := by exact_mod_cast hvw
    gcongr
  omega

/-- the call before the first step is done would divide by zero; the analysis counts from one -/
theorem C120_zero (endvalue : Int) (time : ℚ) (n : Int) : progressBar 0 endvalue time n = .error .zeroDivisionError := by
  unfold progressBar
  split
  · rfl
  · simp

/-- three of eight steps after a minute, on a bar of 30 -/
example : progressBar 3 8 60 30 = .ok ⟨"---------->                   ".toList, 75/2, 1, 5/3⟩ := by decide +kernel

/-- one of eight steps on a bar of 20: two and a half characters are two; three of eight: seven and a half are eight -/
example : (progressBar 1 8 60 20).toOption.map (·.bar) = some "->                  ".toList ∧
    (progressBar 3 8 60 20).toOption.map (·.bar) = some "------->            ".toList := by decide +kernel

example : ∃ r k, progressBar 3 8 60 30 = .ok r ∧ r.bar = Spec.barOf k 30 ∧ r.bar.length = 30 := by
  obtain ⟨r, k, h1, h2, h3, -⟩ := C120_progress (value := 3) (endvalue := 8) (time := 60) (n := 30) (by norm_num)
    (by norm_num) (by norm_num) (by norm_num)
  exact ⟨r, k, h1, h2, h3⟩

example {a b : Progress} (ha : progressBar 3 8 60 30 = .ok a) (hb : progressBar 5 8 90 30 = .ok b) :
    a.bar.count '-' ≤ b.bar.count '-' :=
  C120_monotone (n := 30) (by norm_num) (by norm_num) (by norm_num) (by norm_num) ha hb

end Verif.Cods
