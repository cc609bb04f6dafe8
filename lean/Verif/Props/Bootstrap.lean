import Verif.Model.Bootstrap
import Verif.Lemmas.Percentile
import Verif.Lemmas.Tactics

/-! # Property C30 (circular block bootstrap) -/

namespace Verif

theorem recombine_residual {mult : Bool} {x m : ℚ} (hm : m ≠ 0) :
    recombineAt mult (some m) (residualAt mult (some x) (some m)) = some x := by
  cases mult
  · simp [recombineAt, residualAt, cellOp]
  · simp only [recombineAt, residualAt, cellOp, if_true]
    rw [if_neg (by simpa using hm)]
    simp only [Option.some.injEq]
    field_simp

theorem getD_map_range {l : List Cell} (n : Nat) (h : n = l.length) :
    (List.range n).map (fun i => (l[i]?).join) = l := by
  subst h
  apply List.ext_getElem
  · simp
  · intro i h1 h2
    simp [List.getElem?_eq_getElem h2]

/-- **C30 (identity).** The identity resampling (one block covering the series) gives back the original
signal, in both decompositions; the multiplicative one needs non-zero model values. -/
theorem C30_identity {ty : Decomposition} (hty : ty ≠ .other) (signal model : List ℚ)
    (hlen : signal.length = model.length) (h0 : ∀ m ∈ model, m ≠ 0) :
    bootstrapSamples ty (signal.map some) (model.map some) signal.length [[0]] =
      .ok [signal.map some] := by
  have hidx : blockIndices signal.length signal.length [0] = List.range signal.length := by
    unfold blockIndices
    simp only [List.flatMap_cons, List.flatMap_nil, List.append_nil, zero_add]
    rw [List.take_of_length_le (by simp)]
    conv_rhs => rw [← List.map_id (List.range signal.length)]
    apply List.map_congr_left
    intro k hk
    rw [List.mem_range] at hk
    exact Nat.mod_eq_of_lt hk
  have main : ∀ mult : Bool, List.zipWith (recombineAt mult) (model.map some)
      ((List.range signal.length).map fun i =>
        ((List.zipWith (residualAt mult) (signal.map some) (model.map some))[i]?).join) =
      signal.map some := by
    intro mult
    rw [getD_map_range signal.length (by simp [hlen])]
    clear hidx
    induction signal generalizing model with
    | nil => cases model <;> simp
    | cons x l ih =>
      cases model with
      | nil => simp at hlen
      | cons m k =>
        simp only [List.map_cons, List.zipWith_cons_cons]
        rw [recombine_residual (h0 m (by simp)), ih k (by simpa using hlen) fun y hy => h0 y (by simp [hy])]
  unfold bootstrapSamples
  cases ty with
  | other => exact absurd rfl hty
  | multiplicative => simp only [List.length_map, hidx, List.map_cons, List.map_nil, main]
  | additive => simp only [List.length_map, hidx, List.map_cons, List.map_nil, main]

theorem blockIndices_lt {n block : Nat} (hn : 0 < n) {starts : List Nat} {i : Nat}
    (h : i ∈ blockIndices n block starts) : i < n := by
  unfold blockIndices at h
  have := List.mem_of_mem_take h
  simp only [List.mem_flatMap, List.mem_map] at this
  obtain ⟨s, -, k, -, rfl⟩ := this
  exact Nat.mod_lt _ hn

/-- **C30 (blocks).** Position `j` of a resampling uses the residual `j % block` positions after the start
of block `j / block`, counted circularly. -/
theorem C30_circular_blocks {n block : Nat} (hb : 0 < block) {starts : List Nat} {j : Nat} (hj : j < n)
    (hs : j / block < starts.length) :
    (blockIndices n block starts)[j]? = some ((starts.getD (j / block) 0 + j % block) % n) := by
  unfold blockIndices
  rw [List.getElem?_take_of_lt hj]
  clear hj
  induction starts generalizing j with
  | nil => simp at hs
  | cons s l ih =>
    rw [List.flatMap_cons]
    by_cases hlt : j < block
    · rw [List.getElem?_append_left (by simpa using hlt)]
      simp [hlt, Nat.div_eq_of_lt hlt, Nat.mod_eq_of_lt hlt]
    · push Not at hlt
      rw [List.getElem?_append_right (by simpa using hlt)]
      simp only [List.length_map, List.length_range]
      have h1 : j / block = (j - block) / block + 1 := by
        rw [Nat.div_eq_sub_div hb hlt]
      have h2 : j % block = (j - block) % block := by
        rw [Nat.mod_eq_sub_mod hlt]
      rw [ih (by rw [h1] at hs; simpa using hs), h1, h2]
      simp

/-- the residual of the signal at one position, by the text of the documentation -/
def Spec.residual (ty : Decomposition) (x m : ℚ) : ℚ :=
  match ty with
  | .multiplicative => x / m
  | _ => x - m

def Spec.combine (ty : Decomposition) (m r : ℚ) : ℚ :=
  match ty with
  | .multiplicative => m * r
  | _ => m + r

/-- **C30 (samples).** For every resampling, every sample has one value per model value, and each value is
the model value there combined with the residual observed at some position. -/
theorem C30_sample_values {ty : Decomposition} {signal model : List ℚ} {block : Nat}
    {draws : List (List Nat)} {samples : List (List Cell)} (hlen : signal.length = model.length)
    (h0 : ∀ m ∈ model, m ≠ 0)
    (hd : ∀ starts ∈ draws, signal.length ≤ starts.length * block)
    (h : bootstrapSamples ty (signal.map some) (model.map some) block draws = .ok samples) :
    samples.length = draws.length ∧
    ∀ sample ∈ samples, sample.length = model.length ∧
      ∀ j (hj : j < model.length), ∃ i, ∃ hi : i < signal.length,
        sample[j]? = some (some (Spec.combine ty model[j]
          (Spec.residual ty signal[i] (model[i]'(by omega))))) := by
  have main : ∀ mult : Bool, ∀ starts ∈ draws,
      (List.zipWith (recombineAt mult) (model.map some)
        ((blockIndices signal.length block starts).map fun i =>
          ((List.zipWith (residualAt mult) (signal.map some) (model.map some))[i]?).join)).length =
        model.length ∧
      ∀ j (hj : j < model.length), ∃ i, ∃ hi : i < signal.length,
        (List.zipWith (recombineAt mult) (model.map some)
        ((blockIndices signal.length block starts).map fun i =>
          ((List.zipWith (residualAt mult) (signal.map some) (model.map some))[i]?).join))[j]? =
        some (some (if mult then model[j] * (signal[i] / model[i]'(by omega))
          else model[j] + (signal[i] - model[i]'(by omega)))) := by
    intro mult starts hst
    have hbl : (blockIndices signal.length block starts).length = signal.length := by
      unfold blockIndices
      rw [List.length_take]
      have : (starts.flatMap fun s => (List.range block).map fun k => (s + k) % signal.length).length =
          starts.length * block := by
        rw [List.length_flatMap]; simp
      rw [this]
      exact Nat.min_eq_left (hd starts hst)
    refine ⟨by rw [List.length_zipWith, List.length_map, List.length_map, hbl, hlen, min_self],
      fun j hj => ?_⟩
    have hj' : j < (blockIndices signal.length block starts).length := by omega
    have hi := blockIndices_lt (by omega) (List.getElem_mem hj')
    refine ⟨(blockIndices signal.length block starts)[j], hi, ?_⟩
    generalize (blockIndices signal.length block starts) = idx at *
    rw [List.getElem?_zipWith]
    simp only [List.getElem?_map, List.getElem?_eq_getElem hj, List.getElem?_eq_getElem hj', Option.map_some,
      List.getElem?_zipWith, List.getElem?_eq_getElem hi]
    rw [List.getElem?_eq_getElem (l := model) (by omega)]
    simp only [Option.map_some, Option.join_some]
    have hm0 : model[idx[j]]'(by omega) ≠ 0 := h0 _ (List.getElem_mem _)
    cases mult
    · simp [recombineAt, residualAt, cellOp]
    · simp [recombineAt, residualAt, cellOp, hm0]
  unfold bootstrapSamples at h
  cases ty with
  | other => exact absurd h (by simp)
  | multiplicative =>
    simp only [Except.ok.injEq, List.length_map] at h
    subst h
    refine ⟨by simp, fun sample hs => ?_⟩
    obtain ⟨starts, hst, rfl⟩ := List.mem_map.mp hs
    exact main true starts hst
  | additive =>
    simp only [Except.ok.injEq, List.length_map] at h
    subst h
    refine ⟨by simp, fun sample hs => ?_⟩
    obtain ⟨starts, hst, rfl⟩ := List.mem_map.mp hs
    exact main false starts hst

/-- **C30 (unknown decomposition).** Exactly the unknown decomposition types raise, and they raise
ValueError. -/
theorem C30_unknown_type (ty : Decomposition) (signal model : List Cell) (block : Nat)
    (draws : List (List Nat)) :
    (bootstrapSamples ty signal model block draws = .error .valueError ↔ ty = .other) := by
  cases ty <;> simp [bootstrapSamples]

/-- **C30 (interval).** The bootstrap interval is ordered, and interval and exceedance level lie within the
metrics; a larger exceedance probability gives a lower level. -/
theorem C30_interval {metrics : List ℚ} {exceed conf : ℚ} {ci : (ℚ × ℚ) × ℚ}
    (h : confidenceInterval metrics exceed conf = .ok ci) (hconf : 0 ≤ conf) :
    ci.1.1 ≤ ci.1.2 ∧
    (∀ a b, (∀ x ∈ metrics, a ≤ x ∧ x ≤ b) → a ≤ ci.1.1 ∧ ci.1.2 ≤ b ∧ a ≤ ci.2 ∧ ci.2 ≤ b) ∧
    ∀ exceed' ci', confidenceInterval metrics exceed' conf = .ok ci' → exceed ≤ exceed' →
      ci'.2 ≤ ci.2 := by
  obtain ⟨h1, h2, h3⟩ := confidenceInterval_ok h
  refine ⟨percentileE_mono h1 h2 (by linarith), fun a b hab => ?_, fun e' ci' h' he => ?_⟩
  · exact ⟨percentileE_ge h1 fun x hx => (hab x hx).1, percentileE_le h2 fun x hx => (hab x hx).2,
      percentileE_ge h3 fun x hx => (hab x hx).1, percentileE_le h3 fun x hx => (hab x hx).2⟩
  · obtain ⟨-, -, h3'⟩ := confidenceInterval_ok h'
    exact percentileE_mono h3' h3 (by linarith)

example : bootstrapSamples .multiplicative [some 2, some 3, some 8] [some 1, some 2, some 4] 2 [[2, 1]]
    = .ok [[some 2, some 4, some 6]] := by decide +kernel

example : confidenceInterval [1, 2, 3, 4, 5] 90 50 = .ok ((2, 4), 7/5) := by decide +kernel

end Verif
