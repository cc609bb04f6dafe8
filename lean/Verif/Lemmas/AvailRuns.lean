import Verif.Model.Availability
import Verif.Lemmas.SrrLevels
import Mathlib.Data.List.GetD

/-! Runs of a Boolean list: the pairing of starts and ends in `_calc_loss_system`. -/

namespace Verif
open Avail

/-- runs of `true` with their positions from `n` on -/
def runsFrom : Nat → List Bool → List (Nat × Nat)
  | _, [] => []
  | n, false :: l => runsFrom (n + 1) l
  | n, true :: l =>
    match l with
    | true :: _ =>
      match runsFrom (n + 1) l with
      | [] => []
      | (_, e) :: r => (n, e) :: r
    | _ => (n, n) :: runsFrom (n + 1) l

theorem runsFrom_true_true (n : Nat) (l : List Bool) : ∃ e r, runsFrom (n + 1) (true :: l) = (n + 1, e) :: r ∧
    runsFrom n (true :: true :: l) = (n, e) :: r := by
  have h : ∀ (l : List Bool) (n : Nat), ∃ e r, runsFrom n (true :: l) = (n, e) :: r := by
    intro l
    induction l with
    | nil => intro n; exact ⟨n, [], rfl⟩
    | cons b l ih =>
      intro n
      cases b with
      | false => exact ⟨n, _, rfl⟩
      | true =>
        obtain ⟨e, r, h⟩ := ih (n + 1)
        refine ⟨e, r, ?_⟩
        rw [runsFrom, h]
  obtain ⟨e, r, h1⟩ := h l (n + 1)
  refine ⟨e, r, h1, ?_⟩
  rw [runsFrom, h1]

theorem risesAt_runs (l : List Bool) (n : Nat) : risesAt false n l = (runsFrom n l).map Prod.fst := by
  have key : ∀ (l : List Bool) (n : Nat), risesAt false n l = (runsFrom n l).map Prod.fst ∧
      risesAt true n l = ((runsFrom n l).map Prod.fst).drop (if l.head? = some true then 1 else 0) := by
    intro l
    induction l with
    | nil => intro n; exact ⟨rfl, rfl⟩
    | cons b l ih =>
      intro n
      obtain ⟨i1, i2⟩ := ih (n + 1)
      cases b with
      | false => exact ⟨by simpa [risesAt, runsFrom] using i1, by simpa [risesAt, runsFrom] using i1⟩
      | true =>
        cases l with
        | nil => exact ⟨rfl, rfl⟩
        | cons c l =>
          cases c with
          | false =>
            have e : runsFrom n (true :: false :: l) = (n, n) :: runsFrom (n + 1) (false :: l) := rfl
            constructor
            · show n :: risesAt true (n + 1) (false :: l) = _
              rw [e, i2]; rfl
            · show risesAt true (n + 1) (false :: l) = _
              rw [e, i2]; rfl
          | true =>
            obtain ⟨e, r, h1, h2⟩ := runsFrom_true_true n l
            rw [h2]
            have i2' : risesAt true (n + 1) (true :: l) = r.map Prod.fst := by rw [i2, h1]; rfl
            constructor
            · show n :: risesAt true (n + 1) (true :: l) = _
              rw [i2']; rfl
            · show risesAt true (n + 1) (true :: l) = _
              rw [i2']; rfl
  exact (key l n).1

/-- ends of the runs that end before the end of the list -/
theorem fallsAt_runs (l : List Bool) (n : Nat) : (runsFrom n l).map Prod.snd =
    fallsAt n l ++ (if l.getLast? = some true then [n + l.length - 1] else []) := by
  induction l generalizing n with
  | nil => rfl
  | cons b l ih =>
    cases l with
    | nil => cases b <;> rfl
    | cons c l =>
      have ih := ih (n + 1)
      have hl : (b :: c :: l).getLast? = (c :: l).getLast? := rfl
      have hlen : n + (b :: c :: l).length - 1 = n + 1 + (c :: l).length - 1 := by simp only [List.length_cons]; omega
      rw [hl, hlen]
      cases b with
      | false =>
        show (runsFrom (n + 1) (c :: l)).map Prod.snd = fallsAt (n + 1) (c :: l) ++ _
        exact ih
      | true =>
        cases c with
        | false =>
          show n :: (runsFrom (n + 1) (false :: l)).map Prod.snd = n :: (fallsAt (n + 1) (false :: l)) ++ _
          rw [ih]; rfl
        | true =>
          obtain ⟨e, r, h1, h2⟩ := runsFrom_true_true n l
          rw [h2]
          rw [h1] at ih
          show _ = fallsAt (n + 1) (true :: l) ++ _
          exact ih

theorem steps_head (l : List Bool) : (steps l).head? = some false → l.head? = some true := by
  induction l with
  | nil => intro h; simp [steps] at h
  | cons a l ih =>
    cases l with
    | nil => intro h; simp [steps] at h
    | cons b l =>
      unfold steps
      split_ifs with hab
      · intro h
        have := ih h
        rw [hab]; exact this
      · intro h
        simp only [List.head?_cons, Option.some.injEq] at h ⊢
        subst h
        cases a
        · exact absurd rfl hab
        · rfl

theorem steps_head' (l : List Bool) (h1 : l.head? = some true) (h2 : false ∈ l) : (steps l).head? = some false := by
  induction l with
  | nil => simp at h2
  | cons a l ih =>
    simp only [List.head?_cons, Option.some.injEq] at h1
    subst h1
    cases l with
    | nil => simp at h2
    | cons b l =>
      unfold steps
      cases b with
      | true => rw [if_pos rfl]; exact ih rfl (by simpa using h2)
      | false => rw [if_neg (by simp)]; rfl

theorem steps_last (l : List Bool) : (steps l).getLast? = some true → l.getLast? = some true := by
  induction l with
  | nil => intro h; simp [steps] at h
  | cons a l ih =>
    cases l with
    | nil => intro h; simp [steps] at h
    | cons b l =>
      unfold steps
      split_ifs with hab
      · intro h; exact ih h
      · intro h
        cases hs : steps (b :: l) with
        | nil =>
          rw [hs] at h
          simp only [List.getLast?_singleton, Option.some.injEq] at h
          subst h
          have : ∀ (l : List Bool) (b : Bool), steps (b :: l) = [] → (b :: l).getLast? = some b := by
            intro l
            induction l with
            | nil => intro b _; rfl
            | cons c l ih' =>
              intro b hb
              unfold steps at hb
              split_ifs at hb with hbc
              subst hbc
              exact ih' b hb
          exact this l true hs
        | cons x r =>
          rw [hs] at h
          have h' : (x :: r).getLast? = some true := h
          rw [← hs] at h'
          exact ih h'

theorem steps_last' (l : List Bool) (h1 : l.getLast? = some true) (h2 : false ∈ l) : (steps l).getLast? = some true := by
  induction l with
  | nil => simp at h2
  | cons a l ih =>
    cases l with
    | nil =>
      simp only [List.getLast?_singleton, Option.some.injEq] at h1
      subst h1; simp at h2
    | cons b l =>
      have h1' : (b :: l).getLast? = some true := h1
      unfold steps
      by_cases hin : false ∈ b :: l
      · have := ih h1' hin
        split_ifs with hab
        · exact this
        · cases hs : steps (b :: l) with
          | nil => rw [hs] at this; simp at this
          | cons x r =>
            rw [hs] at this
            exact this
      · have ha : a = false := by
          rcases List.mem_cons.mp h2 with h | h
          · exact h.symm
          · exact absurd h hin
        subst ha
        have hb : b = true := by
          cases b with
          | true => rfl
          | false => exact absurd (by simp) hin
        subst hb
        rw [if_neg (by simp)]
        have hall : ∀ (l : List Bool), false ∉ l → steps l = [] := by
          intro l
          induction l with
          | nil => intro _; rfl
          | cons x l ih' =>
            intro hx
            cases l with
            | nil => rfl
            | cons y l =>
              have hx1 : x = true := by cases x with | true => rfl | false => exact absurd (by simp) hx
              have hy1 : y = true := by cases y with | true => rfl | false => exact absurd (by simp) hx
              subst hx1 hy1
              unfold steps
              rw [if_pos rfl]
              exact ih' (fun h => hx (by simp [h]))
        rw [hall _ hin]
        rfl

theorem zip_fst_snd {α β : Type} (l : List (α × β)) : (l.map Prod.fst).zip (l.map Prod.snd) = l := by
  induction l with
  | nil => rfl
  | cons a l ih => simp [ih]

/-- with at least one row outside an outage, the reported bounds are the runs -/
theorem outageBounds_runs {b : List Bool} (h : false ∈ b) : outageBounds b = runsFrom 0 b := by
  have h2 : (if (steps b).getLast? = some true then fallsAt 0 b ++ [b.length - 1] else fallsAt 0 b) =
      (runsFrom 0 b).map Prod.snd := by
    rw [fallsAt_runs]
    by_cases hl : b.getLast? = some true
    · rw [if_pos (steps_last' b hl h), if_pos hl]
      simp
    · rw [if_neg (fun hc => hl (steps_last b hc)), if_neg hl, List.append_nil]
  cases b with
  | nil => simp at h
  | cons x l =>
    have h1 : (if (steps (x :: l)).head? = some false then 0 :: risesAt x 1 l else risesAt x 1 l) =
        (runsFrom 0 (x :: l)).map Prod.fst := by
      rw [← risesAt_runs]
      cases x with
      | true => rw [if_pos (steps_head' _ rfl h)]; rfl
      | false =>
        rw [if_neg (fun hc => by have := steps_head _ hc; simp at this)]; rfl
    unfold outageBounds
    simp only [h1, h2, zip_fst_snd]

/-- all rows in an outage: nothing is reported -/
theorem outageBounds_all {b : List Bool} (h : false ∉ b) : outageBounds b = [] := by
  cases b with
  | nil => rfl
  | cons x l =>
    have hr : ∀ (l : List Bool) (n : Nat), risesAt true n l = [] ∨ false ∈ l := by
      intro l
      induction l with
      | nil => intro n; exact Or.inl rfl
      | cons y l ih =>
        intro n
        cases y with
        | false => exact Or.inr (by simp)
        | true =>
          rcases ih (n + 1) with h | h
          · exact Or.inl h
          · exact Or.inr (by simp [h])
    have hx : x = true := by cases x with | true => rfl | false => exact absurd (by simp) h
    subst hx
    have h1 : risesAt true 1 l = [] := (hr l 1).resolve_right fun hc => h (by simp [hc])
    have h2 : (steps (true :: l)).head? ≠ some false := by
      have hall : ∀ (l : List Bool), false ∉ l → steps l = [] := by
          intro l
          induction l with
          | nil => intro _; rfl
          | cons x l ih' =>
            intro hx
            cases l with
            | nil => rfl
            | cons y l =>
              have hx1 : x = true := by cases x with | true => rfl | false => exact absurd (by simp) hx
              have hy1 : y = true := by cases y with | true => rfl | false => exact absurd (by simp) hx
              subst hx1 hy1
              unfold steps
              rw [if_pos rfl]
              exact ih' (fun h => hx (by simp [h]))
      rw [hall _ h]; simp
    unfold outageBounds
    simp only [h1, if_neg h2, List.zip_nil_left]

/-- positions of the runs: after `n`, ordered, with a gap between -/
theorem runsFrom_bounds (l : List Bool) (n : Nat) :
    (∀ x ∈ runsFrom n l, n ≤ x.1 ∧ x.1 ≤ x.2 ∧ x.2 < n + l.length) ∧
    (runsFrom n l).Pairwise (fun x y => x.2 + 1 < y.1) ∧
    (l.head? = some false → ∀ x ∈ runsFrom n l, n + 1 ≤ x.1) := by
  induction l generalizing n with
  | nil => simp [runsFrom]
  | cons b l ih =>
    obtain ⟨i1, i2, i3⟩ := ih (n + 1)
    cases b with
    | false =>
      have e : runsFrom n (false :: l) = runsFrom (n + 1) l := rfl
      rw [e]
      refine ⟨fun x hx => ?_, i2, fun _ x hx => (i1 x hx).1⟩
      obtain ⟨h1, h2, h3⟩ := i1 x hx
      exact ⟨by omega, h2, by simp only [List.length_cons]; omega⟩
    | true =>
      cases l with
      | nil =>
        have e : runsFrom n [true] = [(n, n)] := rfl
        rw [e]
        simp
      | cons c l =>
        cases c with
        | false =>
          have e : runsFrom n (true :: false :: l) = (n, n) :: runsFrom (n + 1) (false :: l) := rfl
          rw [e]
          refine ⟨?_, ?_, by simp⟩
          · intro x hx
            rcases List.mem_cons.mp hx with rfl | hx
            · simp
            · obtain ⟨h1, h2, h3⟩ := i1 x hx
              exact ⟨by omega, h2, by simp only [List.length_cons] at h3 ⊢; omega⟩
          · rw [List.pairwise_cons]
            refine ⟨fun y hy => ?_, i2⟩
            have := i3 rfl y hy
            show n + 1 < y.1
            omega
        | true =>
          obtain ⟨e, r, h1, h2⟩ := runsFrom_true_true n l
          rw [h2]
          rw [h1] at i1 i2
          refine ⟨?_, ?_, by simp⟩
          · intro x hx
            rcases List.mem_cons.mp hx with rfl | hx
            · obtain ⟨g1, g2, g3⟩ := i1 (n + 1, e) (by simp)
              simp only [List.length_cons] at g1 g2 g3 ⊢
              exact ⟨le_refl _, by omega, by omega⟩
            · obtain ⟨g1, g2, g3⟩ := i1 x (by simp [hx])
              simp only [List.length_cons] at g3 ⊢
              exact ⟨by omega, g2, by omega⟩
          · rw [List.pairwise_cons] at i2 ⊢
            exact ⟨fun y hy => i2.1 y hy, i2.2⟩

/-- membership of the positions in runs -/
theorem runsFrom_cover (l : List Bool) (n k : Nat) :
    (∃ x ∈ runsFrom n l, x.1 ≤ n + k ∧ n + k ≤ x.2) ↔ l[k]? = some true := by
  induction l generalizing n k with
  | nil => simp [runsFrom]
  | cons b l ih =>
    cases b with
    | false =>
      have e : runsFrom n (false :: l) = runsFrom (n + 1) l := rfl
      rw [e]
      cases k with
      | zero =>
        simp only [Nat.add_zero, List.getElem?_cons_zero, Option.some.injEq, Bool.false_eq_true, iff_false]
        rintro ⟨x, hx, h1, -⟩
        have := (runsFrom_bounds l (n + 1)).1 x hx
        omega
      | succ k =>
        rw [List.getElem?_cons_succ, ← ih (n + 1) k]
        simp only [show n + (k + 1) = n + 1 + k by omega]
    | true =>
      cases l with
      | nil =>
        have e : runsFrom n [true] = [(n, n)] := rfl
        rw [e]
        simp only [List.mem_singleton, exists_eq_left]
        cases k with
        | zero => simp
        | succ k => simp
      | cons c l =>
        cases c with
        | false =>
          have e : runsFrom n (true :: false :: l) = (n, n) :: runsFrom (n + 1) (false :: l) := rfl
          rw [e]
          cases k with
          | zero => simp
          | succ k =>
            rw [List.getElem?_cons_succ, ← ih (n + 1) k]
            constructor
            · rintro ⟨x, hx, h1, h2⟩
              rcases List.mem_cons.mp hx with rfl | hx
              · simp only at h2; omega
              · exact ⟨x, hx, by omega, by omega⟩
            · rintro ⟨x, hx, h1, h2⟩
              exact ⟨x, by simp [hx], by omega, by omega⟩
        | true =>
          obtain ⟨e, r, h1, h2⟩ := runsFrom_true_true n l
          have hb := (runsFrom_bounds (true :: l) (n + 1)).1 (n + 1, e) (by rw [h1]; simp)
          rw [h2]
          cases k with
          | zero =>
            simp only [Nat.add_zero, List.getElem?_cons_zero, iff_true]
            exact ⟨(n, e), by simp, le_refl _, by omega⟩
          | succ k =>
            rw [List.getElem?_cons_succ, ← ih (n + 1) k, h1]
            constructor
            · rintro ⟨x, hx, g1, g2⟩
              rcases List.mem_cons.mp hx with rfl | hx
              · exact ⟨(n + 1, e), by simp, by simp only; omega, by simp only at g2 ⊢; omega⟩
              · exact ⟨x, by simp [hx], by omega, by omega⟩
            · rintro ⟨x, hx, g1, g2⟩
              rcases List.mem_cons.mp hx with rfl | hx
              · exact ⟨(n, e), by simp, by simp only; omega, by simp only at g2 ⊢; omega⟩
              · exact ⟨x, by simp [hx], by omega, by omega⟩

end Verif
