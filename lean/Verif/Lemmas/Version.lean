import Verif.Model.Version

/-! # Helper lemmas for the version strings -/

namespace Verif.Version

theorem dropPrefix_append (p l : Str) : dropPrefix? p (p ++ l) = some l := by
  induction p with
  | nil => rfl
  | cons a p ih => simp [dropPrefix?, ih]

theorem dropPrefix_some {p s r : Str} (h : dropPrefix? p s = some r) : s = p ++ r := by
  induction p generalizing s with
  | nil => simpa [dropPrefix?] using h
  | cons a p ih =>
    cases s with
    | nil => simp [dropPrefix?] at h
    | cons b s =>
      unfold dropPrefix? at h
      split_ifs at h with hab
      rw [ih h, hab]; rfl

theorem digits_isDigit {n : Nat} {c : Char} (h : c ∈ digits n) : c.isDigit = true :=
  Nat.isDigit_of_mem_toDigits (b := 10) (n := n) (by decide) (by decide) h

theorem digits_ne_nil (n : Nat) : digits n ≠ [] := Nat.toDigits_ne_nil

theorem ofDigitChars_digits (n : Nat) : Nat.ofDigitChars 10 (digits n) 0 = n :=
  Nat.ofDigitChars_ten_toDigits

theorem digits_inj {n m : Nat} (h : digits n = digits m) : n = m := by
  rw [← ofDigitChars_digits n, h, ofDigitChars_digits]

theorem not_mem_digits {n : Nat} {c : Char} (h : c.isDigit = false) : c ∉ digits n := fun hm => by
  rw [digits_isDigit hm] at h; cases h

theorem split_first {c : Char} {a b x y : Str} (ha : c ∉ a) (hb : c ∉ b) (h : a ++ c :: x = b ++ c :: y) :
    a = b ∧ x = y := by
  induction a generalizing b with
  | nil =>
    cases b with
    | nil => simpa using h
    | cons d b => simp at h; exact absurd (h.1 ▸ List.mem_cons_self) hb
  | cons d a ih =>
    cases b with
    | nil => simp at h; exact absurd (h.1.symm ▸ List.mem_cons_self) ha
    | cons e b =>
      simp only [List.cons_append, List.cons.injEq] at h
      have := ih (fun m => ha (List.mem_cons_of_mem _ m)) (fun m => hb (List.mem_cons_of_mem _ m)) h.2
      exact ⟨by rw [h.1, this.1], this.2⟩

theorem splitLast_none {c : Char} {l : Str} (h : c ∉ l) : splitLast c l = none := by
  induction l with
  | nil => rfl
  | cons a l ih =>
    unfold splitLast
    rw [ih fun m => h (List.mem_cons_of_mem _ m)]
    exact if_neg fun e : a = c => h (e ▸ List.mem_cons_self)

theorem splitLast_append {c : Char} {y : Str} (hy : c ∉ y) (x : Str) : splitLast c (x ++ c :: y) = some (x, y) := by
  induction x with
  | nil => simp [splitLast, splitLast_none hy]
  | cons a x ih => simp only [List.cons_append, splitLast, ih]

theorem isHex_ne {s : Str} (h : s.all isHex = true) {c : Char} (hc : isHex c = false) : c ∉ s := fun hm => by
  rw [List.all_eq_true.mp h c hm] at hc; cases hc

theorem truthy_some {t : Str} (h : t ≠ []) : truthy (some t) = some t := by
  cases t with
  | nil => exact absurd rfl h
  | cons => rfl

theorem truthy_eq {o : Option Str} {t : Str} (h : truthy o = some t) : o = some t ∧ t ≠ [] := by
  cases o with
  | none => cases h
  | some s =>
    cases s with
    | nil => cases h
    | cons c l => cases h; exact ⟨rfl, by simp⟩

end Verif.Version
