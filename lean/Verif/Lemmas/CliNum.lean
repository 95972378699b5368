import Verif.Lemmas.Cli

namespace TinyDIP.Cli

theorem isDigit_toStr {n : Nat} {c : Char} (h : c ∈ toStr n) : c.isDigit = true :=
  Nat.isDigit_of_mem_toDigits (by omega) (by omega) h

theorem not_junk_of_digit {c : Char} (h : c.isDigit = true) : ¬ Junk c := by
  intro hj
  simp only [Junk, List.mem_cons, List.not_mem_nil, or_false] at hj
  rcases hj with rfl | rfl | rfl | rfl | rfl | rfl | rfl | rfl <;> revert h <;> decide

theorem toStr_ne_nil (n : Nat) : toStr n ≠ [] := Nat.toDigits_ne_nil

theorem toStr_inj {a b : Nat} (h : toStr a = toStr b) : a = b := by
  have ha := Nat.ofDigitChars_ten_toDigits (n := a)
  have hb := Nat.ofDigitChars_ten_toDigits (n := b)
  unfold toStr at h
  rw [h] at ha
  exact ha.symm.trans hb

theorem takeWhile_eq_self {α : Type} (p : α → Bool) (l : List α) (h : ∀ a ∈ l, p a = true) :
    l.takeWhile p = l := by
  induction l with
  | nil => rfl
  | cons a l ih =>
    simp only [List.takeWhile_cons, h a (by simp), if_true]
    rw [ih fun b hb => h b (by simp [hb])]

theorem sanitize_toStr (n : Nat) : sanitize (toStr n) = toStr n := by
  apply sanitize_eq_self
  · intro c hc; exact not_junk_of_digit (isDigit_toStr (List.mem_of_head? hc))
  · intro c hc; exact not_junk_of_digit (isDigit_toStr (List.mem_of_getLast? hc))

theorem parseSize_toStr {n : Nat} (h : n < 2 ^ 64) : parseSize (toStr n) = some n := by
  unfold parseSize
  simp only [sanitize_toStr, takeWhile_eq_self _ _ (fun c hc => isDigit_toStr hc),
    toStr_ne_nil, if_false]
  have : Nat.ofDigitChars 10 (toStr n) 0 = n := Nat.ofDigitChars_ten_toDigits
  rw [this, if_pos h]

/-- Temporary and pipe names denote themselves. -/
theorem sanitize_prefix_toStr (p : Str) (n : Nat) (hne : p ≠ [])
    (hp : ∀ c, p.head? = some c → ¬ Junk c) : sanitize (p ++ toStr n) = p ++ toStr n := by
  apply sanitize_eq_self
  · intro c hc
    apply hp
    cases p with
    | nil => exact absurd rfl hne
    | cons a p => simpa using hc
  · intro c hc
    rw [List.getLast?_append] at hc
    have : (toStr n).getLast? = some c := by
      cases h : (toStr n).getLast? with
      | none => exact absurd (List.getLast?_eq_none_iff.1 h) (toStr_ne_nil n)
      | some d => rw [h] at hc; simpa using hc
    exact not_junk_of_digit (isDigit_toStr (List.mem_of_getLast? this))

end TinyDIP.Cli
