import Verif.Spec.Text
import Verif.Lemmas.Io
import Verif.Lemmas.CliNum
import Verif.Lemmas.Hist
import Mathlib.Tactic.Linarith
import Mathlib.Tactic.Positivity
import Mathlib.Tactic.NormNum
import Mathlib.Tactic.Ring

/-!
# Lemmas about text image files
-/

namespace TinyDIP.Text

open TinyDIP TinyDIP.Cli Image

theorem isSpace_iff (c : Char) : isSpace c = true ↔ Blank c := by
  simp [isSpace, Blank]
  tauto

theorem pnmToken_eq (s : Str) : pnmToken s = match s.dropWhile isSpace with
    | [] => ([], [])
    | c :: r =>
      if c = '#' then
        pnmToken (((r.dropWhile fun c => !isSpace c).dropWhile fun c => c != '\n').drop 1)
      else (c :: r.takeWhile fun c => !isSpace c, r.dropWhile fun c => !isSpace c) := by
  rw [pnmToken]
  split <;> rename_i h <;> simp [h]

theorem pnmToken_blank {c : Char} (h : Blank c) (s : Str) : pnmToken (c :: s) = pnmToken s := by
  rw [pnmToken_eq (c :: s), pnmToken_eq s]
  simp [(isSpace_iff c).2 h]

theorem isSpace_hash : isSpace '#' = false := by decide
theorem isSpace_nl : isSpace '\n' = true := by decide

theorem dropWhile_comment (body s : Str) (h : '\n' ∉ body) :
    (((body ++ '\n' :: s).dropWhile fun c => !isSpace c).dropWhile fun c => c != '\n').drop 1 = s := by
  have h1 : ∀ b : Str, '\n' ∉ b → ((b ++ '\n' :: s).dropWhile fun c => c != '\n') = '\n' :: s := by
    intro b
    induction b with
    | nil => intro _; simp
    | cons d b ih =>
      intro h
      simp only [List.mem_cons, not_or] at h
      have : (d != '\n') = true := by simp; exact fun e => h.1 e.symm
      rw [List.cons_append, List.dropWhile_cons, if_pos this, ih h.2]
  have h2 : ((body ++ '\n' :: s).dropWhile fun c => !isSpace c).dropWhile (fun c => c != '\n') = '\n' :: s := by
    induction body with
    | nil => simp [isSpace_nl]
    | cons d b ih =>
      simp only [List.mem_cons, not_or] at h
      by_cases hd : isSpace d = true
      · have : ((d :: b ++ '\n' :: s).dropWhile fun c => !isSpace c) = d :: b ++ '\n' :: s := by
          simp [hd]
        rw [this]
        exact h1 (d :: b) (by simp [h.1, h.2])
      · have : ((d :: b ++ '\n' :: s).dropWhile fun c => !isSpace c)
            = (b ++ '\n' :: s).dropWhile fun c => !isSpace c := by
          simp [hd]
        rw [this]
        exact ih h.2
  rw [h2]; rfl

theorem pnmToken_comment (body s : Str) (h : '\n' ∉ body) :
    pnmToken ('#' :: (body ++ '\n' :: s)) = pnmToken s := by
  rw [pnmToken_eq]
  simp only [List.dropWhile_cons, isSpace_hash, Bool.false_eq_true, if_false, if_true,
    dropWhile_comment body s h]

theorem pnmToken_sep {sep : Str} (h : Sep sep) (s : Str) : pnmToken (sep ++ s) = pnmToken s := by
  induction h with
  | nil => rfl
  | blank c s' hc _ ih => rw [List.cons_append, pnmToken_blank hc, ih]
  | comment body s' hb _ ih =>
    rw [show '#' :: (body ++ '\n' :: s') ++ s = '#' :: (body ++ '\n' :: (s' ++ s)) by simp,
      pnmToken_comment _ _ hb, ih]

theorem takeDrop_word (t rest : Str) (ht : ∀ c ∈ t, ¬ Blank c)
    (hr : rest = [] ∨ ∃ c r, rest = c :: r ∧ Blank c) :
    ((t ++ rest).takeWhile fun c => !isSpace c) = t ∧
      ((t ++ rest).dropWhile fun c => !isSpace c) = rest := by
  induction t with
  | nil =>
    rcases hr with rfl | ⟨c, r, rfl, hc⟩
    · simp
    · simp [(isSpace_iff c).2 hc]
  | cons d t ih =>
    have hd : isSpace d = false := by
      rw [Bool.eq_false_iff]; exact fun h => ht d (by simp) ((isSpace_iff d).1 h)
    obtain ⟨h1, h2⟩ := ih (fun c hc => ht c (by simp [hc]))
    simp [hd, h1, h2]

theorem pnmToken_word {t rest : Str} (ht : Word t) (hr : rest = [] ∨ ∃ c r, rest = c :: r ∧ Blank c) :
    pnmToken (t ++ rest) = (t, rest) := by
  obtain ⟨hne, hb, hh⟩ := ht
  cases t with
  | nil => exact absurd rfl hne
  | cons d t =>
    have hd : isSpace d = false := by
      rw [Bool.eq_false_iff]; exact fun h => hb d (by simp) ((isSpace_iff d).1 h)
    have hd' : d ≠ '#' := fun e => hh (by simp [e])
    obtain ⟨h1, h2⟩ := takeDrop_word t rest (fun c hc => hb c (by simp [hc])) hr
    rw [pnmToken_eq]
    simp [hd, hd', h1, h2]

theorem pnmToken_end : pnmToken [] = ([], []) := by rw [pnmToken_eq]; rfl

theorem dropWhile_noNl (l : Str) (h : '\n' ∉ l) : (l.dropWhile fun c => c != '\n') = [] := by
  induction l with
  | nil => rfl
  | cons d l ih =>
    simp only [List.mem_cons, not_or] at h
    have : (d != '\n') = true := by simp; exact fun e => h.1 e.symm
    rw [List.dropWhile_cons, if_pos this, ih h.2]

theorem pnmToken_open (body : Str) (h : '\n' ∉ body) : pnmToken ('#' :: body) = ([], []) := by
  rw [pnmToken_eq]
  have h1 : '\n' ∉ body.dropWhile fun c => !isSpace c :=
    fun hm => h ((List.dropWhile_suffix _).subset hm)
  simp only [List.dropWhile_cons, isSpace_hash, Bool.false_eq_true, if_false, if_true,
    dropWhile_noNl _ h1, List.drop_nil, pnmToken_end]

/-- What a text with these tokens gives: the first token, and a rest with the other tokens. -/
theorem pnmToken_text {ts : List Str} {s : Str} (h : PnmText ts s) :
    (pnmToken s).1 = ts.headD [] ∧ PnmText ts.tail (pnmToken s).2 := by
  cases h with
  | nil _ hs =>
    have := pnmToken_sep hs []
    rw [List.append_nil] at this
    rw [this, pnmToken_end]
    exact ⟨rfl, .nil _ .nil⟩
  | openComment s body hs hb =>
    rw [pnmToken_sep hs, pnmToken_open body hb]
    exact ⟨rfl, .nil _ .nil⟩
  | cons s t rest ts hs ht hr hb =>
    rw [pnmToken_sep hs, pnmToken_word ht hb]
    exact ⟨rfl, hr⟩

/-- The samples read depend on the tokens only. -/
theorem pnmSamples_text (n : Nat) {ts : List Str} {s s' : Str} (h : PnmText ts s) (h' : PnmText ts s')
    (raw : List Int) : pnmSamples n s raw = pnmSamples n s' raw := by
  induction n generalizing ts s s' raw with
  | zero => rfl
  | succ n ih =>
    obtain ⟨h1, h2⟩ := pnmToken_text h
    obtain ⟨h1', h2'⟩ := pnmToken_text h'
    simp only [pnmSamples, h1, h1']
    split
    · rfl
    · cases stoi (ts.headD []) with
      | ok v => simp only [Res.ok_bind]; exact ih h2 h2' _
      | throw e => rfl
      | ub => rfl

theorem pnmRead_text (sched : List Nat → List Nat) (bits : Int) {ts : List Str} {s s' : Str}
    (h : PnmText ts s) (h' : PnmText ts s') :
    pnmRead sched (some s) bits = pnmRead sched (some s') bits := by
  obtain ⟨m1, m2⟩ := pnmToken_text h
  obtain ⟨m1', m2'⟩ := pnmToken_text h'
  obtain ⟨w1, w2⟩ := pnmToken_text m2
  obtain ⟨w1', w2'⟩ := pnmToken_text m2'
  obtain ⟨h1, h2⟩ := pnmToken_text w2
  obtain ⟨h1', h2'⟩ := pnmToken_text w2'
  obtain ⟨x1, x2⟩ := pnmToken_text h2
  obtain ⟨x1', x2'⟩ := pnmToken_text h2'
  simp only [pnmRead, m1, m1', w1, w1', h1, h1', x1, x1']
  by_cases hp : ts.headD [] = sP1
  · simp only [hp, ne_eq, not_true_eq_false, if_false, false_and, Res.ok_bind]
    simp only [pnmSamples_text _ h2 h2']
  · simp only [hp, ne_eq, not_false_eq_true, if_true, bind_assoc, Res.ok_bind]
    simp only [pnmSamples_text _ x2 x2']

/-! ### Numbers -/

theorem digit_ne {c d : Char} (h : c.isDigit = true) (hd : d.isDigit = false) : c ≠ d := by
  rintro rfl; rw [h] at hd; exact absurd hd (by decide)

theorem isSpace_digit {c : Char} (h : c.isDigit = true) : isSpace c = false := by
  rw [Bool.eq_false_iff]
  intro hs
  rcases (isSpace_iff c).1 hs with rfl | rfl | rfl | rfl | rfl | rfl <;> revert h <;> decide

theorem toStr_cons (n : Nat) : ∃ c r, toStr n = c :: r ∧ c.isDigit = true := by
  cases h : toStr n with
  | nil => exact absurd h (toStr_ne_nil n)
  | cons c r => exact ⟨c, r, rfl, isDigit_toStr (n := n) (by rw [h]; simp)⟩

theorem takeWhile_digits (n : Nat) (rest : Str) (hr : ∀ c, rest.head? = some c → c.isDigit = false) :
    (toStr n ++ rest).takeWhile Char.isDigit = toStr n ∧
      (toStr n ++ rest).dropWhile Char.isDigit = rest := by
  have h : ∀ c ∈ toStr n, c.isDigit = true := fun c hc => isDigit_toStr hc
  generalize toStr n = l at h
  induction l with
  | nil =>
    cases rest with
    | nil => simp
    | cons c r => have := hr c rfl; simp [this]
  | cons c l ih =>
    obtain ⟨h1, h2⟩ := ih (fun c hc => h c (by simp [hc]))
    simp [h c (by simp), h1, h2]

theorem digitsVal_toStr (n : Nat) : digitsVal (toStr n) = n := Nat.ofDigitChars_ten_toDigits

theorem signDigits_toStr (n : Nat) : signDigits (toStr n) = (false, toStr n) := by
  obtain ⟨c, r, h, hc⟩ := toStr_cons n
  have h1 := (takeWhile_digits n [] (by simp)).1
  rw [List.append_nil] at h1
  unfold signDigits
  rw [h] at h1 ⊢
  have hm : c ≠ '-' := digit_ne hc (by decide)
  have hp : c ≠ '+' := digit_ne hc (by decide)
  simp only [List.dropWhile_cons, isSpace_digit hc, Bool.false_eq_true, if_false]
  split
  · rename_i e; exact absurd (List.cons.inj e).1 hm
  · rename_i e; exact absurd (List.cons.inj e).1 hp
  · rw [h1]

theorem signDigits_neg (n : Nat) : signDigits ('-' :: toStr n) = (true, toStr n) := by
  have h1 := (takeWhile_digits n [] (by simp)).1
  rw [List.append_nil] at h1
  unfold signDigits
  have : isSpace '-' = false := by decide
  simp only [List.dropWhile_cons, this, Bool.false_eq_true, if_false, h1]

theorem stoull_toStr {n : Nat} (h : n < 2 ^ 64) : stoull (toStr n) = .ok n := by
  unfold stoull
  simp only [signDigits_toStr, toStr_ne_nil, if_false, digitsVal_toStr, ge_iff_le,
    Nat.not_le.2 h, Bool.false_eq_true]

theorem stoi_intStr {n : Int} (h : -(2 ^ 31) ≤ n) (h' : n < 2 ^ 31) : stoi (intStr n) = .ok n := by
  unfold stoi intStr
  by_cases hn : n < 0
  · simp only [if_pos hn, signDigits_neg, toStr_ne_nil, if_false, digitsVal_toStr, if_true]
    rw [show -(n.natAbs : Int) = n by omega, if_pos ⟨h, h'⟩]
  · simp only [if_neg hn, signDigits_toStr, toStr_ne_nil, if_false, digitsVal_toStr, Bool.false_eq_true]
    rw [show (n.natAbs : Int) = n by omega, if_pos ⟨h, h'⟩]

theorem intStr_ofNat (n : Nat) : intStr n = toStr n := by
  unfold intStr
  rw [if_neg (by omega)]; rfl

theorem word_toStr (n : Nat) : Word (toStr n) := by
  refine ⟨toStr_ne_nil n, fun c hc hb => ?_, ?_⟩
  · have := isSpace_digit (isDigit_toStr hc)
    rw [(isSpace_iff c).2 hb] at this; exact absurd this (by decide)
  · obtain ⟨c, r, h, hc⟩ := toStr_cons n
    rw [h]
    simp
    exact digit_ne hc (by decide)

theorem word_intStr (n : Int) : Word (intStr n) := by
  unfold intStr
  split
  · obtain ⟨h1, h2, -⟩ := word_toStr n.natAbs
    refine ⟨by simp, ?_, by simp⟩
    intro c hc
    rcases List.mem_cons.1 hc with rfl | hc
    · unfold Blank; decide
    · exact h2 c hc
  · exact word_toStr _

/-- Reading a list of numbers. -/
theorem pnmSamples_ok (vs : List Int) {ts : List Str} {s : Str} (h : PnmText (vs.map intStr ++ ts) s)
    (hv : ∀ v ∈ vs, -(2 ^ 31) ≤ v ∧ v < 2 ^ 31) (raw : List Int) :
    pnmSamples vs.length s raw = .ok (raw ++ vs) := by
  induction vs generalizing s raw with
  | nil => simp [pnmSamples]
  | cons v vs ih =>
    obtain ⟨h1, h2⟩ := pnmToken_text h
    simp only [List.map_cons, List.cons_append, List.headD_cons, List.tail_cons] at h1 h2
    simp only [List.length_cons, pnmSamples, h1, if_neg (word_intStr v).1,
      stoi_intStr (hv v (by simp)).1 (hv v (by simp)).2, Res.ok_bind]
    rw [ih h2 (fun v hv' => hv v (by simp [hv']))]
    simp

/-- Not enough numbers. -/
theorem pnmSamples_short (vs : List Int) {s : Str} (h : PnmText (vs.map intStr) s)
    (hv : ∀ v ∈ vs, -(2 ^ 31) ≤ v ∧ v < 2 ^ 31) {n : Nat} (hn : vs.length < n) (raw : List Int) :
    pnmSamples n s raw = .throw .runtime := by
  induction vs generalizing s raw n with
  | nil =>
    obtain ⟨h1, -⟩ := pnmToken_text h
    cases n with
    | zero => simp at hn
    | succ n => simp only [pnmSamples, h1]; rfl
  | cons v vs ih =>
    obtain ⟨h1, h2⟩ := pnmToken_text h
    simp only [List.map_cons, List.headD_cons, List.tail_cons] at h1 h2
    cases n with
    | zero => simp at hn
    | succ n =>
      simp only [pnmSamples, h1, if_neg (word_intStr v).1,
        stoi_intStr (hv v (by simp)).1 (hv v (by simp)).2, Res.ok_bind]
      exact ih h2 (fun v hv' => hv v (by simp [hv'])) (by simpa using hn) _

/-- A word that is not converted to a number. -/
theorem pnmSamples_bad (vs : List Int) {t : Str} {ts : List Str} {s : Str}
    (h : PnmText (vs.map intStr ++ t :: ts) s)
    (hv : ∀ v ∈ vs, -(2 ^ 31) ≤ v ∧ v < 2 ^ 31) (hne : t ≠ []) {e : Exc} (ht : stoi t = .throw e) {n : Nat}
    (hn : vs.length < n) (raw : List Int) :
    pnmSamples n s raw = .throw e := by
  induction vs generalizing s raw n with
  | nil =>
    obtain ⟨h1, -⟩ := pnmToken_text h
    cases n with
    | zero => simp at hn
    | succ n =>
      simp only [List.map_nil, List.nil_append, List.headD_cons] at h1
      simp only [pnmSamples, h1, if_neg hne, ht, Res.throw_bind]
  | cons v vs ih =>
    obtain ⟨h1, h2⟩ := pnmToken_text h
    simp only [List.map_cons, List.cons_append, List.headD_cons, List.tail_cons] at h1 h2
    cases n with
    | zero => simp at hn
    | succ n =>
      simp only [pnmSamples, h1, if_neg (word_intStr v).1,
        stoi_intStr (hv v (by simp)).1 (hv v (by simp)).2, Res.ok_bind]
      exact ih h2 (fun v hv' => hv v (by simp [hv'])) (by simpa using hn) _

/-! ### Reading -/

theorem ppm_loop {w h : Nat} (hw : w < 2 ^ 64) (hh : h < 2 ^ 64) (hwh : w * h < 2 ^ 64)
    (raw : List Int) (magic : Str) (shift : Int) (g : Nat → RGB)
    (hg : ∀ i, i < w * h → ∀ im : Image RGB,
      ppmPixel raw magic shift w h im i = im.set2u (i % w) (h - 1 - i / w) (g i))
    {sched : List Nat → List Nat} (hs : Fair sched) :
    ∃ out, loop (ppmPixel raw magic shift w h) (sched (List.range (w * h)))
        (Image.ofSizes ⟨0, 0, 0⟩ [w, h]) = .ok out ∧
      out.Shows w h (fun x y => g ((h - 1 - y) * w + x)) := by
  refine loop_fill (fun i => (i % w, h - 1 - i / w)) (fun x y => g ((h - 1 - y) * w + x)) _ _ ?_ ?_ _
    (fun _ _ => ⟨0, 0, 0⟩) (ofSizes_shows _ hw hh hwh)
  · intro i hi im f sf
    have hi' : i < w * h := by simpa using (hs _).mem_iff.1 hi
    have hw0 : 0 < w := Nat.pos_of_ne_zero fun e => by subst e; simp at hi'
    have hy : i / w < h := Nat.div_lt_of_lt_mul hi'
    rw [hg i hi' im]
    obtain ⟨im', e, s'⟩ := sf.set2u (Nat.mod_lt i hw0) (show h - 1 - i / w < h by generalize i / w = q at hy; omega) (g i)
    refine ⟨im', e, ?_⟩
    have he : (h - 1 - (h - 1 - i / w)) * w + i % w = i := by
      rw [show h - 1 - (h - 1 - i / w) = i / w by generalize i / w = q at hy; omega, Nat.mul_comm]; exact Nat.div_add_mod i w
    simp only [he]
    exact s'
  · intro x y hx hy
    have hlt : (h - 1 - y) * w + x < w * h := by
      have h1 : (h - 1 - y + 1) * w ≤ h * w := Nat.mul_le_mul_right _ (by omega)
      rw [Nat.add_mul, Nat.one_mul] at h1
      rw [Nat.mul_comm w h]; omega
    refine ⟨(h - 1 - y) * w + x, (hs _).mem_iff.2 (by simpa using hlt), ?_⟩
    have h1 : ((h - 1 - y) * w + x) % w = x := by
      rw [Nat.add_comm, Nat.add_mul_mod_self_right, Nat.mod_eq_of_lt hx]
    have h2 : ((h - 1 - y) * w + x) / w = h - 1 - y := by
      rw [Nat.add_comm, Nat.add_mul_div_right _ _ (by omega), Nat.div_eq_of_lt hx, Nat.zero_add]
    simp only [h1, h2]
    rw [show h - 1 - (h - 1 - y) = y by omega]

theorem ppmPixel_eq {w h i : Nat} (hw : w < 2 ^ 64) (hh : h < 2 ^ 64) (hi : i < w * h) (raw : List Int)
    (magic : Str) (shift : Int) (im : Image RGB) (p : RGB)
    (hp : ppmColour raw magic shift i = .ok p) :
    ppmPixel raw magic shift w h im i = im.set2u (i % w) (h - 1 - i / w) p := by
  have hw0 : 0 < w := Nat.pos_of_ne_zero fun e => by subst e; simp at hi
  have hy : i / w < h := Nat.div_lt_of_lt_mul hi
  unfold ppmPixel
  simp only [umod, udiv, if_neg (show ¬ w = 0 by omega), Res.ok_bind, hp]
  generalize i / w = q at hy
  rw [wsub_of_le (by omega) hh, wsub_of_le (by omega) (by omega)]

/-- The byte a sample becomes. -/
def shifted (v shift : Int) : Byte :=
  if 0 ≤ shift then BitVec.ofInt 8 (v * 2 ^ shift.toNat) else BitVec.ofInt 8 (v / 2 ^ (-shift).toNat)

theorem shiftColor_ok (v : Int) {shift : Int} (h1 : -32 < shift) (h2 : shift < 32) :
    shiftColor v shift = .ok (shifted v shift) := by
  unfold shiftColor shifted
  by_cases h : 0 ≤ shift
  · rw [if_pos h, if_pos h, if_pos h2]
  · rw [if_neg h, if_neg h, if_pos (by omega)]

theorem vget_getD {l : List Int} {i : Nat} (h : i < l.length) : vget l i = .ok (l.getD i 0) := by
  simp [vget, h]

/-- The header of a file with these tokens. -/
theorem pnmRead_header {sched : List Nat → List Nat} {outbits : Int} {magic : Str} {w h : Nat}
    {max : Int} {ts : List Str} {s : Str}
    (hm : magic = sP1 ∨ magic = sP2 ∨ magic = sP3) (hw : w < 2 ^ 64) (hh : h < 2 ^ 64)
    (hm0 : 0 ≤ max) (hm1 : max + 1 < 2 ^ 31) (hm2 : magic = sP1 → max = 1) (ho : 0 ≤ outbits)
    (ho2 : outbits < 2 ^ 31)
    (ht : PnmText (magic :: toStr w :: toStr h :: ((if magic = sP1 then [] else [intStr max]) ++ ts)) s) :
    ∃ rest, PnmText ts rest ∧ pnmRead sched (some s) outbits = (do
      let raw ← pnmSamples (if magic = sP3 then wmul (wmul w h) 3 else wmul w h) rest []
      loop (ppmPixel raw magic (outbits - Nat.log2 (max + 1).toNat) w h)
        (sched (List.range (wmul w h))) (Image.ofSizes ⟨0, 0, 0⟩ [w, h])) := by
  obtain ⟨m1, m2⟩ := pnmToken_text ht
  obtain ⟨w1, w2⟩ := pnmToken_text m2
  obtain ⟨h1, h2⟩ := pnmToken_text w2
  simp only [List.headD_cons, List.tail_cons] at m1 w1 h1 h2
  have hl : Nat.log2 (max + 1).toNat < 31 := by
    rw [Nat.log2_lt (by omega)]; omega
  have hb : inBits max = .ok (Nat.log2 (max + 1).toNat) := by
    unfold inBits
    rw [chkInt_ok (by omega) (by omega), Res.ok_bind, if_neg (by omega)]
  have hc : chkInt (outbits - Nat.log2 (max + 1).toNat) = .ok (outbits - Nat.log2 (max + 1).toNat) :=
    chkInt_ok (by omega) (by omega)
  have hmm : ¬ (magic ≠ sP1 ∧ magic ≠ sP2 ∧ magic ≠ sP3) := by tauto
  by_cases hp : magic = sP1
  · rw [if_pos hp] at h2
    refine ⟨_, h2, ?_⟩
    have := hm2 hp
    subst this
    simp only [pnmRead, m1, w1, h1, if_neg hmm, stoull_toStr hw, stoull_toStr hh, Res.ok_bind]
    simp only [hp, ne_eq, not_true_eq_false, if_false, Res.ok_bind, hb, hc]
  · rw [if_neg hp] at h2
    obtain ⟨x1, x2⟩ := pnmToken_text h2
    simp only [List.singleton_append, List.headD_cons, List.tail_cons] at x1 x2
    refine ⟨_, x2, ?_⟩
    simp only [pnmRead, m1, w1, h1, x1, if_neg hmm, stoull_toStr hw, stoull_toStr hh, Res.ok_bind]
    simp only [hp, ne_eq, not_false_eq_true, if_true, stoi_intStr (n := max) (by omega) (by omega),
      Res.ok_bind, hb, hc]

/-- A file with the colour samples `vs`. -/
theorem pnmRead_p3 {sched : List Nat → List Nat} (hs : Fair sched) {outbits : Int} {w h : Nat}
    {max : Int} {vs : List Int} {ts : List Str} {s : Str} (hw : w < 2 ^ 64) (hh : h < 2 ^ 64)
    (hwh : w * h * 3 < 2 ^ 64)
    (hm0 : 0 ≤ max) (hm1 : max + 1 < 2 ^ 31) (ho : 0 ≤ outbits) (ho2 : outbits < 32)
    (ht : PnmText (sP3 :: toStr w :: toStr h :: intStr max :: (vs.map intStr ++ ts)) s)
    (hl : vs.length = w * h * 3) (hv : ∀ v ∈ vs, -(2 ^ 31) ≤ v ∧ v < 2 ^ 31) :
    ∃ out, pnmRead sched (some s) outbits = .ok out ∧ out.Shows w h (fun x y =>
      ⟨shifted (vs.getD (((h - 1 - y) * w + x) * 3) 0) (outbits - Nat.log2 (max + 1).toNat),
       shifted (vs.getD (((h - 1 - y) * w + x) * 3 + 1) 0) (outbits - Nat.log2 (max + 1).toNat),
       shifted (vs.getD (((h - 1 - y) * w + x) * 3 + 2) 0) (outbits - Nat.log2 (max + 1).toNat)⟩) := by
  have hlog : Nat.log2 (max + 1).toNat < 31 := by
    rw [Nat.log2_lt (by omega)]; omega
  obtain ⟨rest, r1, r2⟩ := pnmRead_header (sched := sched) (magic := sP3) (max := max)
    (ts := vs.map intStr ++ ts) (Or.inr (Or.inr rfl)) hw hh hm0 hm1 (fun h => absurd h (by decide)) ho (by omega)
    (by simpa [show sP3 ≠ sP1 by decide] using ht)
  have h2 : wmul w h = w * h := wmul_of_lt (by omega)
  have h3 : wmul (w * h) 3 = w * h * 3 := wmul_of_lt hwh
  rw [if_pos rfl, h2, h3, ← hl, pnmSamples_ok vs r1 hv, Res.ok_bind, List.nil_append] at r2
  rw [r2]
  generalize hsh : outbits - (Nat.log2 (max + 1).toNat : Int) = shift
  refine ppm_loop hw hh (by omega) vs sP3 shift
    (fun i => ⟨shifted (vs.getD (i * 3) 0) shift, shifted (vs.getD (i * 3 + 1) 0) shift,
      shifted (vs.getD (i * 3 + 2) 0) shift⟩) ?_ hs
  intro i hi im
  refine ppmPixel_eq hw hh hi _ _ _ _ _ ?_
  unfold ppmColour
  have e3 : wmul i 3 = i * 3 := wmul_of_lt (by omega)
  have e4 : wadd (i * 3) 1 = i * 3 + 1 := wadd_of_lt (by omega)
  have e5 : wadd (i * 3) 2 = i * 3 + 2 := wadd_of_lt (by omega)
  rw [if_neg (by decide), if_neg (by decide), if_pos rfl]
  simp only [e3, e4, e5, vget_getD (l := vs) (i := i * 3) (by omega),
    vget_getD (l := vs) (i := i * 3 + 1) (by omega), vget_getD (l := vs) (i := i * 3 + 2) (by omega),
    shiftColor_ok _ (show -32 < shift by omega) (show shift < 32 by omega), Res.ok_bind]

/-- A file with the grey samples `vs`. -/
theorem pnmRead_p2 {sched : List Nat → List Nat} (hs : Fair sched) {outbits : Int} {w h : Nat}
    {max : Int} {vs : List Int} {ts : List Str} {s : Str} (hw : w < 2 ^ 64) (hh : h < 2 ^ 64)
    (hwh : w * h < 2 ^ 64)
    (hm0 : 0 ≤ max) (hm1 : max + 1 < 2 ^ 31) (ho : 0 ≤ outbits) (ho2 : outbits < 32)
    (ht : PnmText (sP2 :: toStr w :: toStr h :: intStr max :: (vs.map intStr ++ ts)) s)
    (hl : vs.length = w * h) (hv : ∀ v ∈ vs, -(2 ^ 31) ≤ v ∧ v < 2 ^ 31) :
    ∃ out, pnmRead sched (some s) outbits = .ok out ∧ out.Shows w h (fun x y =>
      ⟨shifted (vs.getD ((h - 1 - y) * w + x) 0) (outbits - Nat.log2 (max + 1).toNat),
       shifted (vs.getD ((h - 1 - y) * w + x) 0) (outbits - Nat.log2 (max + 1).toNat),
       shifted (vs.getD ((h - 1 - y) * w + x) 0) (outbits - Nat.log2 (max + 1).toNat)⟩) := by
  have hlog : Nat.log2 (max + 1).toNat < 31 := by
    rw [Nat.log2_lt (by omega)]; omega
  obtain ⟨rest, r1, r2⟩ := pnmRead_header (sched := sched) (magic := sP2) (max := max)
    (ts := vs.map intStr ++ ts) (Or.inr (Or.inl rfl)) hw hh hm0 hm1 (fun h => absurd h (by decide)) ho (by omega)
    (by simpa [show sP2 ≠ sP1 by decide] using ht)
  have h2 : wmul w h = w * h := wmul_of_lt (by omega)
  rw [if_neg (by decide), h2, ← hl, pnmSamples_ok vs r1 hv, Res.ok_bind, List.nil_append, hl] at r2
  rw [r2]
  generalize hsh : outbits - (Nat.log2 (max + 1).toNat : Int) = shift
  refine ppm_loop hw hh (by omega) vs sP2 shift
    (fun i => ⟨shifted (vs.getD i 0) shift, shifted (vs.getD i 0) shift, shifted (vs.getD i 0) shift⟩) ?_ hs
  intro i hi im
  refine ppmPixel_eq hw hh hi _ _ _ _ _ ?_
  unfold ppmColour
  rw [if_neg (by decide), if_pos rfl]
  simp only [vget_getD (l := vs) (i := i) (by omega),
    shiftColor_ok _ (show -32 < shift by omega) (show shift < 32 by omega), Res.ok_bind]

/-- A file with the bits `vs`. -/
theorem pnmRead_p1 {sched : List Nat → List Nat} (hs : Fair sched) {outbits : Int} {w h : Nat}
    {vs : List Int} {ts : List Str} {s : Str} (hw : w < 2 ^ 64) (hh : h < 2 ^ 64)
    (hwh : w * h < 2 ^ 64) (ho : 0 ≤ outbits) (ho2 : outbits < 32)
    (ht : PnmText (sP1 :: toStr w :: toStr h :: (vs.map intStr ++ ts)) s)
    (hl : vs.length = w * h) (hv : ∀ v ∈ vs, -(2 ^ 31) ≤ v ∧ v < 2 ^ 31) :
    ∃ out, pnmRead sched (some s) outbits = .ok out ∧ out.Shows w h (fun x y =>
      if vs.getD ((h - 1 - y) * w + x) 0 = 0 then ⟨1, 1, 1⟩ else ⟨0, 0, 0⟩) := by
  obtain ⟨rest, r1, r2⟩ := pnmRead_header (sched := sched) (magic := sP1) (max := 1)
    (ts := vs.map intStr ++ ts) (Or.inl rfl) hw hh (by omega) (by omega) (fun _ => rfl) ho (by omega)
    (by simpa using ht)
  have h2 : wmul w h = w * h := wmul_of_lt (by omega)
  rw [if_neg (by decide), h2, ← hl, pnmSamples_ok vs r1 hv, Res.ok_bind, List.nil_append, hl] at r2
  rw [r2]
  refine ppm_loop hw hh (by omega) vs sP1 _ (fun i => if vs.getD i 0 = 0 then ⟨1, 1, 1⟩ else ⟨0, 0, 0⟩) ?_ hs
  intro i hi im
  refine ppmPixel_eq hw hh hi _ _ _ _ _ ?_
  unfold ppmColour
  rw [if_pos rfl]
  simp only [vget_getD (l := vs) (i := i) (by omega), Res.ok_bind]
  split <;> rfl

/-! ### Writing -/

theorem PnmText.blank {ts : List Str} {s : Str} (h : PnmText ts s) {c : Char} (hc : Blank c) :
    PnmText ts (c :: s) := by
  cases h with
  | nil _ hs => exact .nil _ (.blank _ _ hc hs)
  | openComment s body hs hb => exact .openComment (c :: s) body (.blank _ _ hc hs) hb
  | cons s t rest ts hs ht hr hb => exact .cons (c :: s) t rest ts (.blank _ _ hc hs) ht hr hb

/-- Words, each followed by one white space character. -/
theorem text_pairs (l : List (Str × Char)) (h : ∀ p ∈ l, Word p.1 ∧ Blank p.2) {ts : List Str}
    {s : Str} (hs : PnmText ts s) :
    PnmText (l.map Prod.fst ++ ts) ((l.flatMap fun p => p.1 ++ [p.2]) ++ s) := by
  induction l with
  | nil => exact hs
  | cons p l ih =>
    have hp := h p (by simp)
    have := (ih fun q hq => h q (by simp [hq])).blank hp.2
    have h2 := PnmText.cons [] p.1 _ _ .nil hp.1 this (Or.inr ⟨_, _, rfl, hp.2⟩)
    simpa using h2

theorem loop_collect {β : Type} (body : Str → β → Res Str) (g : β → Str) (l : List β)
    (h : ∀ b ∈ l, ∀ out, body out b = .ok (out ++ g b)) (out : Str) :
    loop body l out = .ok (out ++ l.flatMap g) := by
  induction l generalizing out with
  | nil => simp [loop]
  | cons b l ih =>
    rw [loop, h b (by simp) out]
    simp only
    rw [ih (fun b hb => h b (by simp [hb]))]
    simp

theorem pnmWrite_eq {im : Image RGB} {w h : Nat} {f : Nat → Nat → RGB} (s : im.Shows w h f)
    {magic : Str} (hm : magic = sP1 ∨ magic = sP2 ∨ magic = sP3) (max : Int) :
    pnmWrite im magic max = .ok (magic ++ ['\n'] ++ toStr w ++ [' '] ++ toStr h ++ ['\n'] ++
      (if magic ≠ sP1 then intStr max ++ ['\n'] else []) ++
      (iterYX w h).flatMap fun p => pnmPixelText magic (f p.1 (h - 1 - p.2))) := by
  have hmm : ¬ (magic ≠ sP1 ∧ magic ≠ sP2 ∧ magic ≠ sP3) := by tauto
  have key : ∀ p ∈ iterYX w h, ∀ out : Str, (do
      let q ← im.at2u p.1 (wsub (wsub h 1) p.2)
      Res.ok (out ++ pnmPixelText magic q)) = .ok (out ++ pnmPixelText magic (f p.1 (h - 1 - p.2))) := by
    rintro ⟨x, y⟩ hb out
    obtain ⟨hx, hy⟩ : x < w ∧ y < h := mem_iterYX.1 hb
    have hh := s.h_lt
    simp only
    rw [wsub_of_le (by omega) hh, wsub_of_le (by omega) (by omega), s.at2u hx (by omega), Res.ok_bind]
  have e := loop_collect (fun out (p : Nat × Nat) => do
      let q ← im.at2u p.1 (wsub (wsub h 1) p.2)
      Res.ok (out ++ pnmPixelText magic q)) (fun p => pnmPixelText magic (f p.1 (h - 1 - p.2))) _ key
  unfold pnmWrite pixFor
  rw [if_neg hmm]
  simp only [s.width, s.height]
  rw [e]

theorem getD_flatMap3 {β : Type} (g : β → List Int) (hg : ∀ b, (g b).length = 3) (l : List β) (i k : Nat)
    (hk : k < 3) {b : β} (hi : l[i]? = some b) : (l.flatMap g).getD (i * 3 + k) 0 = (g b).getD k 0 := by
  induction l generalizing i with
  | nil => simp at hi
  | cons a l ih =>
    cases i with
    | zero =>
      simp at hi
      subst hi
      simp only [List.flatMap_cons, Nat.zero_mul, Nat.zero_add, List.getD_eq_getElem?_getD]
      rw [List.getElem?_append_left (by rw [hg]; exact hk)]
    | succ i =>
      simp only [List.getElem?_cons_succ] at hi
      rw [← ih i hi]
      simp only [List.flatMap_cons, List.getD_eq_getElem?_getD]
      rw [List.getElem?_append_right (by rw [hg]; omega), hg]
      congr 2
      omega

theorem iterYX_get' {w h x y : Nat} (hx : x < w) (hy : y < h) :
    (iterYX w h)[(h - 1 - y) * w + x]? = some (x, h - 1 - y) := by
  rw [Nat.add_comm, Nat.mul_comm]
  exact iterYX_getElem hx (by omega)

theorem iterYX_len (w h : Nat) : (iterYX w h).length = w * h := by
  simp [iterYX, List.length_flatMap, Nat.mul_comm]

/-! ### CSV -/

theorem getlines_cons {sep : Char} (r rest : Str) (h : sep ∉ r) :
    getlines sep (r ++ sep :: rest) = r :: getlines sep rest := by
  induction r with
  | nil => cases rest <;> simp [getlines]
  | cons c r ih =>
    simp only [List.mem_cons, not_or] at h
    have ih := ih h.2
    have hc : c ≠ sep := fun e => h.1 e.symm
    cases r with
    | nil => simp [getlines, hc]
    | cons d r =>
      have hd : d ≠ sep := fun e => h.2 (by simp [e])
      rw [List.cons_append, List.cons_append] at *
      rw [getlines, if_neg hc]
      simp only [if_neg hd, ih]

theorem getlines_single {sep : Char} (r : Str) (h : sep ∉ r) (hr : r ≠ []) : getlines sep r = [r] := by
  induction r with
  | nil => exact absurd rfl hr
  | cons c r ih =>
    simp only [List.mem_cons, not_or] at h
    have hc : c ≠ sep := fun e => h.1 e.symm
    cases r with
    | nil => simp [getlines, hc]
    | cons d r =>
      have hd : d ≠ sep := fun e => h.2 (by simp [e])
      rw [getlines, if_neg hc]
      simp only [if_neg hd, ih h.2 (by simp)]

theorem getlines_lines {sep : Char} (rows : List Str) (h : ∀ r ∈ rows, sep ∉ r) (rest : Str) :
    getlines sep ((rows.flatMap fun r => r ++ [sep]) ++ rest) = rows ++ getlines sep rest := by
  induction rows with
  | nil => rfl
  | cons r rows ih =>
    have := getlines_cons r ((rows.flatMap fun r => r ++ [sep]) ++ rest) (h r (by simp))
    simp only [List.flatMap_cons, List.append_assoc, List.nil_append, List.cons_append] at this ⊢
    rw [this, ih fun r hr => h r (by simp [hr])]

/-- The text of a row of cells. -/
def rowText (w : Nat) (c : Nat → Str) : Str :=
  (List.range w).flatMap fun x => c x ++ (if x < w - 1 then [','] else [])

theorem rowText_succ (n : Nat) (c : Nat → Str) :
    rowText (n + 1) c = (((List.range n).map c).flatMap fun r => r ++ [',']) ++ c n := by
  unfold rowText
  rw [List.range_succ, List.flatMap_append, List.flatMap_map]
  congr 1
  · apply List.flatMap_congr
    intro x hx
    rw [List.mem_range] at hx
    rw [if_pos (by omega)]
  · simp

theorem getlines_rowText {w : Nat} (hw : 0 < w) (c : Nat → Str)
    (hc : ∀ x, x < w → c x ≠ [] ∧ ',' ∉ c x) : getlines ',' (rowText w c) = (List.range w).map c := by
  cases w with
  | zero => omega
  | succ n =>
    rw [rowText_succ, getlines_lines, getlines_single _ (hc n (by omega)).2 (hc n (by omega)).1,
      List.range_succ, List.map_append]
    · rfl
    · intro r hr
      obtain ⟨x, hx, rfl⟩ := List.mem_map.1 hr
      rw [List.mem_range] at hx
      exact (hc x (by omega)).2

theorem rowText_ne_nil {w : Nat} (hw : 0 < w) (c : Nat → Str) (hc : ∀ x, x < w → c x ≠ []) :
    rowText w c ≠ [] := by
  cases w with
  | zero => omega
  | succ n => rw [rowText_succ]; simp [hc n (by omega)]

theorem nl_rowText {w : Nat} (c : Nat → Str) (hc : ∀ x, x < w → '\n' ∉ c x) :
    '\n' ∉ rowText w c := by
  intro h
  obtain ⟨x, hx, hm⟩ := List.mem_flatMap.1 h
  rw [List.mem_range] at hx
  rcases List.mem_append.1 hm with hm | hm
  · exact hc x hx hm
  · split at hm
    · simp at hm
    · simp at hm

variable {α : Type}

theorem csvRow_eq {im : Image α} {w h : Nat} {f : Nat → Nat → α} (s : im.Shows w h f) (fmt : α → Str)
    {y : Nat} (hy : y < h) : csvRow fmt im y = .ok (rowText w fun x => fmt (f x y)) := by
  unfold csvRow forUp
  rw [loop_collect _ (fun x => fmt (f x y) ++ (if x < w - 1 then [','] else []))]
  · rw [s.width]; rfl
  · intro x hx out
    rw [s.width, List.mem_range] at hx
    rw [s.at2u hx hy, Res.ok_bind, s.width, wsub_of_le (by omega) s.w_lt, List.append_assoc]

theorem csvWrite_eq {im : Image α} {w h : Nat} {f : Nat → Nat → α} (s : im.Shows w h f) (fmt : α → Str)
    {sched : List Nat → List Nat} (hs : Fair sched) :
    csvWrite sched fmt im = .ok (((List.range h).map fun y => rowText w fun x => fmt (f x y)).flatMap
      fun r => r ++ ['\n']) := by
  unfold csvWrite
  rw [if_neg (by simp [s.dim])]
  have := loop_listSet (n := h) (fun y => rowText w fun x => fmt (f x y))
    (fun (rows : List Str) y => do
      let r ← csvRow fmt im y
      vset rows y r) (sched (List.range h)) (by
        intro y hy d hd
        have hy' : y < h := by simpa using (hs _).mem_iff.1 hy
        rw [csvRow_eq s fmt hy', Res.ok_bind, vset, if_pos (by omega)])
    (List.replicate h []) (by simp) (fun i hi => (hs _).mem_iff.2 (by simpa using hi))
  rw [s.height, this, Res.ok_bind]

theorem csvCells_eq (parse : Str → Res α) (w y : Nat) (c : Nat → Str) (v : Nat → α)
    (hp : ∀ x, x < w → parse (c x) = .ok (v x)) (n x : Nat) (hx : x + n ≤ w) (im : Image α) :
    csvCells parse w y ((List.range' x n).map c) x im =
      loop (fun im x => im.set2u x y (v x)) (List.range' x n) im := by
  induction n generalizing x im with
  | zero => rfl
  | succ n ih =>
    rw [List.range'_succ, List.map_cons, csvCells, if_pos (by omega), hp x (by omega), Res.ok_bind, loop]
    cases im.set2u x y (v x) with
    | ok im' => simp only [Res.ok_bind]; exact ih (x + 1) (by omega) im'
    | throw e => rfl
    | ub => rfl

/-- Reading what has been written: cells `c x y` that parse to `v x y`. -/
theorem csvRead_eq {w h : Nat} (hw : 0 < w) (hh : 0 < h) (hw' : w < 2 ^ 64) (hh' : h < 2 ^ 64)
    (hwh : w * h < 2 ^ 64) (c : Nat → Nat → Str) (v : Nat → Nat → α) (parse : Str → Res α) (zero : α)
    (hc : ∀ x y, x < w → y < h → c x y ≠ [] ∧ ',' ∉ c x y ∧ '\n' ∉ c x y)
    (hp : ∀ x y, x < w → y < h → parse (c x y) = .ok (v x y))
    {sched : List Nat → List Nat} (hs : Fair sched) :
    ∃ out, csvRead sched parse zero (some (((List.range h).map fun y => rowText w fun x => c x y).flatMap
      fun r => r ++ ['\n'])) = .ok out ∧ out.Shows w h v := by
  have hl : (getlines '\n' (((List.range h).map fun y => rowText w fun x => c x y).flatMap
      fun r => r ++ ['\n'])).filter (· ≠ []) = (List.range h).map fun y => rowText w fun x => c x y := by
    have := getlines_lines (sep := '\n') ((List.range h).map fun y => rowText w fun x => c x y) (by
      intro r hr
      obtain ⟨y, hy, rfl⟩ := List.mem_map.1 hr
      exact nl_rowText _ fun x hx => (hc x y hx (by simpa using hy)).2.2) []
    rw [List.append_nil, show getlines '\n' [] = [] from by simp [getlines], List.append_nil] at this
    rw [this, List.filter_eq_self]
    intro r hr
    obtain ⟨y, hy, rfl⟩ := List.mem_map.1 hr
    simpa using rowText_ne_nil hw _ fun x hx => (hc x y hx (by simpa using hy)).1
  obtain ⟨n, rfl⟩ : ∃ n, h = n + 1 := ⟨h - 1, by omega⟩
  obtain ⟨first, tl, hft⟩ : ∃ a b, ((List.range (n + 1)).map fun y => rowText w fun x => c x y) = a :: b := by
    rw [List.range_succ_eq_map]; exact ⟨_, _, rfl⟩
  have hfirst : first = rowText w fun x => c x 0 := by
    rw [List.range_succ_eq_map, List.map_cons] at hft
    exact (List.cons.inj hft).1.symm
  have hgl : ∀ y, y < n + 1 → getlines ',' (rowText w fun x => c x y) = (List.range w).map fun x => c x y :=
    fun y hy => getlines_rowText hw _ fun x hx => ⟨(hc x y hx hy).1, (hc x y hx hy).2.1⟩
  have hlen : (first :: tl).length = n + 1 := by rw [← hft]; simp
  have hwid : (getlines ',' first).length = w := by rw [hfirst, hgl 0 (by omega)]; simp
  simp only [csvRead, hl]
  simp only [hft, hlen, hwid]
  rw [loop_congr (body' := fun im y => loop (fun im (q : Nat × Nat) => im.set2u q.1 q.2 (v q.1 q.2))
    ((List.range w).map fun x => (x, y)) im)]
  · rw [loop_flatMap]
    refine loop_fill (fun q => q) v _ _ ?_ ?_ _ _ (ofSizes_shows zero hw' hh' hwh)
    · rintro ⟨x, y⟩ hq im f sf
      obtain ⟨y', hy', hq⟩ := List.mem_flatMap.1 hq
      obtain ⟨x', hx', he⟩ := List.mem_map.1 hq
      obtain ⟨rfl, rfl⟩ := Prod.mk.inj he
      exact sf.set2u (by simpa using hx') (by simpa using (hs _).mem_iff.1 hy') _
    · intro x y hx hy
      refine ⟨(x, y), List.mem_flatMap.2 ⟨y, (hs _).mem_iff.2 (by simpa using hy), ?_⟩, rfl⟩
      exact List.mem_map.2 ⟨x, by simpa using hx, rfl⟩
  · intro y hy im
    have hy' : y < n + 1 := by simpa using (hs _).mem_iff.1 hy
    have hv : vget (first :: tl) y = .ok (rowText w fun x => c x y) := by
      rw [← hft]; simp [vget, hy']
    rw [hv, Res.ok_bind, hgl y hy', List.range_eq_range',
      csvCells_eq parse w y _ (fun x => v x y) (fun x hx => hp x y hx hy') w 0 (by omega)]
    exact loop_map (fun im (q : Nat × Nat) => im.set2u q.1 q.2 (v q.1 q.2)) (fun x => (x, y)) _ im

theorem mem_intStr {n : Int} {c : Char} (h : c ∈ intStr n) : c = '-' ∨ c.isDigit = true := by
  unfold intStr at h
  split at h
  · rcases List.mem_cons.1 h with rfl | h
    · exact Or.inl rfl
    · exact Or.inr (isDigit_toStr h)
  · exact Or.inr (isDigit_toStr h)

theorem intStr_cell (n : Int) : intStr n ≠ [] ∧ ',' ∉ intStr n ∧ '\n' ∉ intStr n := by
  refine ⟨(word_intStr n).1, fun h => ?_, fun h => ?_⟩ <;>
    rcases mem_intStr h with h | h <;> revert h <;> decide

theorem parseIntCell_intStr {lo hi n : Int} (h1 : lo ≤ n) (h2 : n ≤ hi) :
    parseIntCell lo hi (intStr n) = .ok n := by
  unfold parseIntCell intStr
  by_cases hn : n < 0
  · simp only [if_pos hn, signDigits_neg, toStr_ne_nil, if_false, digitsVal_toStr, if_true]
    rw [show -(n.natAbs : Int) = n by omega]
    refine congrArg Res.ok ?_
    omega
  · simp only [if_neg hn, signDigits_toStr, toStr_ne_nil, if_false, digitsVal_toStr, Bool.false_eq_true]
    rw [show (n.natAbs : Int) = n by omega]
    refine congrArg Res.ok ?_
    omega

/-! ### Decimal fractions -/

theorem roundEven_natCast (n : Nat) : roundEven (n : ℚ) = n := by
  unfold roundEven
  simp

theorem roundEven_near (q : ℚ) : |(roundEven q : ℚ) - q| ≤ 1 / 2 := by
  have h1 := Int.floor_le q
  have h2 := Int.lt_floor_add_one q
  unfold roundEven
  simp only
  split
  · rw [abs_le]; constructor <;> linarith
  · split
    · push_cast
      rw [abs_le]; constructor <;> linarith
    · have : q - ⌊q⌋ = 1 / 2 := by linarith
      split
      · rw [abs_le]; constructor <;> linarith
      · push_cast
        rw [abs_le]; constructor <;> linarith

theorem roundEven_nonneg {q : ℚ} (h : 0 ≤ q) : 0 ≤ roundEven q := by
  have h1 : 0 ≤ ⌊q⌋ := Int.floor_nonneg.2 h
  unfold roundEven
  simp only
  split
  · exact h1
  · split
    · omega
    · split <;> omega

theorem digitsVal_zeros (n : Nat) (s : Str) : digitsVal (List.replicate n '0' ++ s) = digitsVal s := by
  induction n with
  | zero => rfl
  | succ n ih =>
    rw [List.replicate_succ, List.cons_append, ← ih]
    unfold digitsVal
    rw [Nat.ofDigitChars_cons]
    rfl

theorem padDigits_val (n k : Nat) : digitsVal (padDigits n k) = k := by
  unfold padDigits
  rw [digitsVal_zeros, digitsVal_toStr]

theorem padDigits_length {n k : Nat} (hn : 0 < n) (hk : k < 10 ^ n) : (padDigits n k).length = n := by
  have h : (toStr k).length ≤ n := (Nat.length_toDigits_le_iff (by omega) hn).2 hk
  unfold padDigits
  rw [List.length_append, List.length_replicate]
  omega

theorem padDigits_digit {n k : Nat} {c : Char} (h : c ∈ padDigits n k) : c.isDigit = true := by
  unfold padDigits at h
  rcases List.mem_append.1 h with h | h
  · rw [(List.mem_replicate.1 h).2]; decide
  · exact isDigit_toStr h

/-- The digits of a number written with a fixed number of places. -/
def fixedText (p m : Nat) : Str :=
  toStr (m / 10 ^ p) ++ (if p = 0 then [] else '.' :: padDigits p (m % 10 ^ p))

theorem stodMag_fixed (p m : Nat) : stodMag (fixedText p m) = .ok ((m : ℚ) / 10 ^ p) := by
  unfold stodMag fixedText
  by_cases hp : p = 0
  · subst hp
    have h := takeWhile_digits (m / 10 ^ 0) [] (by simp)
    simp only [if_true, h.1, h.2, fracPart, toStr_ne_nil, false_and, if_false, digitsVal_toStr, expPart]
    refine congrArg Res.ok ?_
    simp [digitsVal]
  · have h := takeWhile_digits (m / 10 ^ p) ('.' :: padDigits p (m % 10 ^ p))
      (by simp only [List.head?_cons, Option.some.injEq, forall_eq']; decide)
    have hlt : m % 10 ^ p < 10 ^ p := Nat.mod_lt _ (Nat.pow_pos (by omega))
    have ht : (padDigits p (m % 10 ^ p)).takeWhile Char.isDigit = padDigits p (m % 10 ^ p) :=
      takeWhile_eq_self _ _ fun c hc => padDigits_digit hc
    have hd : (padDigits p (m % 10 ^ p)).dropWhile Char.isDigit = [] := by
      have := List.takeWhile_append_dropWhile (p := Char.isDigit) (l := padDigits p (m % 10 ^ p))
      rw [ht] at this
      simpa using this
    simp only [if_neg hp, h.1, h.2, fracPart, ht, hd, toStr_ne_nil, false_and, if_false, digitsVal_toStr,
      padDigits_val, padDigits_length (Nat.pos_of_ne_zero hp) hlt, expPart]
    refine congrArg Res.ok ?_
    have h10 : (10 : ℚ) ^ p ≠ 0 := by positivity
    have hm : (m : ℚ) = 10 ^ p * ((m / 10 ^ p : Nat) : ℚ) + ((m % 10 ^ p : Nat) : ℚ) := by
      exact_mod_cast (Nat.div_add_mod m (10 ^ p)).symm
    rw [zpow_zero, mul_one, eq_div_iff h10, add_mul, div_mul_cancel₀ _ h10, mul_comm, ← hm]

theorem fixedText_head (p m : Nat) : ∃ c r, fixedText p m = c :: r ∧ c.isDigit = true := by
  obtain ⟨c, r, h, hc⟩ := toStr_cons (m / 10 ^ p)
  exact ⟨c, _, by unfold fixedText; rw [h, List.cons_append], hc⟩

theorem stod_digit {c : Char} {r : Str} (hc : c.isDigit = true) : stod (c :: r) = stodMag (c :: r) := by
  have hm : c ≠ '-' := digit_ne hc (by decide)
  have hp : c ≠ '+' := digit_ne hc (by decide)
  unfold stod
  simp only [List.dropWhile_cons, isSpace_digit hc, Bool.false_eq_true, if_false]
  split
  · rename_i e; exact absurd (List.cons.inj e).1 hm
  · rename_i e; exact absurd (List.cons.inj e).1 hp
  · rfl

theorem stod_neg (s : Str) : stod ('-' :: s) = (do let v ← stodMag s; .ok (-v)) := by
  unfold stod
  have : isSpace '-' = false := by decide
  simp only [List.dropWhile_cons, this, Bool.false_eq_true, if_false]

/-- The number a fixed text stands for. -/
def fixedValue (p : Nat) (q : ℚ) : ℚ :=
  if q < 0 then -((roundEven (|q| * 10 ^ p) : ℚ) / 10 ^ p) else (roundEven (|q| * 10 ^ p) : ℚ) / 10 ^ p

theorem stod_fixed (p : Nat) (q : ℚ) : stod (fmtFixed p q) = .ok (fixedValue p q) := by
  have hr : 0 ≤ roundEven (|q| * 10 ^ p) := roundEven_nonneg (by positivity)
  have hc : ((roundEven (|q| * 10 ^ p)).toNat : ℚ) = (roundEven (|q| * 10 ^ p) : ℚ) := by
    have : (((roundEven (|q| * 10 ^ p)).toNat : Int) : ℚ) = (roundEven (|q| * 10 ^ p) : ℚ) := by
      rw [Int.toNat_of_nonneg hr]
    exact_mod_cast this
  have he : fmtFixed p q = (if q < 0 then ['-'] else []) ++ fixedText p (roundEven (|q| * 10 ^ p)).toNat := by
    unfold fmtFixed fixedText
    rw [List.append_assoc]
  rw [he]
  unfold fixedValue
  by_cases hq : q < 0
  · rw [if_pos hq, if_pos hq, List.singleton_append, stod_neg, stodMag_fixed, Res.ok_bind, hc]
  · rw [if_neg hq, if_neg hq, List.nil_append]
    obtain ⟨c, r, h, hd⟩ := fixedText_head p (roundEven (|q| * 10 ^ p)).toNat
    rw [h, stod_digit hd, ← h, stodMag_fixed, hc]

theorem fixedValue_near (p : Nat) (q : ℚ) : |fixedValue p q - q| ≤ 1 / 2 / 10 ^ p := by
  have h10 : (0 : ℚ) < 10 ^ p := by positivity
  have h := roundEven_near (|q| * 10 ^ p)
  have key : abs ((roundEven (|q| * 10 ^ p) : ℚ) / 10 ^ p - |q|) ≤ 1 / 2 / 10 ^ p := by
    rw [le_div_iff₀ h10, ← abs_of_pos h10, ← abs_mul, abs_of_pos h10, sub_mul, div_mul_cancel₀ _ h10.ne']
    exact h
  unfold fixedValue
  split
  · rename_i hq
    rw [abs_of_neg hq] at key ⊢
    rw [abs_sub_comm]
    calc |q - -((roundEven (-q * 10 ^ p) : ℚ) / 10 ^ p)|
        = |(roundEven (-q * 10 ^ p) : ℚ) / 10 ^ p - -q| := by congr 1; ring
      _ ≤ _ := key
  · rename_i hq
    rw [abs_of_nonneg (not_lt.1 hq)] at key ⊢
    exact key

theorem fixedValue_exact (p : Nat) (m : Int) : fixedValue p ((m : ℚ) / 10 ^ p) = (m : ℚ) / 10 ^ p := by
  have h10 : (0 : ℚ) < 10 ^ p := by positivity
  have ha : |(m : ℚ) / 10 ^ p| * 10 ^ p = (m.natAbs : ℚ) := by
    rw [abs_div, abs_of_pos h10, div_mul_cancel₀ _ h10.ne', Nat.cast_natAbs]
    simp
  unfold fixedValue
  rw [ha, roundEven_natCast]
  have hm : ((m.natAbs : Int) : ℚ) = |(m : ℚ)| := by
    rw [Int.natCast_natAbs]; simp
  rw [hm]
  split
  · rename_i h
    have : (m : ℚ) < 0 := by
      by_contra hc
      have : (0 : ℚ) ≤ (m : ℚ) / 10 ^ p := div_nonneg (not_lt.1 hc) h10.le
      linarith
    rw [abs_of_neg this]; ring
  · rename_i h
    have : 0 ≤ (m : ℚ) := by
      by_contra hc
      exact h (div_neg_of_neg_of_pos (not_le.1 hc) h10)
    rw [abs_of_nonneg this]

theorem fixedText_mem {p m : Nat} {c : Char} (h : c ∈ fixedText p m) : c = '.' ∨ c.isDigit = true := by
  unfold fixedText at h
  rcases List.mem_append.1 h with h | h
  · exact Or.inr (isDigit_toStr h)
  · split at h
    · simp at h
    · rcases List.mem_cons.1 h with h | h
      · exact Or.inl h
      · exact Or.inr (padDigits_digit h)

theorem fmtFixed_mem {p : Nat} {q : ℚ} {c : Char} (h : c ∈ fmtFixed p q) :
    c = '-' ∨ c = '.' ∨ c.isDigit = true := by
  have he : fmtFixed p q = (if q < 0 then ['-'] else []) ++ fixedText p (roundEven (|q| * 10 ^ p)).toNat := by
    unfold fmtFixed fixedText
    rw [List.append_assoc]
  rw [he] at h
  rcases List.mem_append.1 h with h | h
  · split at h
    · exact Or.inl (by simpa using h)
    · simp at h
  · exact Or.inr (fixedText_mem h)

theorem fmtFixed_cell (p : Nat) (q : ℚ) :
    fmtFixed p q ≠ [] ∧ ',' ∉ fmtFixed p q ∧ '\n' ∉ fmtFixed p q := by
  refine ⟨?_, fun h => ?_, fun h => ?_⟩
  · unfold fmtFixed
    simp [toStr_ne_nil]
  · rcases fmtFixed_mem h with h | h | h <;> revert h <;> decide
  · rcases fmtFixed_mem h with h | h | h <;> revert h <;> decide

theorem fmtDefault_int {n : Int} (h : n.natAbs < 10 ^ 6) : fmtDefault (n : ℚ) = intStr n := by
  have h1 : fmtNatDefault n.natAbs = toStr n.natAbs := by unfold fmtNatDefault; rw [if_pos h]
  unfold fmtDefault intStr
  simp only [Rat.num_intCast, h1]
  by_cases hn : n < 0
  · rw [if_pos hn, if_pos (by exact_mod_cast hn)]
  · rw [if_neg hn, if_neg (by exact_mod_cast hn)]

theorem stod_intStr (n : Int) : stod (intStr n) = .ok (n : ℚ) := by
  have h0 : ∀ m : Nat, stodMag (toStr m) = .ok (m : ℚ) := by
    intro m
    have := stodMag_fixed 0 m
    simpa [fixedText] using this
  unfold intStr
  by_cases hn : n < 0
  · rw [if_pos hn, stod_neg, h0, Res.ok_bind]
    refine congrArg Res.ok ?_
    have : ((-(n.natAbs : Int) : Int) : ℚ) = (n : ℚ) := by congr 1; omega
    exact_mod_cast this
  · rw [if_neg hn]
    obtain ⟨c, r, h, hd⟩ := toStr_cons n.natAbs
    rw [h, stod_digit hd, ← h, h0]
    refine congrArg Res.ok ?_
    rw [Nat.cast_natAbs, abs_of_nonneg (not_lt.1 hn)]

end TinyDIP.Text
