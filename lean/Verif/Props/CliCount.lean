import Verif.Lemmas.Samples
import Verif.Props.CliBinary
import Verif.Lemmas.CliNum

/-!
# Property C117: the commands count and replace
-/

namespace TinyDIP.Props

open TinyDIP.Cli

variable {F : Type}

/-- A container of numbers. -/
abbrev numCont (k : Kind) (n : Num) (l : List ℚ) : Val Pay :=
  .cont k (.num n) (l.map fun q => .atom (.num n) (.num q))

theorem toDigits_head (k : ℕ) : (Nat.toDigits 10 k).head? ≠ some '$' := by
  intro h
  have := isDigit_toStr (n := k) (List.mem_of_head? h)
  revert this
  decide

theorem parse_neg (k : ℕ) (dbl : Str → Option ℚ) (h : k ≤ 2 ^ 31) :
    parseLit dbl .int ('-' :: Nat.toDigits 10 k) = some (-(k : ℚ)) := by
  have hs : sanitize ('-' :: Nat.toDigits 10 k) = '-' :: Nat.toDigits 10 k :=
    sanitize_prefix_toStr ['-'] k (by simp) (by simp [Junk])
  have ht : (Nat.toDigits 10 k).takeWhile Char.isDigit = Nat.toDigits 10 k :=
    takeWhile_eq_self _ _ (fun c hc => isDigit_toStr (n := k) hc)
  have hne : Nat.toDigits 10 k ≠ [] := toStr_ne_nil (n := k)
  have hd : Nat.ofDigitChars 10 (Nat.toDigits 10 k) 0 = k := Nat.ofDigitChars_ten_toDigits
  simp only [parseLit, hs, ht, hne, if_false, hd, h, if_true]

theorem parse_dec (k : ℕ) (dbl : Str → Option ℚ) (n : Num) (hn : n = .uchar ∨ n = .int ∨ n = .sizeT)
    (h : Fits n k) : parseLit dbl n (Nat.toDigits 10 k) = some (k : ℚ) := by
  have key : k < 2 ^ 64 → parseSize (Nat.toDigits 10 k) = some k := parseSize_toStr
  rcases hn with rfl | rfl | rfl
  · obtain ⟨j, hj, e⟩ := h
    have e : k = j := by exact_mod_cast e
    subst e
    simp [parseLit, key (by omega)]
    omega
  · obtain ⟨j, _, hj, e⟩ := h
    have e : (k : ℤ) = j := by exact_mod_cast e
    have hk : k < 2 ^ 31 := by omega
    have hs : sanitize (Nat.toDigits 10 k) = Nat.toDigits 10 k := sanitize_toStr k
    have hd : ∀ ds, Nat.toDigits 10 k ≠ '-' :: ds := by
      intro ds e
      have : ('-' : Char).isDigit = true := isDigit_toStr (n := k) (by rw [toStr, e]; simp)
      revert this
      decide
    have : parseLit dbl .int (Nat.toDigits 10 k) =
        (parseSize (Nat.toDigits 10 k)).bind fun v => if v < 2 ^ 31 then some (v : ℚ) else none := by
      simp only [parseLit, hs]
    rw [this, key (by omega)]
    simp
    omega
  · obtain ⟨j, hj, e⟩ := h
    have e : k = j := by exact_mod_cast e
    subst e
    simp [parseLit, key (by omega)]

theorem lower_eq (s : Str) : lower s = s.map Char.toLower := by
  unfold lower
  apply List.map_congr_left
  intro c _
  by_cases h : 'A' ≤ c ∧ c ≤ 'Z'
  · have h1 : 65 ≤ c.toNat := by simpa [Char.le_def, UInt32.le_iff_toNat_le] using h.1
    have h2 : c.toNat ≤ 90 := by simpa [Char.le_def, UInt32.le_iff_toNat_le] using h.2
    rw [if_pos h]
    have hc : c = Char.ofNat c.toNat := (Char.ofNat_toNat c).symm
    have hall : ∀ n, n ≤ 90 → 65 ≤ n → Char.ofNat (n + 32) = (Char.ofNat n).toLower := by decide
    conv_rhs => rw [hc]
    exact hall _ h2 h1
  · rw [if_neg h]
    unfold Char.toLower
    rw [dif_neg]
    exact h

/-- A truth value written in digits or letters has no quotes or blanks around it and is no variable. -/
theorem literal_clean {s t : Str} {d : Char} (hs : s = [d] ∨ s.map Char.toLower = t)
    (hd : ¬ Junk d ∧ d ≠ '$') (ht : ∀ c ∈ t, ¬ Junk c ∧ c ≠ '$') :
    (∀ c, s.head? = some c → ¬ Junk c) ∧ (∀ c, s.getLast? = some c → ¬ Junk c) ∧ isVar s = false := by
  have key : ∀ c ∈ s, ¬ Junk c ∧ c ≠ '$' := by
    rcases hs with rfl | rfl
    · intro c hc
      rw [List.mem_singleton.1 hc]; exact hd
    · intro c hc
      have h := ht c.toLower (List.mem_map.2 ⟨c, hc, rfl⟩)
      constructor
      · intro hj
        apply h.1
        have : c.toLower = c := by
          simp only [Junk, List.mem_cons, List.not_mem_nil, or_false] at hj
          rcases hj with rfl | rfl | rfl | rfl | rfl | rfl | rfl | rfl <;> decide
        rwa [this]
      · rintro rfl
        exact h.2 (by decide)
  refine ⟨fun c h => (key c (List.mem_of_head? h)).1, fun c h => (key c (List.mem_of_getLast? h)).1, ?_⟩
  cases s with
  | nil => rfl
  | cons c cs =>
    have := (key c (by simp)).2
    simp [isVar, this]

theorem operand_names {dbl : Str → Option ℚ} {w : World Pay F} {n m : Num} {arg : Str} {q : ℚ}
    (h : Names dbl w n arg m q) : operand dbl w (.num n) arg = some (numVal m q) := by
  cases h with
  | var v m q h =>
    unfold Workspace.retrieveAny at h
    simp [operand, isVar, varName, h, isMasterScalar, Val.ty, numVal]
  | dec k hn h =>
    have := toDigits_head k
    simp [operand, isVar, this, parse_dec k dbl n hn h]
  | neg k hn h =>
    subst hn
    simp [operand, isVar, parse_neg k dbl h]
  | yes _ hn hs =>
    subst hn
    obtain ⟨h1, h2, h3⟩ := literal_clean hs (by simp [Junk]) (by simp [Junk])
    have hl : arg = ['1'] ∨ lower arg = ['t', 'r', 'u', 'e'] := by
      rw [lower_eq]; exact hs.imp id fun h => h.trans (by decide)
    simp only [operand, h3, parseLit, sanitize_eq_self h1 h2, if_pos hl]
    rfl
  | no _ hn hs =>
    subst hn
    obtain ⟨h1, h2, h3⟩ := literal_clean hs (by simp [Junk]) (by simp [Junk])
    have hl : arg = ['0'] ∨ lower arg = ['f', 'a', 'l', 's', 'e'] := by
      rw [lower_eq]; exact hs.imp id fun h => h.trans (by decide)
    have hn : ¬ (arg = ['1'] ∨ lower arg = ['t', 'r', 'u', 'e']) := by
      rw [lower_eq] at hl ⊢
      rintro (rfl | h)
      · revert hl; decide
      · rcases hl with rfl | h'
        · revert h; decide
        · rw [h] at h'; revert h'; decide
    simp only [operand, h3, parseLit, sanitize_eq_self h1 h2, if_neg hn, if_pos hl]
    rfl
  | real s q hn hv h1 h2 h =>
    subst hn
    simp [operand, isVar, hv, parseLit, sanitize_eq_self h1 h2, h]

theorem eq_exact {n m : Num} (h : Exact n m) {a b : ℚ} (ha : Fits n a) (hb : Fits m b) :
    n.eq m a b = decide (a = b) := by
  unfold Num.eq
  split
  · rfl
  · rename_i hd
    split
    · rename_i hst
      -- both are natural numbers below 2^64
      have nat : ∀ {n' m' : Num} {c : ℚ}, Exact n' m' → (n' = .sizeT ∨ m' = .sizeT) → n' ≠ .double →
          Fits n' c → ∃ k : ℕ, k < 2 ^ 64 ∧ c = k := by
        intro n' m' c hx hs hnd hc
        cases n' with
        | bool =>
          rcases hc with rfl | rfl
          · exact ⟨0, by norm_num, by simp⟩
          · exact ⟨1, by norm_num, by simp⟩
        | uchar => obtain ⟨k, hk, rfl⟩ := hc; exact ⟨k, by omega, rfl⟩
        | int => rcases hs with h | h
                 · cases h
                 · exact absurd ⟨rfl, h⟩ hx.1
        | sizeT => exact hc
        | double => exact absurd rfl hnd
      obtain ⟨k, hk, rfl⟩ := nat h hst (fun e => hd (Or.inl e)) ha
      obtain ⟨j, hj, rfl⟩ := nat (n' := m) (m' := n) ⟨fun e => h.2 ⟨e.2, e.1⟩, fun e => h.1 ⟨e.2, e.1⟩⟩
        hst.symm (fun e => hd (Or.inr e)) hb
      have h1 : ⌊(k : ℚ)⌋ % 2 ^ 64 = k := by
        rw [Int.floor_natCast]; exact Int.emod_eq_of_lt (by omega) (by exact_mod_cast hk)
      have h2 : ⌊(j : ℚ)⌋ % 2 ^ 64 = j := by
        rw [Int.floor_natCast]; exact Int.emod_eq_of_lt (by omega) (by exact_mod_cast hj)
      rw [h1, h2]
      norm_cast
    · rfl

theorem count_step (io : FileIO Pay F) (dbl : Str → Option ℚ) (w : World Pay F) (args : List Str)
    (s tg : Str) (rest : List Str) (ha : argsFilter args = ('$' :: s) :: tg :: rest) (k : Kind) (n m : Num)
    (l : List ℚ) (q : ℚ) (hs : w.ws.retrieveAny s = some (numCont k n l)) (ht : Names dbl w n tg m q) :
    countCmd io dbl w args =
      deliver w (rest.headD []) (numVal .sizeT ((l.countP fun a => n.eq m a q : ℕ) : ℚ)) := by
  unfold countCmd
  rw [ha]
  dsimp only
  rw [loadVar io isMasterData w s _ hs rfl]
  dsimp only
  have he : elemTy (numCont k n l).ty = .num n := rfl
  rw [he, operand_names ht]
  simp only [comparable, numVal, Val.ty, if_true]
  rw [List.countP_map]
  rfl

/-- `count $s x $d` on a container of numbers stores the number of elements equal to `x`, whatever the
policy words. `x` is a variable holding a number or a literal of the element type.
Full statement: for all number types; an `int` and a `std::size_t` are compared modulo 2^64, see
`C117_count_signed_violation`, and for images nothing is stored, see `C117_count_image_violation`. -/
theorem C117_count_partial (io : FileIO Pay F) (dbl : Str → Option ℚ) (w : World Pay F) (args : List Str)
    (s tg d : Str) (more : List Str) (ha : plainWords args = ('$' :: s) :: tg :: ('$' :: d) :: more)
    (k : Kind) (n m : Num) (l : List ℚ) (q : ℚ) (hs : w.ws.retrieveAny s = some (numCont k n l))
    (hl : ∀ a ∈ l, Fits n a) (ht : Names dbl w n tg m q) (hq : Fits m q) (hx : Exact n m) :
    Stored w (countCmd io dbl w args) d (.atom (.num .sizeT) (.num (l.count q))) := by
  simp only [← argsFilter_eq] at *
  apply stored_put
  rw [count_step io dbl w args s tg _ ha k n m l q hs ht]
  have : l.countP (fun a => n.eq m a q) = l.count q := by
    rw [List.count, List.countP_congr]
    intro a hal
    rw [eq_exact hx (hl a hal) hq]
    simp
  rw [this]
  simp [deliver, isMasterScalar, Val.ty, numVal, isVar, varName]

/-- Without a third argument the number is printed and nothing is stored. -/
theorem C117_count_shown (io : FileIO Pay F) (dbl : Str → Option ℚ) (w : World Pay F) (args : List Str)
    (s tg : Str) (ha : plainWords args = [('$' :: s), tg])
    (k : Kind) (n m : Num) (l : List ℚ) (q : ℚ) (hs : w.ws.retrieveAny s = some (numCont k n l))
    (hl : ∀ a ∈ l, Fits n a) (ht : Names dbl w n tg m q) (hq : Fits m q) (hx : Exact n m) :
    countCmd io dbl w args = .ok ⟨w, .returned, some (.atom (.num .sizeT) (.num (l.count q)))⟩ := by
  simp only [← argsFilter_eq] at *
  rw [count_step io dbl w args s tg _ ha k n m l q hs ht]
  have : l.countP (fun a => n.eq m a q) = l.count q := by
    rw [List.count, List.countP_congr]
    intro a hal
    rw [eq_exact hx (hl a hal) hq]
    simp
  rw [this]
  simp [deliver, isMasterScalar, Val.ty, numVal]

/-- The session used in the examples and violations. -/
def wCount : World Pay Unit :=
  ⟨⟨[(['v'], numCont .vector .int [-1, 5, 5]), (['u'], .atom (.num .sizeT) (.num 18446744073709551615)),
    (['z'], .atom (.num .int) (.num 256)), (['p'], .atom (.scalar 10) (.px ⟨1, 2, 3⟩)),
    (['i'], numImage .uchar ⟨[2, 1], [0, 7]⟩)]⟩, ()⟩

/-- The `int` -1 counts as equal to the `std::size_t` 2^64 - 1. -/
theorem C117_count_signed_violation (io : FileIO Pay Unit) (dbl : Str → Option ℚ) :
    ∃ (w : World Pay Unit) (l : List ℚ) (q : ℚ), w.ws.retrieveAny ['v'] = some (numCont .vector .int l) ∧
      (∀ a ∈ l, Fits .int a) ∧ w.ws.retrieveAny ['u'] = some (.atom (.num .sizeT) (.num q)) ∧
      Fits .sizeT q ∧ l.count q = 0 ∧
      countCmd io dbl w [['$', 'v'], ['$', 'u']] =
        .ok ⟨w, .returned, some (.atom (.num .sizeT) (.num 1))⟩ := by
  refine ⟨wCount, [-1, 5, 5], 18446744073709551615, rfl, ?_, rfl, ⟨18446744073709551615, by norm_num, by norm_num⟩, ?_, ?_⟩
  · intro a ha
    simp only [List.mem_cons, List.not_mem_nil, or_false, or_self] at ha
    rcases ha with rfl | rfl
    · exact ⟨-1, by norm_num, by norm_num, by norm_num⟩
    · exact ⟨5, by norm_num, by norm_num, by norm_num⟩
  · decide +kernel
  · rw [count_step io dbl wCount _ ['v'] ['$', 'u'] [] (by decide +kernel) .vector .int .sizeT [-1, 5, 5]
      18446744073709551615 rfl (.var ['u'] .sizeT _ rfl)]
    have : [(-1 : ℚ), 5, 5].countP (fun a => Num.int.eq .sizeT a 18446744073709551615) = 1 := by
      decide +kernel
    rw [this]
    rfl

/-- On an image of numbers `count` never stores or prints anything: the library returns a signed count
and the command expects an unsigned one. -/
theorem C117_count_image_violation (io : FileIO Pay F) (dbl : Str → Option ℚ) (w : World Pay F)
    (args : List Str) (s tg : Str) (rest : List Str) (ha : plainWords args = ('$' :: s) :: tg :: rest)
    (n m : Num) (im : Image ℚ) (q : ℚ) (hs : w.ws.retrieveAny s = some (numImage n im))
    (ht : Names dbl w n tg m q) : Nothing w (countCmd io dbl w args) ∨ countCmd io dbl w args = .ub := by
  simp only [← argsFilter_eq] at *
  unfold Nothing countCmd
  rw [ha]
  dsimp only
  rw [loadVar io isMasterData w s _ hs rfl]
  dsimp only
  have he : elemTy (numImage n im).ty = .num n := rfl
  rw [he, operand_names ht]
  simp only [comparable, numVal, Val.ty, if_true]
  split
  · split
    · exact Or.inr rfl
    · exact Or.inl rfl
  · exact Or.inl rfl

/-- A variable that holds no number as target of a container of numbers: the command fails; a target
that does not exist or is no scalar, or a missing argument: nothing happens. -/
theorem C117_count_rejected (io : FileIO Pay F) (dbl : Str → Option ℚ) (w : World Pay F) (args : List Str) :
    ((plainWords args).length < 2 → Nothing w (countCmd io dbl w args)) ∧
    (∀ s t rest k n l, plainWords args = ('$' :: s) :: ('$' :: t) :: rest →
      w.ws.retrieveAny s = some (numCont k n l) →
      (w.ws.retrieveAny t = none → Nothing w (countCmd io dbl w args)) ∧
      (∀ j p, w.ws.retrieveAny t = some (.atom (.scalar j) p) → Failed w (countCmd io dbl w args)) ∧
      (∀ e p, w.ws.retrieveAny t = some (.atom (.image e) p) → Nothing w (countCmd io dbl w args))) ∧
    (∀ s rest, plainWords args = ('$' :: s) :: rest → w.ws.retrieveAny s = none →
      Nothing w (countCmd io dbl w args)) := by
  simp only [← argsFilter_eq] at *
  refine ⟨?_, ?_, ?_⟩
  · intro h
    unfold Nothing countCmd
    match hf : argsFilter args, h with
    | [], _ => rfl
    | [_], _ => rfl
    | _ :: _ :: _, h => simp only [List.length_cons] at h; omega
  · intro s t rest k n l ha hs
    have he : elemTy (numCont k n l).ty = .num n := rfl
    refine ⟨fun h => ?_, fun j p h => ?_, fun e p h => ?_⟩ <;>
    · unfold Workspace.retrieveAny at h
      simp only [Nothing, Failed, countCmd, ha, loadVar io isMasterData w s _ hs rfl, he, operand, isVar, varName,
        List.drop_one, List.tail_cons, h, isMasterScalar, Val.ty]
      simp [quiet, raise, comparable, elemTy]
  · intro s rest ha hs
    unfold Nothing countCmd
    rw [ha]
    cases rest with
    | nil => rfl
    | cons a rest =>
      dsimp only
      rw [loadVar_none io _ w s (by simp [hs])]
      rfl

theorem deliver_frame (w : World Pay F) (o : Str) (r : Val Pay) (out : Out Pay F)
    (h : deliver w o r = .ok out) :
    out.world = w ∨ ∃ d, o = '$' :: d ∧ OnlyVar w out.world d := by
  unfold deliver at h
  split at h
  · split at h
    · injection h with h; subst h; exact Or.inl rfl
    · split at h
      · rename_i hv
        injection h with h; subst h
        right
        cases o with
        | nil => simp [isVar] at hv
        | cons c d =>
          have hc : c = '$' := by simpa [isVar] using hv
          subst hc
          refine ⟨d, rfl, rfl, fun m hm => ?_⟩
          rw [sameVar_iff] at hm
          simp [Workspace.retrieveAny_put, hm, varName]
      · injection h with h; subst h; exact Or.inl rfl
  · injection h with h; subst h; exact Or.inl rfl

/-- `count` changes at most the variable named by the third argument. -/
theorem C117_count_frame (io : FileIO Pay F) (dbl : Str → Option ℚ) (w : World Pay F) (args : List Str)
    (out : Out Pay F) (h : countCmd io dbl w args = .ok out) :
    out.world = w ∨ ∃ d, (plainWords args)[2]? = some ('$' :: d) ∧ OnlyVar w out.world d := by
  simp only [← argsFilter_eq] at *
  unfold countCmd at h
  simp only [quiet, raise] at h
  have triv : ∀ c, (Res.ok ⟨w, c, none⟩ : Res (Out Pay F)) = .ok out → out.world = w := by
    intro c h; injection h with h; subst h; rfl
  split at h
  · rename_i in1 tg rest hf
    split at h
    · exact Or.inl (triv _ h)
    · exact Or.inl (triv _ h)
    · split at h
      · exact Or.inl (triv _ h)
      · split at h
        · split at h
          · rcases deliver_frame w _ _ out h with e | ⟨d, e, ho⟩
            · exact Or.inl e
            · right
              refine ⟨d, ?_, ho⟩
              rw [hf]
              cases rest with
              | nil => simp at e
              | cons a rest => simpa using e
          · split at h
            · split at h
              · cases h
              · exact Or.inl (triv _ h)
            · exact Or.inl (triv _ h)
          · exact Or.inl (triv _ h)
        · split at h
          · exact Or.inl (triv _ h)
          · exact Or.inl (triv _ h)
  · exact Or.inl (triv _ h)

theorem trunc_int (k : ℤ) : truncQ k = k := by
  unfold truncQ
  split
  · exact Int.floor_intCast k
  · exact Int.ceil_intCast k

/-- Converting a number that the target type can represent changes nothing. -/
theorem conv_fits {m n : Num} {q : ℚ} (h : Fits n q) : m.conv n q = .ok q := by
  cases n with
  | bool =>
    rcases h with rfl | rfl <;> simp [Num.conv]
  | uchar =>
    obtain ⟨k, hk, rfl⟩ := h
    have e : truncQ (k : ℚ) = k := by exact_mod_cast trunc_int k
    simp only [Num.conv, e, Int.floor_natCast]
    split
    · rw [if_pos ⟨by omega, by omega⟩]; simp
    · rw [Int.emod_eq_of_lt (by omega) (by omega)]; simp
  | int =>
    obtain ⟨k, h1, h2, rfl⟩ := h
    simp only [Num.conv, trunc_int, Int.floor_intCast]
    split
    · rw [if_pos ⟨h1, h2⟩]
    · rw [Int.emod_eq_of_lt (by omega) (by omega)]; simp
  | sizeT =>
    obtain ⟨k, hk, rfl⟩ := h
    have e : truncQ (k : ℚ) = k := by exact_mod_cast trunc_int k
    simp only [Num.conv, e, Int.floor_natCast]
    split
    · rw [if_pos ⟨by omega, by omega⟩]; simp
    · rw [Int.emod_eq_of_lt (by omega) (by omega)]; simp
  | double => rfl

/-- The list with `new` at every place where `old` was. -/
def swap (old new : ℚ) (l : List ℚ) : List ℚ := l.map fun a => if a = old then new else a

theorem replaceNums_ok {n m m' : Num} (hx : Exact n m) {old new : ℚ} (ho : Fits m old) (hn : Fits n new) :
    ∀ l : List ℚ, (∀ a ∈ l, Fits n a) →
      replaceNums n m m' old new (l.map fun q => Val.atom (.num n) (.num q)) =
        .ok ((swap old new l).map fun q => Val.atom (.num n) (.num q))
  | [], _ => rfl
  | a :: l, h => by
    rw [List.map_cons, replaceNums, replaceNums_ok hx ho hn l fun b hb => h b (by simp [hb])]
    simp only [itemNum, eq_exact hx (h a (by simp)) ho, conv_fits (m := m') hn, decide_eq_true_eq]
    by_cases e : a = old <;> simp [e, swap, numVal]

theorem replace_step (io : FileIO Pay F) (dbl : Str → Option ℚ) (w : World Pay F) (args : List Str)
    (s tg nw o : Str) (more : List Str) (ha : argsFilter args = ('$' :: s) :: tg :: nw :: o :: more)
    (n m m' : Num) (v : Val Pay) (old new : ℚ) (hs : w.ws.retrieveAny s = some v)
    (hv : isMasterData v.ty = true) (he : elemTy v.ty = .num n)
    (ht : Names dbl w n tg m old) (hn : Names dbl w n nw m' new) :
    replaceCmd io dbl w args =
      match replaceCore (extractPolicy args != []) v (numVal m old) (numVal m' new) with
      | .ub => .ub
      | .throw _ => .ok ⟨w, .returned, none⟩
      | .ok r =>
        if isMasterData r.ty then .ok ⟨(saveArg io w o r).1, .returned, none⟩
        else .ok ⟨w, .returned, none⟩ := by
  unfold replaceCmd
  rw [ha]
  dsimp only
  rw [loadVar io isMasterData w s _ hs hv]
  dsimp only
  rw [he, operand_names ht]
  dsimp only
  rw [operand_names hn]
  simp only [comparable, numVal, Val.ty, Bool.and_self, if_true, quiet]
  cases replaceCore (extractPolicy args != []) v (.atom (.num m) (.num old)) (.atom (.num m') (.num new)) <;> rfl

/-- `replace $s x y $d` on a container of numbers stores the container with `y` at every place that held
`x` and the other elements unchanged.
Full statement: for all types of `x` and `y`; see `C117_replace_policy_violation`, and
`C117_count_signed_violation` for the comparison of `int` with `std::size_t`. -/
theorem C117_replace_container_partial (io : FileIO Pay F) (dbl : Str → Option ℚ) (w : World Pay F)
    (args : List Str) (s tg nw d : Str) (more : List Str)
    (ha : plainWords args = ('$' :: s) :: tg :: nw :: ('$' :: d) :: more)
    (k : Kind) (n m m' : Num) (l : List ℚ) (old new : ℚ) (hs : w.ws.retrieveAny s = some (numCont k n l))
    (hl : ∀ a ∈ l, Fits n a) (ht : Names dbl w n tg m old) (hn : Names dbl w n nw m' new)
    (hq : Fits m old) (hnew : Fits n new) (hx : Exact n m)
    (hpol : (∃ a ∈ args, a ∈ ["seq".toList, "par".toList, "par_unseq".toList, "unseq".toList]) → m = m') :
    Stored w (replaceCmd io dbl w args) d
      (numCont k n (l.map fun a => if a = old then new else a)) := by
  simp only [← argsFilter_eq] at *
  apply stored_put
  rw [replace_step io dbl w args s tg nw _ more ha n m m' _ old new hs rfl rfl ht hn]
  have hc : ((extractPolicy args != []) && decide (m ≠ m')) = false := by
    by_cases e : m = m'
    · simp [e]
    · have : extractPolicy args = [] := by
        have hno : ¬ ∃ a ∈ args, a ∈ ["seq".toList, "par".toList, "par_unseq".toList, "unseq".toList] :=
          fun h => e (hpol h)
        clear ha hpol
        induction args with
        | nil => rfl
        | cons a as ih =>
          have h1 : isPolicy a = false := by
            rw [Bool.eq_false_iff]
            intro hp
            refine hno ⟨a, by simp, ?_⟩
            simp only [isPolicy, Bool.or_eq_true, beq_iff_eq] at hp
            rcases hp with ((rfl | rfl) | rfl) | rfl <;> decide +kernel
          rw [extractPolicy, h1]
          exact ih fun ⟨b, hb, h⟩ => hno ⟨b, by simp [hb], h⟩
      simp [this]
  have : replaceCore (extractPolicy args != []) (numCont k n l) (numVal m old) (numVal m' new) =
      .ok (numCont k n (swap old new l)) := by
    simp only [replaceCore, numVal, hc, Bool.false_eq_true, if_false, replaceNums_ok hx hq hnew l hl, Res.ok_bind]
  rw [this]
  have hma : isMasterData (numCont k n (swap old new l)).ty = true := rfl
  simp only [hma, if_true]
  simp [saveArg, isVar, varName, swap]

/-- `replace $s x y $d` on an image of numbers: the pixels equal to `x` become `y`, the others and the
sizes stay, whatever the policy words.
Full statement: for all `x`; when `x` is no number of the pixel type it is converted first, see
`C117_replace_image_violation`. -/
theorem C117_replace_image_partial (io : FileIO Pay F) (dbl : Str → Option ℚ) (w : World Pay F)
    (args : List Str) (s tg nw d : Str) (more : List Str)
    (ha : plainWords args = ('$' :: s) :: tg :: nw :: ('$' :: d) :: more)
    (n m m' : Num) (im : Image ℚ) (old new : ℚ) (hs : w.ws.retrieveAny s = some (numImage n im))
    (wf : im.WF) (ht : Names dbl w n tg m old) (hn : Names dbl w n nw m' new)
    (hold : Fits n old) (hnew : Fits n new) :
    ∃ r, Stored w (replaceCmd io dbl w args) d (numImage n r) ∧ r.WF ∧ r.size = im.size ∧
      ∀ idx a, im.at' idx = .ok a → r.at' idx = .ok (if a = old then new else a) := by
  simp only [← argsFilter_eq] at *
  refine ⟨⟨im.size, im.data.map fun a => if a = old then new else a⟩, ?_, wf.map _, rfl,
    fun idx a h => wf.map_at _ h⟩
  apply stored_put
  rw [replace_step io dbl w args s tg nw _ more ha n m m' _ old new hs rfl rfl ht hn]
  have : replaceCore (extractPolicy args != []) (numImage n im) (numVal m old) (numVal m' new) =
      .ok (numImage n ⟨im.size, im.data.map fun a => if a = old then new else a⟩) := by
    simp only [replaceCore, numVal, conv_fits hold, conv_fits hnew, Res.ok_bind, replace_ok]
  rw [this]
  have hma : isMasterData (numImage n ⟨im.size, im.data.map fun a => if a = old then new else a⟩).ty = true := rfl
  simp only [hma, if_true]
  simp [saveArg, isVar, varName]

/-- Replacing 256, held by an `int` variable, in an 8-bit image replaces the zeros although no pixel is
256. -/
theorem C117_replace_image_violation (io : FileIO Pay Unit) (dbl : Str → Option ℚ) :
    ∃ (w : World Pay Unit) (im : Image ℚ), w.ws.retrieveAny ['i'] = some (numImage .uchar im) ∧
      w.ws.retrieveAny ['z'] = some (.atom (.num .int) (.num 256)) ∧ (256 : ℚ) ∉ im.data ∧
      ∃ r, Stored w (replaceCmd io dbl w [['$', 'i'], ['$', 'z'], ['9'], ['$', 'd']]) ['d'] (numImage .uchar r) ∧
        r ≠ im := by
  refine ⟨wCount, ⟨[2, 1], [0, 7]⟩, rfl, rfl, by decide +kernel, ⟨[2, 1], [9, 7]⟩, ?_, ?_⟩
  · apply stored_put
    rw [replace_step io dbl wCount _ ['i'] ['$', 'z'] ['9'] ['$', 'd'] [] (by decide +kernel) .uchar .int .uchar _
      256 9 rfl rfl rfl (.var ['z'] .int _ rfl)
      (by have := Names.dec (dbl := dbl) (w := wCount) (n := .uchar) 9 (by simp) ⟨9, by norm_num, by norm_num⟩
          simpa [Nat.toDigits, Nat.toDigitsCore, Nat.digitChar] using this)]
    have : replaceCore (extractPolicy [['$', 'i'], ['$', 'z'], ['9'], ['$', 'd']] != [])
        (numImage .uchar ⟨[2, 1], [0, 7]⟩) (numVal .int 256) (numVal .uchar 9) =
        .ok (numImage .uchar ⟨[2, 1], [9, 7]⟩) := by
      have h1 : Num.conv .int .uchar 256 = .ok 0 := by decide +kernel
      have h2 : Num.conv .uchar .uchar 9 = .ok 9 := by decide +kernel
      simp only [replaceCore, numVal, h1, h2, Res.ok_bind, replace_ok]
      norm_num
    rw [this]
    rfl
  · intro h
    injection h with _ h
    revert h
    decide +kernel

/-- With an execution policy, replacing in a container a value given by an `int` variable by a literal
of the element type is refused; without, it works (`C117_replace_container_partial`). -/
theorem C117_replace_policy_violation (io : FileIO Pay F) (dbl : Str → Option ℚ) (w : World Pay F)
    (args : List Str) (s tg nw o : Str) (more : List Str)
    (ha : plainWords args = ('$' :: s) :: tg :: nw :: o :: more)
    (k : Kind) (n m m' : Num) (l : List ℚ) (old new : ℚ) (hs : w.ws.retrieveAny s = some (numCont k n l))
    (ht : Names dbl w n tg m old) (hn : Names dbl w n nw m' new) (hne : m ≠ m')
    (hpol : "par".toList ∈ args) : Nothing w (replaceCmd io dbl w args) := by
  simp only [← argsFilter_eq] at *
  rw [Nothing, replace_step io dbl w args s tg nw o more ha n m m' _ old new hs rfl rfl ht hn]
  have hp : extractPolicy args ≠ [] := by
    clear ha
    induction args with
    | nil => simp at hpol
    | cons a as ih =>
      rw [extractPolicy]
      by_cases hpa : isPolicy a = true
      · rw [if_pos hpa]
        rintro rfl
        revert hpa
        decide +kernel
      · rw [if_neg hpa]
        apply ih
        rcases List.mem_cons.mp hpol with h | h
        · subst h
          exact absurd (by decide +kernel) hpa
        · exact h
  have : replaceCore (extractPolicy args != []) (numCont k n l) (numVal m old) (numVal m' new) =
      .throw .invalidArg := by
    simp [replaceCore, numVal, hp, hne]
  rw [this]

/-- After `replace $s x y $d` with `x ≠ y` the command `count $d x $e` finds none. -/
theorem C117_replace_count (io : FileIO Pay F) (dbl : Str → Option ℚ) (w : World Pay F)
    (args args' : List Str) (s tg nw d e tg' : Str) (more more' : List Str)
    (ha : plainWords args = ('$' :: s) :: tg :: nw :: ('$' :: d) :: more)
    (ha' : plainWords args' = ('$' :: d) :: tg' :: ('$' :: e) :: more')
    (k : Kind) (n : Num) (l : List ℚ) (old new : ℚ) (hs : w.ws.retrieveAny s = some (numCont k n l))
    (hl : ∀ a ∈ l, Fits n a) (ht : Names dbl w n tg n old) (hn : Names dbl w n nw n new)
    (hq : Fits n old) (hnew : Fits n new) (hne : old ≠ new)
    (ht' : ∀ w' : World Pay F, OnlyVar w w' d → Names dbl w' n tg' n old) :
    ∃ w₁, replaceCmd io dbl w args = .ok ⟨w₁, .returned, none⟩ ∧
      Stored w₁ (countCmd io dbl w₁ args') e (.atom (.num .sizeT) (.num 0)) := by
  simp only [← argsFilter_eq] at *
  have hx : Exact n n := ⟨fun h => by rw [h.1] at h; exact absurd h.2 (by decide),
    fun h => by rw [h.1] at h; exact absurd h.2 (by decide)⟩
  obtain ⟨w₁, h1, h2, h3⟩ := C117_replace_container_partial io dbl w args s tg nw d more ((argsFilter_eq _).symm.trans ha) k n n n l old new hs hl
    ht hn hq hnew hx fun _ => rfl
  refine ⟨w₁, h1, ?_⟩
  have := C117_count_partial io dbl w₁ args' d tg' e more' ((argsFilter_eq _).symm.trans ha') k n n _ old h2 (by
    intro a hal
    obtain ⟨b, hb, rfl⟩ := List.mem_map.mp hal
    split
    · exact hnew
    · exact hl b hb) (ht' w₁ h3) hq hx
  have hz : (l.map fun a => if a = old then new else a).count old = 0 := by
    rw [List.count_eq_zero]
    intro hm
    obtain ⟨b, _, hb⟩ := List.mem_map.mp hm
    split at hb
    · exact hne hb.symm
    · contradiction
  rw [hz] at this
  exact_mod_cast this

/-- `replace` changes at most the variable, or the file, named by the fourth argument. -/
theorem C117_replace_frame (io : FileIO Pay F) (dbl : Str → Option ℚ) (w : World Pay F) (args : List Str)
    (out : Out Pay F) (h : replaceCmd io dbl w args = .ok out) :
    out.world = w ∨ ∃ o, (plainWords args)[3]? = some o ∧
      ((∃ d, o = '$' :: d ∧ OnlyVar w out.world d) ∨ (isVar o = false ∧ OnlyFile io w out.world o)) := by
  simp only [← argsFilter_eq] at *
  unfold replaceCmd at h
  simp only [quiet, raise] at h
  have triv : ∀ c, (Res.ok ⟨w, c, none⟩ : Res (Out Pay F)) = .ok out → out.world = w := by
    intro c h; injection h with h; subst h; rfl
  split at h
  · rename_i in1 tg nw o more hf
    split at h
    · exact Or.inl (triv _ h)
    · exact Or.inl (triv _ h)
    · split at h
      · exact Or.inl (triv _ h)
      · split at h
        · exact Or.inl (triv _ h)
        · split at h
          · split at h
            · cases h
            · exact Or.inl (triv _ h)
            · split at h
              · injection h with h; subst h
                right
                exact ⟨o, by rw [hf]; rfl, saveArg_frame io w o _⟩
              · exact Or.inl (triv _ h)
          · exact Or.inl (triv _ h)
  · exact Or.inl (triv _ h)

example (dbl : Str → Option ℚ) : wCount.ws.retrieveAny ['v'] = some (numCont .vector .int [-1, 5, 5]) ∧
    Names dbl wCount .int (Nat.toDigits 10 5) .int (5 : ℕ) ∧ [(-1 : ℚ), 5, 5].count ((5 : ℕ) : ℚ) = 2 ∧
    Exact .int .int ∧ Exact .uchar .int ∧ Exact .double .sizeT := by
  refine ⟨rfl, .dec 5 (by simp) ⟨5, by norm_num, by norm_num, by norm_num⟩, by decide +kernel, ?_, ?_, ?_⟩ <;>
  simp [Exact]

theorem wCount_fits : ∀ a ∈ [(-1 : ℚ), 5, 5], Fits .int a := by
  intro a ha
  simp only [List.mem_cons, List.not_mem_nil, or_false] at ha
  rcases ha with rfl | rfl | rfl
  · exact ⟨-1, by norm_num, by norm_num, by norm_num⟩
  · exact ⟨5, by norm_num, by norm_num, by norm_num⟩
  · exact ⟨5, by norm_num, by norm_num, by norm_num⟩

theorem fits_five : Fits .int ((5 : ℕ) : ℚ) := ⟨5, by norm_num, by norm_num, by norm_num⟩
theorem fits_nine : Fits .int ((9 : ℕ) : ℚ) := ⟨9, by norm_num, by norm_num, by norm_num⟩

example (io : FileIO Pay Unit) (dbl : Str → Option ℚ) := C117_count_partial io dbl wCount
  ["$v".toList, Nat.toDigits 10 5, "$d".toList] ['v'] (Nat.toDigits 10 5) ['d'] [] (by decide +kernel) .vector .int .int
  [-1, 5, 5] (5 : ℕ) rfl wCount_fits (.dec 5 (by simp) fits_five) fits_five (by simp [Exact])

example (io : FileIO Pay Unit) (dbl : Str → Option ℚ) := C117_count_shown io dbl wCount
  ["$v".toList, Nat.toDigits 10 5] ['v'] (Nat.toDigits 10 5) (by decide +kernel) .vector .int .int
  [-1, 5, 5] (5 : ℕ) rfl wCount_fits (.dec 5 (by simp) fits_five) fits_five (by simp [Exact])

example (io : FileIO Pay Unit) (dbl : Str → Option ℚ) := C117_count_frame io dbl wCount
  ["$v".toList, Nat.toDigits 10 5] _ (C117_count_shown io dbl wCount
    ["$v".toList, Nat.toDigits 10 5] ['v'] (Nat.toDigits 10 5) (by decide +kernel) .vector .int .int
    [-1, 5, 5] (5 : ℕ) rfl wCount_fits (.dec 5 (by simp) fits_five) fits_five (by simp [Exact]))

example (io : FileIO Pay Unit) (dbl : Str → Option ℚ) := C117_replace_container_partial io dbl wCount
  ["$v".toList, "par".toList, Nat.toDigits 10 5, Nat.toDigits 10 9, "$d".toList] ['v'] (Nat.toDigits 10 5) (Nat.toDigits 10 9)
  ['d'] [] (by decide +kernel) .vector .int .int .int [-1, 5, 5] (5 : ℕ) (9 : ℕ) rfl wCount_fits
  (.dec 5 (by simp) fits_five) (.dec 9 (by simp) fits_nine) fits_five fits_nine (by simp [Exact]) (fun _ => rfl)

example (io : FileIO Pay Unit) (dbl : Str → Option ℚ) := C117_replace_image_partial io dbl wCount
  ["$i".toList, Nat.toDigits 10 7, Nat.toDigits 10 9, "$d".toList] ['i'] (Nat.toDigits 10 7) (Nat.toDigits 10 9)
  ['d'] [] (by decide +kernel) .uchar .uchar .uchar ⟨[2, 1], [0, 7]⟩ (7 : ℕ) (9 : ℕ) rfl
  ⟨by decide, by decide, by decide⟩ (.dec 7 (by simp) ⟨7, by norm_num, rfl⟩) (.dec 9 (by simp) ⟨9, by norm_num, rfl⟩)
  ⟨7, by norm_num, rfl⟩ ⟨9, by norm_num, rfl⟩

example (io : FileIO Pay Unit) (dbl : Str → Option ℚ) := C117_replace_count io dbl wCount
  ["$v".toList, Nat.toDigits 10 5, Nat.toDigits 10 9, "$d".toList] ["$d".toList, Nat.toDigits 10 5, "$e".toList]
  ['v'] (Nat.toDigits 10 5) (Nat.toDigits 10 9) ['d'] ['e'] (Nat.toDigits 10 5) [] [] (by decide +kernel) (by decide +kernel)
  .vector .int [-1, 5, 5] (5 : ℕ) (9 : ℕ) rfl wCount_fits (.dec 5 (by simp) fits_five) (.dec 9 (by simp) fits_nine)
  fits_five fits_nine (by norm_num) (fun _ _ => .dec 5 (by simp) fits_five)

end TinyDIP.Props
