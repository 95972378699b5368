import Verif.Spec.Pipe
import Verif.Lemmas.Cli
import Verif.Lemmas.CliNum

/-!
# Lemmas about lines, wiring and the optimiser
-/

namespace TinyDIP.Cli

theorem pipeName_eq (i : Nat) : pipeName i = pipeVar i := by
  unfold pipeName pipeVar pipePrefix toStr
  have : "$__pipe_".toList = ['$', '_', '_', 'p', 'i', 'p', 'e', '_'] := by decide
  rw [this]

theorem pipeVar_ne_nil (i : Nat) : pipeVar i ≠ [] := by simp [pipeVar, pipePrefix]

theorem isPolicy_var (s : Str) : isPolicy ('$' :: s) = false := by
  simp [isPolicy, sSeq, sPar, sParUnseq, sUnseq]

theorem isPolicy_of_isVar {s : Str} (h : isVar s = true) : isPolicy s = false := by
  cases s with
  | nil => simp [isVar] at h
  | cons c s =>
    simp [isVar] at h
    subst h
    exact isPolicy_var s

theorem isVar_pipeVar (i : Nat) : isVar (pipeVar i) = true := by simp [isVar, pipeVar, pipePrefix]

/-! ## Splitting -/

section
variable {sep : Char → Bool}

theorem splitAtSep_self (a : Str) (h : ∀ c ∈ a, sep c = false) : splitAtSep sep a = [a] := by
  induction a with
  | nil => rfl
  | cons c a ih =>
    rw [splitAtSep, h c (by simp), ih fun d hd => h d (by simp [hd])]
    simp

theorem splitAtSep_append (a : Str) (s : Char) (r : Str) (h : ∀ c ∈ a, sep c = false)
    (hs : sep s = true) : splitAtSep sep (a ++ s :: r) = a :: splitAtSep sep r := by
  induction a with
  | nil => simp [splitAtSep, hs]
  | cons c a ih =>
    rw [List.cons_append, splitAtSep, h c (by simp), ih fun d hd => h d (by simp [hd])]
    simp

theorem splitAtSep_ne_nil (s : Str) : splitAtSep sep s ≠ [] := by
  induction s with
  | nil => simp [splitAtSep]
  | cons c s ih =>
    rw [splitAtSep]
    split
    · simp
    · split <;> simp

end

/-- A word of a command line. -/
def Word (w : Str) : Prop := w ≠ [] ∧ ∀ c ∈ w, isSpace c = false ∧ c ≠ '|'

theorem tokenize_space (s : Str) : tokenize (' ' :: s) = tokenize s := by
  simp [tokenize, splitAtSep, isSpace]

theorem tokenize_word (w r : Str) (hw : Word w) : tokenize (w ++ ' ' :: r) = w :: tokenize r := by
  unfold tokenize
  rw [splitAtSep_append w ' ' r (fun c hc => (hw.2 c hc).1) (by decide)]
  simp [hw.1]

theorem tokenize_single (w : Str) (hw : Word w) : tokenize w = [w] := by
  unfold tokenize
  rw [splitAtSep_self w fun c hc => (hw.2 c hc).1]
  simp [hw.1]

theorem tokenize_nil : tokenize [] = [] := by simp [tokenize, splitAtSep]

theorem tokenize_join (ws : List Str) (h : ∀ w ∈ ws, Word w) (tail : Str)
    (ht : tail = [] ∨ tail = [' ']) : tokenize (joinWords ws ++ tail) = ws := by
  induction ws with
  | nil =>
    rcases ht with rfl | rfl
    · exact tokenize_nil
    · show tokenize (' ' :: []) = []
      rw [tokenize_space, tokenize_nil]
  | cons w ws ih =>
    have hw := h w (by simp)
    cases ws with
    | nil =>
      rcases ht with rfl | rfl
      · show tokenize (w ++ []) = _
        rw [List.append_nil, tokenize_single w hw]
      · show tokenize (w ++ ' ' :: []) = _
        rw [tokenize_word w [] hw, tokenize_nil]
    | cons w2 ws =>
      show tokenize ((w ++ ' ' :: joinWords (w2 :: ws)) ++ tail) = _
      rw [List.append_assoc, List.cons_append, tokenize_word w _ hw,
        ih fun v hv => h v (List.mem_cons_of_mem _ hv)]

theorem joinWords_no_bar (ws : List Str) (h : ∀ w ∈ ws, Word w) :
    ∀ c ∈ joinWords ws, (c == '|') = false := by
  induction ws with
  | nil => simp [joinWords]
  | cons w ws ih =>
    have hw := h w (by simp)
    cases ws with
    | nil =>
      intro c hc
      simpa using (hw.2 c hc).2
    | cons w2 ws =>
      intro c hc
      rw [joinWords] at hc
      · simp only [List.mem_append, List.mem_cons] at hc
        rcases hc with hc | rfl | hc
        · simpa using (hw.2 c hc).2
        · decide
        · exact ih (fun v hv => h v (List.mem_cons_of_mem _ hv)) c hc
      · simp

theorem parseLine_join (ss : List (List Str)) (hne : ∀ s ∈ ss, s ≠ [])
    (h : ∀ s ∈ ss, ∀ w ∈ s, Word w) : ∀ lead, (lead = [] ∨ lead = [' ']) →
    parseLine (lead ++ joinStages ss) = ss := by
  have hl0 : ∀ (lead : Str) (s : Str), (lead = [] ∨ lead = [' ']) → tokenize (lead ++ s) = tokenize s := by
    rintro lead s (rfl | rfl)
    · rfl
    · exact tokenize_space s
  have hl1 : ∀ (lead : Str), (lead = [] ∨ lead = [' ']) → ∀ c ∈ lead, (c == '|') = false := by
    rintro lead (rfl | rfl) c hc
    · simp at hc
    · simp at hc; subst hc; decide
  induction ss with
  | nil =>
    rintro lead (rfl | rfl) <;> simp [joinStages, parseLine, splitAtSep, tokenize, isSpace]
  | cons s ss ih =>
    intro lead hlead
    have hs := h s (by simp)
    have hsn := hne s (by simp)
    cases ss with
    | nil =>
      show parseLine (lead ++ joinWords s) = [s]
      unfold parseLine
      rw [splitAtSep_self]
      · have ht := tokenize_join s hs [] (Or.inl rfl)
        rw [List.append_nil] at ht
        simp [hl0 lead _ hlead, ht, hsn]
      · intro c hc
        rw [List.mem_append] at hc
        rcases hc with hc | hc
        · exact hl1 lead hlead c hc
        · exact joinWords_no_bar s hs c hc
    | cons s2 ss =>
      have e : lead ++ joinStages (s :: s2 :: ss) =
          (lead ++ (joinWords s ++ [' '])) ++ '|' :: ([' '] ++ joinStages (s2 :: ss)) := by
        show lead ++ (joinWords s ++ ' ' :: '|' :: ' ' :: joinStages (s2 :: ss)) = _
        simp
      rw [e]
      have ih' := ih (fun t ht => hne t (List.mem_cons_of_mem _ ht))
        (fun t ht => h t (List.mem_cons_of_mem _ ht)) [' '] (Or.inr rfl)
      unfold parseLine at ih' ⊢
      rw [splitAtSep_append _ '|' _ _ (by decide)]
      · rw [List.map_cons, hl0 lead _ hlead, tokenize_join s hs [' '] (Or.inr rfl)]
        rw [List.filter_cons, if_pos (by simpa using hsn), ih']
      · intro c hc
        simp only [List.mem_append, List.mem_singleton] at hc
        rcases hc with hc | hc | rfl
        · exact hl1 lead hlead c hc
        · exact joinWords_no_bar s hs c hc
        · decide

/-! ## Wiring -/

theorem insertAt_eq (l : List Str) (p : Nat) (x : Str) (h : p ≤ l.length) :
    insertAt l p x = l.take p ++ x :: l.drop p := by
  unfold insertAt; rw [Nat.min_eq_left h]

theorem insertAt_length (l : List Str) (p : Nat) (x : Str) : (insertAt l p x).length = l.length + 1 := by
  unfold insertAt; simp; omega

theorem sublist_insertAt (l : List Str) (p : Nat) (x : Str) : l.Sublist (insertAt l p x) := by
  unfold insertAt
  conv => lhs; rw [← List.take_append_drop (min p l.length) l]
  exact (List.Sublist.refl _).append (List.Sublist.cons _ (List.Sublist.refl _))

theorem plainWords_self (l : List Str) (h : ∀ a ∈ l, ¬ PolicyWord a) : plainWords l = l := by
  unfold plainWords
  rw [List.filter_eq_self]
  intro a ha; simpa using h a ha

theorem plainWords_get (a b : List Str) (x : Str) (h : ∀ y ∈ a, ¬ PolicyWord y)
    (hx : ¬ PolicyWord x) : (plainWords (a ++ x :: b))[a.length]? = some x := by
  have : plainWords (a ++ x :: b) = a ++ x :: plainWords b := by
    have ha := plainWords_self a h
    unfold plainWords at ha ⊢
    rw [List.filter_append, ha]
    simp [hx]
  rw [this]
  simp

/-- The variable a stage with number `i` of `n` stages writes. -/
def nextOf (final : Str) (n i : Nat) : Str := if i + 1 < n then pipeVar i else final

theorem build_get (schemas : Str → Option Schema) (final : Str) (segs : List (List Str)) :
    ∀ (j : Nat) (prev : Str) (cmds : List Cmd), build schemas final segs j prev = .ok cmds →
      cmds.map (·.name) = segs.map (fun s => s.head?.getD []) ∧
      ∀ (i : Nat) (seg : List Str), segs[i]? = some seg → ∃ s, schemas (seg.head?.getD []) = some s ∧
        cmds[i]? = some ⟨seg.head?.getD [], wireArgs s
          (if i = 0 then prev else pipeVar (j + i - 1))
          (if i + 1 < segs.length then pipeVar (j + i) else final) (seg.drop 1)⟩ := by
  induction segs with
  | nil =>
    intro j prev cmds h
    simp only [build, Built.ok.injEq] at h
    subst h
    simp
  | cons seg segs ih =>
    intro j prev cmds h
    simp only [build] at h
    split at h
    · cases h
    · split at h
      · cases h
      · rename_i s hs
        split at h
        · rename_i cs hb
          simp only [Built.ok.injEq] at h
          subst h
          obtain ⟨h1, h2⟩ := ih _ _ _ hb
          refine ⟨by simp [h1], ?_⟩
          intro i seg' hi
          cases i with
          | zero =>
            simp only [List.getElem?_cons_zero, Option.some.injEq] at hi
            subst hi
            refine ⟨s, hs, ?_⟩
            simp only [List.getElem?_cons_zero, if_true, List.length_cons]
            have : (segs ≠ []) ↔ 0 + 1 < segs.length + 1 := by
              cases segs <;> simp
            simp only [this, Nat.add_zero]
          | succ i =>
            simp only [List.getElem?_cons_succ] at hi
            obtain ⟨s', hs', he⟩ := h2 i seg' hi
            refine ⟨s', hs', ?_⟩
            simp only [List.getElem?_cons_succ, List.length_cons]
            rw [he]
            have hne : segs ≠ [] := by rintro rfl; simp at hi
            have e1 : (if i = 0 then (if segs ≠ [] then pipeVar j else final) else
                pipeVar (j + 1 + i - 1)) = (if i + 1 = 0 then prev else pipeVar (j + (i + 1) - 1)) := by
              have hi1 : ¬ (i + 1 = 0) := by omega
              rw [if_pos hne, if_neg hi1]
              by_cases hi0 : i = 0
              · subst hi0; simp
              · rw [if_neg hi0]; congr 1; omega
            have e2 : (if i + 1 < segs.length then pipeVar (j + 1 + i) else final) =
                (if i + 1 + 1 < segs.length + 1 then pipeVar (j + (i + 1)) else final) := by
              have : j + 1 + i = j + (i + 1) := by omega
              simp [this]
            rw [e1, e2]
        · rename_i hno
          exact absurd h (hno cmds)

/-- Position of the output variable. -/
theorem wire_out (s : Schema) (prev next : Str) (typed : List Str) (o k : Nat)
    (ho : s.outIdx = some o) (hn : isVar next = true)
    (hprev : prev = [] ∨ isVar prev = true)
    (hin : ∀ i, s.inIdx = some i → i < o)
    (hk : o = k + if prev ≠ [] ∧ s.inIdx.isSome then 1 else 0)
    (hlen : k ≤ typed.length) (hpol : ∀ a ∈ typed.take k, ¬ PolicyWord a) :
    (plainWords (wireArgs s prev next typed))[o]? = some next := by
  have hnn : next ≠ [] := by rintro rfl; simp [isVar] at hn
  have hnp : ¬ PolicyWord next := by rw [policyWord_iff', isPolicy_of_isVar hn]; simp
  unfold wireArgs
  simp only [ho, hnn, ne_eq, not_false_eq_true, if_true]
  cases hi : s.inIdx with
  | none =>
    simp only [hi, Option.isSome_none, Bool.false_eq_true, and_false, if_false, Nat.add_zero] at hk
    subst hk
    simp only
    rw [insertAt_eq _ _ _ hlen]
    have := plainWords_get (typed.take o) (typed.drop o) next hpol hnp
    rwa [List.length_take, Nat.min_eq_left hlen] at this
  | some i =>
    have hio := hin i hi
    by_cases hp : prev = []
    · simp only [hp, not_true_eq_false, false_and, if_false, Nat.add_zero, ne_eq] at hk ⊢
      subst hk
      rw [insertAt_eq _ _ _ hlen]
      have := plainWords_get (typed.take o) (typed.drop o) next hpol hnp
      rwa [List.length_take, Nat.min_eq_left hlen] at this
    · simp only [hi, hp, not_false_eq_true, Option.isSome_some, and_self, if_true, ne_eq] at hk ⊢
      subst hk
      have hpv : isVar prev = true := by
        rcases hprev with h | h
        · exact absurd h hp
        · exact h
      have hpp : ¬ PolicyWord prev := by rw [policyWord_iff', isPolicy_of_isVar hpv]; simp
      have hik : i ≤ k := by omega
      rw [insertAt_eq typed i prev (by omega)]
      have hl : (typed.take i ++ prev :: typed.drop i).length = typed.length + 1 := by
        simp; omega
      rw [insertAt_eq _ _ _ (by rw [hl]; omega)]
      have hpre : ∀ a ∈ (typed.take i ++ prev :: typed.drop i).take (k + 1), ¬ PolicyWord a := by
        intro a ha
        rw [List.take_append, List.length_take, Nat.min_eq_left (by omega : i ≤ typed.length)] at ha
        have e : k + 1 - i = (k - i) + 1 := by omega
        rw [e, List.take_succ_cons, List.take_take, List.mem_append, List.mem_cons] at ha
        rcases ha with ha | rfl | ha
        · rw [Nat.min_eq_right (by omega)] at ha
          exact hpol a ((List.take_subset_take_left typed hik) ha)
        · exact hpp
        · rw [List.take_drop] at ha
          have := List.mem_of_mem_drop ha
          have e2 : k - i + i = k := by omega
          apply hpol
          first | rwa [e2] at this | (rw [Nat.add_comm] at this; rwa [e2] at this)
      have := plainWords_get _ ((typed.take i ++ prev :: typed.drop i).drop (k + 1)) next hpre hnp
      rwa [List.length_take, hl, Nat.min_eq_left (by omega)] at this

/-- Position of the input variable. -/
theorem wire_in (s : Schema) (prev next : Str) (typed : List Str) (i : Nat)
    (hi : s.inIdx = some i) (hp : isVar prev = true)
    (hout : ∀ o, s.outIdx = some o → i < o)
    (hlen : i ≤ typed.length) (hpol : ∀ a ∈ typed.take i, ¬ PolicyWord a) :
    (plainWords (wireArgs s prev next typed))[i]? = some prev := by
  have hpn : prev ≠ [] := by rintro rfl; simp [isVar] at hp
  have hpp : ¬ PolicyWord prev := by rw [policyWord_iff', isPolicy_of_isVar hp]; simp
  unfold wireArgs
  simp only [hi, hpn, ne_eq, not_false_eq_true, if_true]
  rw [insertAt_eq _ _ _ hlen]
  have base := plainWords_get (typed.take i) (typed.drop i) prev hpol hpp
  rw [List.length_take, Nat.min_eq_left hlen] at base
  cases ho : s.outIdx with
  | none => exact base
  | some o =>
    have hio := hout o ho
    by_cases hn : next = []
    · simpa [hn] using base
    · simp only [hn, not_false_eq_true, if_true]
      unfold insertAt
      obtain ⟨q, hq⟩ : ∃ q, q = min o (typed.take i ++ prev :: typed.drop i).length := ⟨_, rfl⟩
      rw [← hq]
      have hqi : i < q := by
        have : (typed.take i ++ prev :: typed.drop i).length = typed.length + 1 := by simp; omega
        rw [this] at hq; omega
      have e : (typed.take i ++ prev :: typed.drop i).take q =
          typed.take i ++ prev :: (typed.drop i).take (q - i - 1) := by
        rw [List.take_append, List.length_take, Nat.min_eq_left hlen, List.take_take,
          Nat.min_eq_right (by omega)]
        have : q - i = (q - i - 1) + 1 := by omega
        rw [this, List.take_succ_cons, Nat.add_sub_cancel]
      rw [e, List.append_assoc, List.cons_append]
      have := plainWords_get (typed.take i) ((typed.drop i).take (q - i - 1) ++
        next :: (typed.take i ++ prev :: typed.drop i).drop q) prev hpol hpp
      rwa [List.length_take, Nat.min_eq_left hlen] at this

theorem wire_sublist (s : Schema) (prev next : Str) (typed : List Str) :
    typed.Sublist (wireArgs s prev next typed) := by
  unfold wireArgs
  have h1 : typed.Sublist (match s.inIdx with
    | some i => if prev ≠ [] then insertAt typed i prev else typed
    | none => typed) := by
    split
    · split
      · exact sublist_insertAt _ _ _
      · exact List.Sublist.refl _
    · exact List.Sublist.refl _
  simp only
  split
  · split
    · exact h1.trans (sublist_insertAt _ _ _)
    · exact h1
  · exact h1

theorem wire_length (s : Schema) (prev next : Str) (typed : List Str) :
    (wireArgs s prev next typed).length = typed.length +
      (if s.inIdx.isSome ∧ prev ≠ [] then 1 else 0) + (if s.outIdx.isSome ∧ next ≠ [] then 1 else 0) := by
  unfold wireArgs
  cases hi : s.inIdx <;> cases ho : s.outIdx <;> simp only [Option.isSome_none, Option.isSome_some,
    Bool.false_eq_true, false_and, true_and, if_false, Nat.add_zero]
  · split <;> simp [insertAt_length]
  · split <;> simp [insertAt_length]
  · split <;> split <;> simp [insertAt_length]

theorem pipeVar_inj {i j : Nat} (h : pipeVar i = pipeVar j) : i = j := by
  unfold pipeVar at h
  exact toStr_inj (List.append_cancel_left h)

end TinyDIP.Cli
