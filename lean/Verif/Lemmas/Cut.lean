import Verif.Lemmas.Text

/-!
# Text image files that were cut short
-/

namespace TinyDIP.Text

open TinyDIP TinyDIP.Cli

/-- Words, each followed by its separator. -/
def flat (l : List (Str × Char)) : Str := l.flatMap fun p => p.1 ++ [p.2]

theorem flat_append (a b : List (Str × Char)) : flat (a ++ b) = flat a ++ flat b := List.flatMap_append

theorem flat_take_succ {l : List (Str × Char)} {j : Nat} (hj : j < l.length) :
    flat (l.take (j + 1)) = flat (l.take j) ++ (l[j].1 ++ [l[j].2]) := by
  rw [List.take_succ_eq_append_getElem hj, flat_append]
  simp [flat]

/-- A cut text: some whole words with their separators and a part of the next word. -/
theorem take_pairs (l : List (Str × Char)) (k : Nat) :
    ∃ j t, (flat l).take k = flat (l.take j) ++ t ∧
      ((j = l.length ∧ t = []) ∨ ∃ hj : j < l.length, t <+: l[j].1) := by
  induction l generalizing k with
  | nil => exact ⟨0, [], by simp [flat], Or.inl ⟨rfl, rfl⟩⟩
  | cons p l ih =>
    by_cases h : k ≤ p.1.length
    · refine ⟨0, p.1.take k, ?_, Or.inr ⟨by simp, List.take_prefix _ _⟩⟩
      simp only [flat, List.flatMap_cons, List.take_zero, List.flatMap_nil, List.nil_append]
      rw [List.append_assoc, List.take_append_of_le_length h]
    · obtain ⟨j, t, e, hj⟩ := ih (k - (p.1.length + 1))
      refine ⟨j + 1, t, ?_, ?_⟩
      · have e1 : flat (p :: l) = (p.1 ++ [p.2]) ++ flat l := by simp [flat]
        have e2 : flat ((p :: l).take (j + 1)) = (p.1 ++ [p.2]) ++ flat (l.take j) := by simp [flat]
        rw [e1, e2, List.take_append, List.take_of_length_le (by simp; omega), List.append_assoc (_ ++ _), ← e]
        simp
      · rcases hj with ⟨rfl, rfl⟩ | ⟨hj, ht⟩
        · exact Or.inl ⟨rfl, rfl⟩
        · exact Or.inr ⟨by simpa using hj, by simpa using ht⟩

theorem word_prefix {t u : Str} (h : t <+: u) (hu : Word u) (ht : t ≠ []) : Word t := by
  refine ⟨ht, fun c hc => hu.2.1 c (h.subset hc), ?_⟩
  obtain ⟨r, rfl⟩ := h
  cases t with
  | nil => exact absurd rfl ht
  | cons c t => simpa using hu.2.2

/-- The words of a cut text. -/
theorem take_tokens (L : List (Str × Char)) (hL : ∀ p ∈ L, Word p.1 ∧ Blank p.2) (k : Nat) :
    ∃ ts, PnmText ts ((flat L).take k) ∧ (ts = [] ∨ ∃ (j : Nat) (t : Str) (hj : j < L.length),
      ts = (L.take j).map Prod.fst ++ [t] ∧ t ≠ [] ∧ t <+: L[j].1 ∧ (flat (L.take j)).length + t.length ≤ k) := by
  obtain ⟨j, t, e, h⟩ := take_pairs L k
  have hlen : (flat (L.take j)).length + t.length ≤ k := by
    have := congrArg List.length e
    rw [List.length_take, List.length_append] at this
    omega
  have hw : ∀ p ∈ L.take j, Word p.1 ∧ Blank p.2 := fun p hp => hL p (List.take_subset _ _ hp)
  have whole : t = [] → ∃ ts, PnmText ts ((flat L).take k) ∧ (ts = [] ∨ ∃ (j : Nat) (t : Str) (hj : j < L.length),
      ts = (L.take j).map Prod.fst ++ [t] ∧ t ≠ [] ∧ t <+: L[j].1 ∧ (flat (L.take j)).length + t.length ≤ k) := by
    intro ht
    subst ht
    have := text_pairs (L.take j) hw (PnmText.nil [] .nil)
    rw [List.append_nil] at this
    refine ⟨_, by rw [e]; exact this, ?_⟩
    by_cases hmin : min j L.length = 0
    · left
      have : L.take j = [] := by rw [← List.length_eq_zero_iff, List.length_take]; exact hmin
      rw [this]; rfl
    · right
      obtain ⟨i, hi⟩ : ∃ i, min j L.length = i + 1 := ⟨min j L.length - 1, by omega⟩
      have hil : i < L.length := by omega
      have ej : L.take j = L.take (i + 1) := by rw [← hi]; exact List.take_eq_take_iff.2 (by omega)
      refine ⟨i, L[i].1, hil, ?_, (hL _ (List.getElem_mem hil)).1.1, List.prefix_refl _, ?_⟩
      · rw [ej, List.take_succ_eq_append_getElem hil, List.map_append]; rfl
      · rw [ej, flat_take_succ hil] at hlen
        simp only [List.length_append, List.length_cons, List.length_nil] at hlen
        omega
  rcases h with ⟨-, rfl⟩ | ⟨hj, ht⟩
  · exact whole rfl
  · by_cases h0 : t = []
    · exact whole h0
    · have hwt := word_prefix ht (hL _ (List.getElem_mem hj)).1 h0
      have h1 : PnmText [t] t := by
        have := PnmText.cons [] t [] [] .nil hwt (.nil [] .nil) (Or.inl rfl)
        simpa using this
      exact ⟨_, by rw [e]; exact text_pairs (L.take j) hw h1, Or.inr ⟨j, t, hj, rfl, h0, ht, hlen⟩⟩

/-- The beginning of a decimal number is a decimal number. -/
theorem prefix_toStr (n : Nat) {t : Str} (h : t <+: toStr n) (ht : t ≠ []) :
    ∃ m, t = toStr m ∧ m ≤ n ∧ (0 < n → 0 < m) := by
  induction n using Nat.strong_induction_on generalizing t with
  | _ n ih =>
    by_cases hn : n < 10
    · have e : toStr n = [n.digitChar] := Nat.toDigits_of_lt_base hn
      rw [e] at h
      have : t = [n.digitChar] := by
        rcases List.prefix_concat_iff.1 (show t <+: [] ++ [n.digitChar] from h) with h | h
        · exact h
        · exact absurd (List.prefix_nil.1 h) ht
      exact ⟨n, by rw [this, e], le_refl _, id⟩
    · have e : toStr n = toStr (n / 10) ++ [(n % 10).digitChar] := Nat.toDigits_of_base_le (by decide) (by omega)
      rw [e] at h
      rcases List.prefix_concat_iff.1 h with h | h
      · exact ⟨n, by rw [h, e], le_refl _, id⟩
      · obtain ⟨m, h1, h2, h3⟩ := ih (n / 10) (by omega) h ht
        exact ⟨m, h1, by omega, fun _ => h3 (by omega)⟩

theorem stoull_nil : stoull [] = .throw .invalidArg := rfl
theorem stoi_nil : stoi [] = .throw .invalidArg := rfl

/-- Texts with too few words for a header. -/
theorem read_short1 {sched : List Nat → List Nat} {outbits : Int} {t s : Str} (h : PnmText [t] s) :
    ∃ e, pnmRead sched (some s) outbits = .throw e := by
  obtain ⟨m1, m2⟩ := pnmToken_text h
  obtain ⟨w1, -⟩ := pnmToken_text m2
  simp only [List.headD_cons, List.tail_cons, List.headD_nil] at m1 w1
  simp only [pnmRead, m1, w1, stoull_nil]
  split
  · exact ⟨_, rfl⟩
  · exact ⟨_, rfl⟩

theorem read_short0 {sched : List Nat → List Nat} {outbits : Int} {s : Str} (h : PnmText [] s) :
    ∃ e, pnmRead sched (some s) outbits = .throw e := by
  obtain ⟨m1, m2⟩ := pnmToken_text h
  simp only [List.headD_nil] at m1
  refine ⟨.runtime, ?_⟩
  simp only [pnmRead, m1]
  exact if_pos (by decide)

theorem read_short2 {sched : List Nat → List Nat} {outbits : Int} {t s : Str} {a : Nat} (ha : a < 2 ^ 64)
    (h : PnmText [t, toStr a] s) : ∃ e, pnmRead sched (some s) outbits = .throw e := by
  obtain ⟨m1, m2⟩ := pnmToken_text h
  obtain ⟨w1, w2⟩ := pnmToken_text m2
  obtain ⟨h1, -⟩ := pnmToken_text w2
  simp only [List.headD_cons, List.tail_cons, List.headD_nil] at m1 w1 h1
  simp only [pnmRead, m1, w1, h1, stoull_nil, stoull_toStr ha]
  split
  · exact ⟨_, rfl⟩
  · exact ⟨_, rfl⟩

theorem read_short3 {sched : List Nat → List Nat} {outbits : Int} {t s : Str} {a b : Nat} (ha : a < 2 ^ 64)
    (hb : b < 2 ^ 64) (ht : t ≠ sP1)
    (h : PnmText [t, toStr a, toStr b] s) : ∃ e, pnmRead sched (some s) outbits = .throw e := by
  obtain ⟨m1, m2⟩ := pnmToken_text h
  obtain ⟨w1, w2⟩ := pnmToken_text m2
  obtain ⟨h1, h2⟩ := pnmToken_text w2
  obtain ⟨x1, -⟩ := pnmToken_text h2
  simp only [List.headD_cons, List.tail_cons, List.headD_nil] at m1 w1 h1 x1
  simp only [pnmRead, m1, w1, h1, x1, stoi_nil, stoull_toStr ha, stoull_toStr hb, Res.ok_bind, ne_eq, ht,
    not_false_eq_true, if_true]
  split
  · exact ⟨_, rfl⟩
  · exact ⟨_, rfl⟩

/-- The word for the largest sample, present in two of the formats. -/
def maxWord (magic : Str) : List (Str × Char) := if magic = sP1 then [] else [(toStr 255, '\n')]

/-- The text of a picture with the samples `S`. -/
def wholeText (magic : Str) (w h : Nat) (S : List (Str × Char)) : List (Str × Char) :=
  (magic, '\n') :: (toStr w, ' ') :: (toStr h, '\n') :: (maxWord magic ++ S)

/-- A header is there but samples are missing. -/
theorem read_missing {sched : List Nat → List Nat} {magic s : Str} {a b c : Nat} {vs : List Nat}
    (hm : magic = sP1 ∨ magic = sP2 ∨ magic = sP3) (ha : a < 2 ^ 64) (hb : b < 2 ^ 64) (hc : c < 256)
    (hv : ∀ v ∈ vs, v < 256)
    (hl : vs.length < (if magic = sP3 then wmul (wmul a b) 3 else wmul a b))
    (h : PnmText (magic :: toStr a :: toStr b :: ((if magic = sP1 then [] else [toStr c]) ++ vs.map toStr)) s) :
    pnmRead sched (some s) 8 = .throw .runtime := by
  have hmap : vs.map toStr = (vs.map Int.ofNat).map intStr := by
    rw [List.map_map]
    exact List.map_congr_left fun v _ => (intStr_ofNat v).symm
  have hvi : ∀ v ∈ vs.map Int.ofNat, -(2 ^ 31) ≤ v ∧ v < 2 ^ 31 := by
    intro v hv'
    obtain ⟨n, hn, rfl⟩ := List.mem_map.1 hv'
    have := hv n hn
    simp only [Int.ofNat_eq_natCast]
    omega
  by_cases hp : magic = sP1
  · rw [if_pos hp, List.nil_append, hmap] at h
    obtain ⟨rest, h1, h2⟩ := pnmRead_header (sched := sched) (outbits := 8) (max := 1) hm ha hb (by omega) (by omega)
      (fun _ => rfl) (by omega) (by omega) (by rw [if_pos hp]; exact h)
    rw [h2, pnmSamples_short _ h1 hvi (by simpa using hl)]; rfl
  · rw [if_neg hp, hmap, ← intStr_ofNat c] at h
    obtain ⟨rest, h1, h2⟩ := pnmRead_header (sched := sched) (outbits := 8) (max := c) hm ha hb (by omega) (by omega)
      (fun e => absurd e hp) (by omega) (by omega) (by rw [if_neg hp]; exact h)
    rw [h2, pnmSamples_short _ h1 hvi (by simpa using hl)]; rfl

/-- A cut file either is refused, or has all its words but for the last digits of the last sample. -/
theorem read_cut {sched : List Nat → List Nat} {magic : Str} {w h n v : Nat} {us : List Nat}
    {S : List (Str × Char)}
    (hm : magic = sP1 ∨ magic = sP2 ∨ magic = sP3) (hw : 0 < w) (hh : 0 < h) (hw' : w < 2 ^ 64) (hh' : h < 2 ^ 64)
    (hwh : w * h * 3 < 2 ^ 64) (hn : n = if magic = sP3 then w * h * 3 else w * h)
    (hS : S.map Prod.fst = (us ++ [v]).map toStr) (hb : ∀ p ∈ S, Blank p.2) (hlen : us.length + 1 = n)
    (hu : ∀ u ∈ us, u < 256) (hv : v < 256) (k : Nat) :
    (∃ e, pnmRead sched (some ((flat (wholeText magic w h S)).take k)) 8 = .throw e) ∨
    ((flat (wholeText magic w h S)).length < k + 1 + (toStr v).length ∧ ∃ m, toStr m <+: toStr v ∧ m ≤ v ∧
      PnmText (magic :: toStr w :: toStr h ::
        ((if magic = sP1 then [] else [toStr 255]) ++ (us ++ [m]).map toStr))
        ((flat (wholeText magic w h S)).take k)) := by
  have hwm : Word magic := by
    rcases hm with rfl | rfl | rfl <;> exact ⟨by decide, by unfold Blank; decide, by decide⟩
  have bnl : Blank '\n' := by unfold Blank; decide
  have bsp : Blank ' ' := by unfold Blank; decide
  have hlS : S.length = us.length + 1 := by
    have := congrArg List.length hS
    simpa using this
  have hwS : ∀ p ∈ S, Word p.1 ∧ Blank p.2 := by
    intro p hp
    have : p.1 ∈ S.map Prod.fst := List.mem_map.2 ⟨p, hp, rfl⟩
    rw [hS] at this
    obtain ⟨u, -, hu⟩ := List.mem_map.1 this
    exact ⟨hu ▸ word_toStr u, hb p hp⟩
  have hL : ∀ p ∈ wholeText magic w h S, Word p.1 ∧ Blank p.2 := by
    intro p hp
    simp only [wholeText, maxWord, List.mem_cons, List.mem_append] at hp
    rcases hp with rfl | rfl | rfl | hp | hp
    · exact ⟨hwm, bnl⟩
    · exact ⟨word_toStr _, bsp⟩
    · exact ⟨word_toStr _, bnl⟩
    · split at hp
      · simp at hp
      · simp only [List.mem_singleton] at hp
        subst hp
        exact ⟨word_toStr 255, bnl⟩
    · exact hwS p hp
  obtain ⟨ts, ht, hts⟩ := take_tokens _ hL k
  rcases hts with rfl | ⟨j, t, hj, rfl, h0, hp, hk⟩
  · exact Or.inl (read_short0 ht)
  have m1 : wmul w h = w * h := wmul_of_lt (by omega)
  -- the part of the list behind the header
  have samples : ∀ i, j = 3 + (maxWord magic).length + i → (∃ e, pnmRead sched (some ((flat (wholeText magic w h S)).take k)) 8 = .throw e) ∨
    ((flat (wholeText magic w h S)).length < k + 1 + (toStr v).length ∧ ∃ m, toStr m <+: toStr v ∧ m ≤ v ∧
      PnmText (magic :: toStr w :: toStr h ::
        ((if magic = sP1 then [] else [toStr 255]) ++ (us ++ [m]).map toStr))
        ((flat (wholeText magic w h S)).take k)) := by
    intro i hi
    have hlA : ((magic, '\n') :: (toStr w, ' ') :: (toStr h, '\n') :: maxWord magic).length =
        3 + (maxWord magic).length := by simp; omega
    have eL : wholeText magic w h S = ((magic, '\n') :: (toStr w, ' ') :: (toStr h, '\n') :: maxWord magic) ++ S := rfl
    have hiS : i < S.length := by
      have := hj
      rw [eL, List.length_append, hlA] at this
      omega
    have et : (wholeText magic w h S).take j =
        ((magic, '\n') :: (toStr w, ' ') :: (toStr h, '\n') :: maxWord magic) ++ S.take i := by
      rw [eL, hi, ← hlA, List.take_length_add_append]
    have eg : (wholeText magic w h S)[j].1 = toStr ((us ++ [v])[i]'(by simp; omega)) := by
      have e1 : (wholeText magic w h S)[j] = S[i] := by
        simp only [eL]
        rw [List.getElem_append_right (by rw [hlA]; omega)]
        congr 1
        rw [hlA]; omega
      have e2 : (S.map Prod.fst)[i]'(by simpa using hiS) = S[i].1 := List.getElem_map ..
      rw [e1, ← e2]
      simp only [hS, List.getElem_map]
    have emax : (maxWord magic).map Prod.fst = if magic = sP1 then [] else [toStr 255] := by
      unfold maxWord; split <;> rfl
    have eS : (S.take i).map Prod.fst = ((us ++ [v]).take i).map toStr := by
      rw [List.map_take, hS, List.map_take]
    have hp' := hp
    rw [eg] at hp'
    obtain ⟨m, rfl, hmv, -⟩ := prefix_toStr _ hp' h0
    have ets : ((wholeText magic w h S).take j).map Prod.fst ++ [toStr m] = magic :: toStr w :: toStr h ::
        ((if magic = sP1 then [] else [toStr 255]) ++ ((us ++ [v]).take i ++ [m]).map toStr) := by
      rw [et, List.map_append, eS, List.map_cons, List.map_cons, List.map_cons, emax]
      simp
    rw [ets] at ht
    by_cases hiu : i < us.length
    · left
      have e3 : (us ++ [v])[i]'(by simp; omega) = us[i] := List.getElem_append_left hiu
      rw [e3] at hmv
      have hui := hu _ (List.getElem_mem hiu)
      refine ⟨_, read_missing (c := 255) hm hw' hh' (by omega) ?_ ?_ ht⟩
      · intro x hx
        rw [List.take_append_of_le_length (by omega)] at hx
        rcases List.mem_append.1 hx with hx | hx
        · exact hu x (List.take_subset _ _ hx)
        · simp only [List.mem_singleton] at hx
          omega
      · rw [m1]
        simp only [List.length_append, List.length_take, List.length_cons, List.length_nil]
        split at hn
        · rename_i hp3
          rw [if_pos hp3, wmul_of_lt hwh]; omega
        · rename_i hp3
          rw [if_neg hp3]; omega
    · right
      have hie : i = us.length := by omega
      subst hie
      have e3 : (us ++ [v])[us.length]'(by simp) = v := by simp
      rw [e3] at hmv hp'
      refine ⟨?_, m, hp', hmv, ?_⟩
      · have e4 : (wholeText magic w h S).take (j + 1) = wholeText magic w h S := by
          refine List.take_of_length_le ?_
          rw [eL, List.length_append, hlA]; omega
        have e5 := flat_take_succ hj
        rw [e4] at e5
        rw [e5, eg, e3]
        have : 0 < (toStr m).length := List.length_pos_iff.2 h0
        simp only [List.length_append, List.length_cons, List.length_nil]
        omega
      · rw [List.take_left' rfl] at ht
        exact ht
  rcases j with _ | _ | _ | j
  · exact Or.inl (read_short1 (by simpa using ht))
  · obtain ⟨m, rfl, hm', -⟩ := prefix_toStr w (by simpa [wholeText] using hp) h0
    exact Or.inl (read_short2 (a := m) (by omega) (by simpa [wholeText] using ht))
  · obtain ⟨m, rfl, hm', hm0⟩ := prefix_toStr h (by simpa [wholeText] using hp) h0
    have ht' : PnmText [magic, toStr w, toStr m] ((flat (wholeText magic w h S)).take k) := by
      simpa [wholeText] using ht
    by_cases hp1 : magic = sP1
    · left
      refine ⟨_, read_missing (vs := []) (c := 1) hm hw' (b := m) (by omega) (by omega) (by simp) ?_ ?_⟩
      · have hle : w * m ≤ w * h := Nat.mul_le_mul_left _ hm'
        have hpos : 0 < w * m := Nat.mul_pos hw (hm0 hh)
        rw [if_neg (by rw [hp1]; decide), wmul_of_lt (by omega)]
        simpa using hpos
      · rw [if_pos hp1]; exact ht'
    · exact Or.inl (read_short3 hw' (by omega) hp1 ht')
  · by_cases hp1 : magic = sP1
    · exact samples j (by simp [maxWord, hp1]; omega)
    · rcases j with _ | j
      · have hmx : maxWord magic = [(toStr 255, '\n')] := by simp [maxWord, hp1]
        obtain ⟨m, rfl, hm', hm0⟩ := prefix_toStr 255 (by simpa [wholeText, hmx] using hp) h0
        left
        refine ⟨_, read_missing (vs := []) (c := m) hm hw' hh' (by omega) (by simp) ?_ ?_⟩
        · have hpos : 0 < w * h := Nat.mul_pos hw hh
          rw [m1]
          split
          · rw [wmul_of_lt hwh]; simp; omega
          · simpa using hpos
        · rw [if_neg hp1]
          simpa [wholeText, hmx] using ht
      · exact samples j (by simp [maxWord, hp1]; omega)

/-! ### The words of a written file -/

/-- The words of one pixel. -/
def pixWords (magic : Str) (p : RGB) : List (Str × Char) :=
  if magic = sP1 then [(toStr (if p.c0 = 0 then 1 else 0), '\n')]
  else if magic = sP2 then [(toStr p.c0.toNat, '\n')]
  else [(toStr p.c0.toNat, ' '), (toStr p.c1.toNat, ' '), (toStr p.c2.toNat, '\n')]

/-- The numbers of one pixel. -/
def pixVals (magic : Str) (p : RGB) : List Nat :=
  if magic = sP1 then [if p.c0 = 0 then 1 else 0]
  else if magic = sP2 then [p.c0.toNat]
  else [p.c0.toNat, p.c1.toNat, p.c2.toNat]

theorem flat_pixWords {magic : Str} (hm : magic = sP1 ∨ magic = sP2 ∨ magic = sP3) (p : RGB) :
    flat (pixWords magic p) = pnmPixelText magic p := by
  have hd0 : toStr 0 = ['0'] := by decide
  have hd1 : toStr 1 = ['1'] := by decide
  rcases hm with rfl | rfl | rfl
  · simp only [pixWords, pnmPixelText, if_true]
    split <;> simp [flat, hd0, hd1]
  · simp [pixWords, pnmPixelText, flat, show sP2 ≠ sP1 by decide]
  · simp [pixWords, pnmPixelText, flat, show sP3 ≠ sP1 by decide, show sP3 ≠ sP2 by decide]

theorem pixWords_fst (magic : Str) (p : RGB) : (pixWords magic p).map Prod.fst = (pixVals magic p).map toStr := by
  unfold pixWords pixVals
  split
  · rfl
  · split <;> rfl

theorem pixWords_blank (magic : Str) (p : RGB) : ∀ q ∈ pixWords magic p, Blank q.2 := by
  have bnl : Blank '\n' := by unfold Blank; decide
  have bsp : Blank ' ' := by unfold Blank; decide
  intro q hq
  unfold pixWords at hq
  split at hq
  · simp only [List.mem_singleton] at hq; subst hq; exact bnl
  · split at hq
    · simp only [List.mem_singleton] at hq; subst hq; exact bnl
    · simp only [List.mem_cons, List.not_mem_nil, or_false] at hq
      rcases hq with rfl | rfl | rfl
      · exact bsp
      · exact bsp
      · exact bnl

theorem pixVals_lt (magic : Str) (p : RGB) : ∀ v ∈ pixVals magic p, v < 256 := by
  intro v hv
  have h0 := p.c0.isLt
  have h1 := p.c1.isLt
  have h2 := p.c2.isLt
  unfold pixVals at hv
  split at hv
  · simp only [List.mem_singleton] at hv
    subst hv
    split <;> omega
  · split at hv
    · simp only [List.mem_singleton] at hv; subst hv; exact h0
    · simp only [List.mem_cons, List.not_mem_nil, or_false] at hv
      rcases hv with rfl | rfl | rfl
      · exact h0
      · exact h1
      · exact h2

/-- The words of all pixels. -/
def allWords (magic : Str) (w h : Nat) (f : Nat → Nat → RGB) : List (Str × Char) :=
  (iterYX w h).flatMap fun q => pixWords magic (f q.1 (h - 1 - q.2))

/-- The numbers of all pixels. -/
def allVals (magic : Str) (w h : Nat) (f : Nat → Nat → RGB) : List Nat :=
  (iterYX w h).flatMap fun q => pixVals magic (f q.1 (h - 1 - q.2))

theorem flat_flatMap {β : Type} (l : List β) (g : β → List (Str × Char)) :
    flat (l.flatMap g) = l.flatMap fun b => flat (g b) := by
  induction l with
  | nil => rfl
  | cons a l ih => rw [List.flatMap_cons, flat_append, ih, List.flatMap_cons]

theorem pnmWrite_flat {im : Image RGB} {w h : Nat} {f : Nat → Nat → RGB} (s : im.Shows w h f)
    {magic : Str} (hm : magic = sP1 ∨ magic = sP2 ∨ magic = sP3) :
    pnmWrite im magic 255 = .ok (flat (wholeText magic w h (allWords magic w h f))) := by
  rw [pnmWrite_eq s hm]
  congr 1
  have e1 : (iterYX w h).flatMap (fun p => pnmPixelText magic (f p.1 (h - 1 - p.2))) =
      flat (allWords magic w h f) := by
    unfold allWords
    rw [flat_flatMap]
    exact List.flatMap_congr fun q _ => (flat_pixWords hm _).symm
  have e2 : (if magic ≠ sP1 then intStr 255 ++ ['\n'] else []) = flat (maxWord magic) := by
    unfold maxWord
    by_cases hp : magic = sP1
    · simp [hp, flat]
    · have : intStr 255 = toStr 255 := intStr_ofNat 255
      simp [hp, flat, this]
  rw [e1, e2]
  unfold wholeText
  rw [show ∀ (a b c : Str × Char) (l : List (Str × Char)), a :: b :: c :: l = [a, b, c] ++ l from fun _ _ _ _ => rfl,
    flat_append, flat_append]
  simp [flat]

theorem allWords_fst (magic : Str) (w h : Nat) (f : Nat → Nat → RGB) :
    (allWords magic w h f).map Prod.fst = (allVals magic w h f).map toStr := by
  unfold allWords allVals
  rw [List.map_flatMap, List.map_flatMap]
  exact List.flatMap_congr fun q _ => pixWords_fst _ _

theorem iterYX_last {w h : Nat} (hw : 0 < w) (hh : 0 < h) :
    ∃ I, iterYX w h = I ++ [(w - 1, h - 1)] ∧ ∀ q ∈ I, ¬ (q.1 = w - 1 ∧ h - 1 - q.2 = 0) := by
  obtain ⟨w, rfl⟩ : ∃ n, w = n + 1 := ⟨w - 1, by omega⟩
  obtain ⟨h, rfl⟩ : ∃ n, h = n + 1 := ⟨h - 1, by omega⟩
  refine ⟨((List.range h).flatMap fun y => (List.range (w + 1)).map fun x => (x, y)) ++
    (List.range w).map fun x => (x, h), ?_, ?_⟩
  · unfold iterYX
    rw [List.range_succ (n := h), List.flatMap_append]
    simp only [List.flatMap_cons, List.flatMap_nil, List.append_nil]
    conv_lhs => rw [List.range_succ (n := w), List.map_append]
    conv_rhs => rw [List.range_succ (n := w)]
    simp
  · rintro ⟨x, y⟩ hq ⟨h1, h2⟩
    simp only [List.mem_append, List.mem_flatMap, List.mem_map, List.mem_range, Prod.mk.injEq] at hq
    simp only at h1 h2
    rcases hq with ⟨a, ha, b, hb, h3, h4⟩ | ⟨a, ha, h3, h4⟩ <;> omega

theorem allVals_split {magic : Str} {w h v : Nat} {f : Nat → Nat → RGB} {a : List Nat} (hw : 0 < w) (hh : 0 < h)
    (hv : pixVals magic (f (w - 1) 0) = a ++ [v]) :
    ∃ us, allVals magic w h f = us ++ [v] ∧ ∀ m p, pixVals magic p = a ++ [m] →
      allVals magic w h (updPx f (w - 1) 0 p) = us ++ [m] := by
  obtain ⟨I, e, hI⟩ := iterYX_last hw hh
  refine ⟨I.flatMap (fun q => pixVals magic (f q.1 (h - 1 - q.2))) ++ a, ?_, fun m p hp => ?_⟩
  · unfold allVals
    rw [e, List.flatMap_append]
    simp [hv]
  · unfold allVals
    rw [e, List.flatMap_append]
    have : I.flatMap (fun q => pixVals magic (updPx f (w - 1) 0 p q.1 (h - 1 - q.2))) =
        I.flatMap (fun q => pixVals magic (f q.1 (h - 1 - q.2))) :=
      List.flatMap_congr fun q hq => by rw [updPx, if_neg (hI q hq)]
    rw [this]
    simp [updPx, hp]

theorem length_allVals {magic : Str} (hm : magic = sP1 ∨ magic = sP2 ∨ magic = sP3) (w h : Nat)
    (f : Nat → Nat → RGB) :
    (allVals magic w h f).length = if magic = sP3 then w * h * 3 else w * h := by
  have hl : ∀ p, (pixVals magic p).length = if magic = sP3 then 3 else 1 := by
    intro p
    rcases hm with rfl | rfl | rfl
    · simp [pixVals, show sP1 ≠ sP3 by decide]
    · simp [pixVals, show sP2 ≠ sP1 by decide, show sP2 ≠ sP3 by decide]
    · simp [pixVals, show sP3 ≠ sP1 by decide, show sP3 ≠ sP2 by decide]
  unfold allVals
  simp only [List.length_flatMap, hl]
  rw [List.map_const', List.sum_replicate, iterYX_len]
  split <;> simp

theorem wholeText_words {magic : Str} (hm : magic = sP1 ∨ magic = sP2 ∨ magic = sP3) (w h : Nat)
    (f : Nat → Nat → RGB) : ∀ p ∈ wholeText magic w h (allWords magic w h f), Word p.1 ∧ Blank p.2 := by
  have hwm : Word magic := by
    rcases hm with rfl | rfl | rfl <;> exact ⟨by decide, by unfold Blank; decide, by decide⟩
  have bnl : Blank '\n' := by unfold Blank; decide
  have bsp : Blank ' ' := by unfold Blank; decide
  intro p hp
  simp only [wholeText, maxWord, List.mem_cons, List.mem_append] at hp
  rcases hp with rfl | rfl | rfl | hp | hp
  · exact ⟨hwm, bnl⟩
  · exact ⟨word_toStr _, bsp⟩
  · exact ⟨word_toStr _, bnl⟩
  · split at hp
    · simp at hp
    · simp only [List.mem_singleton] at hp
      subst hp
      exact ⟨word_toStr 255, bnl⟩
  · obtain ⟨q, -, hq⟩ := List.mem_flatMap.1 hp
    refine ⟨?_, pixWords_blank _ _ p hq⟩
    have : p.1 ∈ (pixWords magic (f q.1 (h - 1 - q.2))).map Prod.fst := List.mem_map.2 ⟨p, hq, rfl⟩
    rw [pixWords_fst] at this
    obtain ⟨u, -, hu⟩ := List.mem_map.1 this
    exact hu ▸ word_toStr u

theorem wholeText_fst (magic : Str) (w h : Nat) (f : Nat → Nat → RGB) :
    (wholeText magic w h (allWords magic w h f)).map Prod.fst = magic :: toStr w :: toStr h ::
      ((if magic = sP1 then [] else [toStr 255]) ++ (allVals magic w h f).map toStr) := by
  unfold wholeText
  rw [List.map_cons, List.map_cons, List.map_cons, List.map_append, allWords_fst]
  unfold maxWord
  split <;> rfl

theorem text_whole {magic : Str} (hm : magic = sP1 ∨ magic = sP2 ∨ magic = sP3) (w h : Nat)
    (f : Nat → Nat → RGB) :
    PnmText (magic :: toStr w :: toStr h ::
      ((if magic = sP1 then [] else [toStr 255]) ++ (allVals magic w h f).map toStr))
      (flat (wholeText magic w h (allWords magic w h f))) := by
  have := text_pairs _ (wholeText_words hm w h f) (PnmText.nil [] .nil)
  rw [List.append_nil, List.append_nil, wholeText_fst] at this
  exact this

/-- Without the last separator the words are the same. -/
theorem text_end (L : List (Str × Char)) (hL : ∀ p ∈ L, Word p.1 ∧ Blank p.2) (hne : L ≠ []) (k : Nat)
    (hk : (flat L).length ≤ k + 1) : PnmText (L.map Prod.fst) ((flat L).take k) := by
  by_cases h : (flat L).length ≤ k
  · rw [List.take_of_length_le h]
    have := text_pairs _ hL (PnmText.nil [] .nil)
    rwa [List.append_nil, List.append_nil] at this
  · have eL : L = L.dropLast ++ [L.getLast hne] := (List.dropLast_append_getLast hne).symm
    have hlast := hL _ (List.getLast_mem hne)
    have e1 : flat L = (flat L.dropLast ++ (L.getLast hne).1) ++ [(L.getLast hne).2] := by
      conv_lhs => rw [eL, flat_append]
      simp [flat]
    have hlen : k = (flat L.dropLast ++ (L.getLast hne).1).length := by
      have := congrArg List.length e1
      rw [List.length_append] at this
      simp only [List.length_cons, List.length_nil] at this
      omega
    have e2 : (flat L).take k = flat L.dropLast ++ (L.getLast hne).1 := by
      rw [e1, hlen, List.take_left]
    have h1 : PnmText [(L.getLast hne).1] (L.getLast hne).1 := by
      have := PnmText.cons [] (L.getLast hne).1 [] [] .nil hlast.1 (.nil [] .nil) (Or.inl rfl)
      simpa using this
    have := text_pairs L.dropLast (fun p hp => hL p (List.dropLast_subset _ hp)) h1
    rw [e2]
    have e3 : L.map Prod.fst = L.dropLast.map Prod.fst ++ [(L.getLast hne).1] := by
      conv_lhs => rw [eL]
      simp
    rw [e3]
    exact this

/-- A cut file is refused, or reads like the file of a picture with a smaller last number. -/
theorem pnm_cut {sched : List Nat → List Nat} {magic : Str} {w h v : Nat} {a : List Nat} {f : Nat → Nat → RGB}
    (hm : magic = sP1 ∨ magic = sP2 ∨ magic = sP3) (hw : 0 < w) (hh : 0 < h) (hw' : w < 2 ^ 64) (hh' : h < 2 ^ 64)
    (hwh : w * h * 3 < 2 ^ 64) (hv : pixVals magic (f (w - 1) 0) = a ++ [v]) (k : Nat) :
    (∃ e, pnmRead sched (some ((flat (wholeText magic w h (allWords magic w h f))).take k)) 8 = .throw e) ∨
    ((flat (wholeText magic w h (allWords magic w h f))).length < k + 1 + (toStr v).length ∧
      ∃ m, toStr m <+: toStr v ∧ m ≤ v ∧ ∀ p, pixVals magic p = a ++ [m] →
        pnmRead sched (some ((flat (wholeText magic w h (allWords magic w h f))).take k)) 8 =
          pnmRead sched (some (flat (wholeText magic w h (allWords magic w h (updPx f (w - 1) 0 p))))) 8) := by
  obtain ⟨us, e1, e2⟩ := allVals_split hw hh hv
  have hmem : ∀ u ∈ us ++ [v], u < 256 := by
    rw [← e1]
    intro u hu
    obtain ⟨q, -, hq⟩ := List.mem_flatMap.1 hu
    exact pixVals_lt _ _ u hq
  have hl := length_allVals hm w h f
  rw [e1] at hl
  rcases read_cut (sched := sched) hm hw hh hw' hh' hwh rfl (S := allWords magic w h f) (us := us) (v := v)
    (by rw [allWords_fst, e1])
    (fun p hp => by
      obtain ⟨q, -, hq⟩ := List.mem_flatMap.1 hp
      exact pixWords_blank _ _ p hq)
    (by simpa using hl) (fun u hu => hmem u (by simp [hu])) (hmem v (by simp)) k with h1 | ⟨h1, m, h2, h3, h4⟩
  · exact Or.inl h1
  · refine Or.inr ⟨h1, m, h2, h3, fun p hp => ?_⟩
    have := text_whole hm w h (updPx f (w - 1) 0 p)
    rw [e2 m p hp] at this
    exact pnmRead_text sched 8 h4 this

theorem pnm_end {sched : List Nat → List Nat} {magic : Str} {w h : Nat} {f : Nat → Nat → RGB}
    (hm : magic = sP1 ∨ magic = sP2 ∨ magic = sP3) (k : Nat)
    (hk : (flat (wholeText magic w h (allWords magic w h f))).length ≤ k + 1) :
    pnmRead sched (some ((flat (wholeText magic w h (allWords magic w h f))).take k)) 8 =
      pnmRead sched (some (flat (wholeText magic w h (allWords magic w h f)))) 8 := by
  have := text_end _ (wholeText_words hm w h f) (by simp [wholeText]) k hk
  rw [wholeText_fst] at this
  exact pnmRead_text sched 8 this (text_whole hm w h f)

end TinyDIP.Text
