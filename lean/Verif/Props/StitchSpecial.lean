import Verif.Spec.StitchSpecial
import Verif.Lemmas.StitchRobust
import Verif.Props.MatchSpecial
import Mathlib.Tactic.FinCases

/-!
# Property C217: the robust estimator with infinities and NaN

Full statement of C217: whatever the solver returns, the robust estimator returns a sampled model of least cost; the
cost counts the matches that do not agree (RANSAC) or sums the errors up to the threshold (MSAC), and a model that
gives NaN for a match is not returned.

What is missing: RANSAC counts NaN as a match that does not agree, so it returns a model of NaN when there is nothing
better.
-/

namespace TinyDIP.Props

open TinyDIP Rnd Sp Dbl Stitch

open scoped Classical

/-! ## C217 -/

theorem costD_ok (score : Dbl → Dbl → Dbl) (t : Dbl) {kp1 kp2 : List Pt} {ms : List (Nat × Nat)}
    (hm : InRange kp1 kp2 ms) (H : Hom) :
    costD score t kp1 kp2 ms H = .ok (totalD score t H (ms.map (matchPts kp1 kp2))) := by
  unfold costD totalD
  generalize Dbl.num 0 = c
  induction ms generalizing c with
  | nil => rfl
  | cons m l ih =>
    obtain ⟨h1, h2⟩ := hm m (by simp)
    rw [loop, vget_eq_ok h1, Res.ok_bind, vget_eq_ok h2, Res.ok_bind]
    simp only
    rw [ih (fun m hm' => hm m (by simp [hm']))]
    have e : errorSqD t H kp1[m.1] kp2[m.2] = scoredD t H (matchPts kp1 kp2 m) := by
      unfold errorSqD scoredD matchPts HasImage missD
      rw [List.getD_eq_getElem?_getD, List.getD_eq_getElem?_getD, List.getElem?_eq_getElem h1,
        List.getElem?_eq_getElem h2]
      simp only [Option.getD_some, ite_not]
      rfl
    rw [List.map_cons, List.map_cons, List.foldl_cons, e]

theorem robustD_loop (solve : List (Pt × Pt) → Option Hom) (score : Dbl → Dbl → Dbl) {kp1 kp2 : List Pt}
    {ms : List (Nat × Nat)} (hm : InRange kp1 kp2 ms) (h4 : 4 ≤ ms.length) (draws : List (List Nat))
    (hd : ∀ ds ∈ draws, ∀ d ∈ ds, d < ms.length) (threshold : Dbl) (k : Hom → Dbl)
    (hk : ∀ H, k H = totalD score (threshold.mul threshold) H (ms.map (matchPts kp1 kp2))) :
    ∃ R c, robustD solve score kp1 kp2 ms draws threshold = .ok (R, c) ∧
      (∀ ds ∈ draws, ∀ H, solve (sampleOf kp1 kp2 ms ds) = some H → ¬ (k H).lt c) ∧
      ((R = zeroHom ∧ c = dblMax) ∨
        (c = k R ∧ c.lt dblMax ∧ ∃ pre ds post, draws = pre ++ ds :: post ∧
          solve (sampleOf kp1 kp2 ms ds) = some R ∧
          ∀ ds' ∈ pre, ∀ H, solve (sampleOf kp1 kp2 ms ds') = some H → ¬ (k H).le c)) := by
  unfold robustD
  simp only
  induction draws using List.reverseRecOn with
  | nil => exact ⟨_, _, rfl, by simp, .inl ⟨rfl, rfl⟩⟩
  | append_singleton draws ds ih =>
    obtain ⟨R, c, e, hmin, hR⟩ := ih (fun ds h => hd ds (by simp [h]))
    rw [loop_append, e, Res.ok_bind, loop, if_neg (by omega), samplePoints_ok hm (hd ds (by simp))]
    simp only [Res.ok_bind]
    cases hsol : solve (sampleOf kp1 kp2 ms ds) with
    | none =>
      refine ⟨R, c, rfl, ?_, ?_⟩
      · intro ds' hds' H hH
        rcases List.mem_append.1 hds' with h | h
        · exact hmin ds' h H hH
        · rw [List.mem_singleton.1 h, hsol] at hH; cases hH
      · rcases hR with h | ⟨h1, h2, pre, ds', post, h3, h4, h5⟩
        · exact .inl h
        · exact .inr ⟨h1, h2, pre, ds', post ++ [ds], by rw [h3]; simp, h4, h5⟩
    | some H =>
      simp only
      rw [costD_ok score _ hm H, Res.ok_bind, ← hk]
      by_cases hlt : (k H).lt c
      · rw [if_pos hlt]
        have hmax : (k H).lt dblMax := by
          rcases hR with ⟨-, rfl⟩ | ⟨-, h2, -⟩
          · exact hlt
          · exact lt_trans' hlt h2
        refine ⟨H, k H, rfl, ?_, .inr ⟨rfl, hmax, draws, ds, [], rfl, hsol, ?_⟩⟩
        · intro ds' hds' H' hH' hlt'
          rcases List.mem_append.1 hds' with h | h
          · exact hmin ds' h H' hH' (lt_trans' hlt' hlt)
          · rw [List.mem_singleton.1 h, hsol] at hH'
            cases hH'
            exact lt_irrefl' _ hlt'
        · intro ds' hds' H' hH' hle
          exact hmin ds' hds' H' hH' (le_lt_trans' hle hlt)
      · rw [if_neg hlt]
        refine ⟨R, c, rfl, ?_, ?_⟩
        · intro ds' hds' H' hH'
          rcases List.mem_append.1 hds' with h | h
          · exact hmin ds' h H' hH'
          · rw [List.mem_singleton.1 h, hsol] at hH'
            cases hH'
            exact hlt
        · rcases hR with h | ⟨h1, h2, pre, ds', post, h3, h4, h5⟩
          · exact .inl h
          · exact .inr ⟨h1, h2, pre, ds', post ++ [ds], by rw [h3]; simp, h4, h5⟩

/-- For every match list of at least four matches, every sequence of random draws, every solver and every scoring
function: either the zero matrix is returned and no sampled candidate costs less than the largest number, or the
returned model comes from a sample, no sampled candidate costs less, and no earlier one costs as little. A candidate
whose cost is NaN is never returned. -/
theorem C217_least (solve : List (Pt × Pt) → Option Hom) (score : Dbl → Dbl → Dbl) {kp1 kp2 : List Pt}
    {ms : List (Nat × Nat)} (hm : InRange kp1 kp2 ms) (h4 : 4 ≤ ms.length) (draws : List (List Nat))
    (hd : ∀ ds ∈ draws, ∀ d ∈ ds, d < ms.length) (threshold : Dbl) :
    ∃ R c, robustD solve score kp1 kp2 ms draws threshold = .ok (R, c) ∧
      (∀ ds ∈ draws, ∀ H, solve (sampleOf kp1 kp2 ms ds) = some H →
        ¬ (totalD score (threshold.mul threshold) H (ms.map (matchPts kp1 kp2))).lt c) ∧
      ((R = noModel ∧ c = .num (2 ^ 1024 - 2 ^ 971)) ∨
        (c = totalD score (threshold.mul threshold) R (ms.map (matchPts kp1 kp2)) ∧ Usable c ∧
          ∃ pre ds post, draws = pre ++ ds :: post ∧ solve (sampleOf kp1 kp2 ms ds) = some R ∧
            ∀ ds' ∈ pre, ∀ H, solve (sampleOf kp1 kp2 ms ds') = some H →
              ¬ (totalD score (threshold.mul threshold) H (ms.map (matchPts kp1 kp2))).le c)) :=
  robustD_loop solve score hm h4 draws hd threshold _ fun _ => rfl

theorem foldl_nan (l : List Dbl) (a : Dbl) (h : a = .nan ∨ .nan ∈ l) : l.foldl Dbl.add a = .nan := by
  induction l generalizing a with
  | nil => exact h.elim id fun h => absurd h List.not_mem_nil
  | cons b l ih =>
    rw [List.foldl_cons]
    apply ih
    rcases h with rfl | h
    · exact .inl (nan_add b)
    · rcases List.mem_cons.1 h with rfl | h
      · exact .inl (add_nan a)
      · exact .inr h

/-- MSAC: a model that is returned has no match whose error is NaN. -/
theorem C217_msac (solve : List (Pt × Pt) → Option Hom) {kp1 kp2 : List Pt}
    {ms : List (Nat × Nat)} (hm : InRange kp1 kp2 ms) (h4 : 4 ≤ ms.length) (draws : List (List Nat))
    (hd : ∀ ds ∈ draws, ∀ d ∈ ds, d < ms.length) (threshold : Dbl) (R : Hom) (c : Dbl)
    (hR : robustD solve msacD kp1 kp2 ms draws threshold = .ok (R, c)) (hne : R ≠ noModel) :
    ∀ m ∈ ms.map (matchPts kp1 kp2), HasImage R m.1 → missD R m ≠ .nan := by
  intro m hmem him hnan
  obtain ⟨R', c', e, -, h⟩ := C217_least solve msacD hm h4 draws hd threshold
  rw [hR] at e
  cases e
  rcases h with ⟨h, -⟩ | ⟨h, hu, -⟩
  · exact hne h
  · have : c = .nan := by
      rw [h]
      unfold totalD
      refine foldl_nan _ _ (.inr (List.mem_map.2 ⟨m, hmem, ?_⟩))
      unfold scoredD
      rw [if_pos him, hnan]
      unfold msacD minD
      rw [if_neg]
      exact not_lt_nan _
    rw [this] at hu
    exact hu

theorem foldl_count (l : List Dbl) (hl : ∀ v ∈ l, v = .num 0 ∨ v = .num 1) : ∀ n : Nat, n + l.length ≤ 2 ^ 53 →
    l.foldl Dbl.add (.num n) = .num ((n + l.countP fun v => decide (v = .num 1) : Nat) : ℝ) := by
  induction l with
  | nil => intro n _; simp
  | cons v l ih =>
    intro n hn
    rw [List.length_cons] at hn
    have hlt : ∀ k : Nat, k ≤ 2 ^ 53 → Dbl.rnd (k : ℝ) = .num k := by
      intro k hk
      have e : dbl (k : ℝ) = k := dbl_nat hk
      rw [rnd_of_lt, e]
      rw [e, abs_of_nonneg (by positivity)]
      calc (k : ℝ) ≤ 2 ^ 53 := by exact_mod_cast hk
        _ < 2 ^ 1024 := pow_lt_1024 (by norm_num)
    rw [List.foldl_cons, List.countP_cons]
    rcases hl v (by simp) with rfl | rfl
    · have e : (Dbl.num n).add (.num 0) = .num n := by
        have := hlt n (by omega)
        rw [Dbl.add, add_zero, this]
      rw [e, ih (fun v hv => hl v (by simp [hv])) n (by omega)]
      simp
    · have e : (Dbl.num n).add (.num 1) = .num ((n + 1 : Nat) : ℝ) := by
        have := hlt (n + 1) (by omega)
        rw [Dbl.add, ← this]
        push_cast
        rfl
      rw [e, ih (fun v hv => hl v (by simp [hv])) (n + 1) (by omega)]
      simp
      ring

/-- RANSAC: the cost is the number of matches that do not agree with the model, so a model of least cost is one with
the most matches that agree. -/
theorem C217_ransac (t : Dbl) (H : Hom) (pts : List (Pt × Pt)) (hn : pts.length ≤ 2 ^ 53) :
    totalD ransacD t H pts = .num ((pts.countP fun m => decide (¬ AgreesD t H m) : Nat) : ℝ) := by
  unfold totalD
  have h0 : (Dbl.num 0) = .num ((0 : Nat) : ℝ) := by simp
  rw [h0, foldl_count _ _ 0 (by simpa using hn), List.countP_map, Nat.zero_add]
  · congr 2
    apply List.countP_congr
    intro m _
    simp only [Function.comp, decide_eq_true_eq]
    unfold ransacD scoredD AgreesD
    by_cases h1 : HasImage H m.1
    · rw [if_pos h1]
      by_cases h2 : (missD H m).lt t
      · simp [h1, h2]
      · simp [h1, h2]
    · rw [if_neg h1, if_neg (lt_irrefl' t)]
      simp [h1]
  · intro v hv
    rw [List.mem_map] at hv
    obtain ⟨m, -, rfl⟩ := hv
    unfold ransacD
    split_ifs
    · exact .inl rfl
    · exact .inr rfl

theorem count_lt_max {n : Nat} (hn : n ≤ 2 ^ 53) : (Dbl.num (n : ℝ)).lt (.num (2 ^ 1024 - 2 ^ 971)) := by
  have hK : (2 : ℝ) ^ 1024 = 2 ^ 971 * 2 ^ 53 := by rw [← pow_add]
  have h1 : (4 : ℝ) ≤ 2 ^ 971 := by
    calc (4 : ℝ) = 2 ^ 2 := by norm_num
      _ ≤ 2 ^ 971 := pow_le_pow_right₀ (by norm_num) (by norm_num)
  have h2 : (n : ℝ) ≤ 2 ^ 53 := by exact_mod_cast hn
  show (n : ℝ) < _
  rw [hK]
  clear hK
  generalize (2 : ℝ) ^ 971 = K at *
  nlinarith

/-- RANSAC with any solver that finds at least one candidate: the returned model comes from a sample, and no candidate
agrees with more matches. -/
theorem C217_most (solve : List (Pt × Pt) → Option Hom) {kp1 kp2 : List Pt} {ms : List (Nat × Nat)}
    (hm : InRange kp1 kp2 ms) (h4 : 4 ≤ ms.length) (hn : ms.length ≤ 2 ^ 53) (draws : List (List Nat))
    (hd : ∀ ds ∈ draws, ∀ d ∈ ds, d < ms.length) (threshold : Dbl)
    (hsome : ∃ ds ∈ draws, ∃ H, solve (sampleOf kp1 kp2 ms ds) = some H) :
    ∃ R c, robustD solve ransacD kp1 kp2 ms draws threshold = .ok (R, c) ∧
      (∃ ds ∈ draws, solve (sampleOf kp1 kp2 ms ds) = some R) ∧
      ∀ ds ∈ draws, ∀ H, solve (sampleOf kp1 kp2 ms ds) = some H →
        ((ms.map (matchPts kp1 kp2)).countP fun m => decide (AgreesD (threshold.mul threshold) H m)) ≤
          (ms.map (matchPts kp1 kp2)).countP fun m => decide (AgreesD (threshold.mul threshold) R m) := by
  have hl : (ms.map (matchPts kp1 kp2)).length ≤ 2 ^ 53 := by rw [List.length_map]; exact hn
  obtain ⟨R, c, e, hmin, h⟩ := C217_least solve ransacD hm h4 draws hd threshold
  refine ⟨R, c, e, ?_⟩
  rcases h with ⟨-, rfl⟩ | ⟨hc, -, pre, ds, post, hds, hsol, -⟩
  · obtain ⟨ds, hds, H, hH⟩ := hsome
    refine absurd ?_ (hmin ds hds H hH)
    rw [C217_ransac _ _ _ hl]
    exact count_lt_max (List.countP_le_length.trans hl)
  · refine ⟨⟨ds, by rw [hds]; simp, hsol⟩, fun ds' hds' H hH => ?_⟩
    have := hmin ds' hds' H hH
    rw [hc, C217_ransac _ _ _ hl, C217_ransac _ _ _ hl] at this
    have this := Nat.cast_le.1 (not_lt.1 this)
    have hadd : ∀ (G : Hom) (l : List (Pt × Pt)),
        (l.countP fun m => decide (AgreesD (threshold.mul threshold) G m)) +
        (l.countP fun m => decide (¬ AgreesD (threshold.mul threshold) G m)) = l.length := by
      intro G l
      induction l with
      | nil => rfl
      | cons m l ih =>
        rw [List.countP_cons, List.countP_cons, List.length_cons, ← ih]
        by_cases hm : AgreesD (threshold.mul threshold) G m <;> simp [hm] <;> omega
    have a1 := hadd H (ms.map (matchPts kp1 kp2))
    have a2 := hadd R (ms.map (matchPts kp1 kp2))
    omega

/-- A model all of whose entries are NaN. -/
noncomputable def nanHom : Hom := ⟨.nan, .nan, .nan, .nan, .nan, .nan, .nan, .nan, .nan⟩

/-- RANSAC returns a model of NaN when the solver finds nothing else, although it agrees with no match and every error
is NaN; MSAC never does (`C217_msac`). -/
theorem C217_nan_violation {kp1 kp2 : List Pt} {ms : List (Nat × Nat)} (hm : InRange kp1 kp2 ms) (h4 : 4 ≤ ms.length)
    (hn : ms.length ≤ 2 ^ 53) (draws : List (List Nat)) (hne : draws ≠ [])
    (hd : ∀ ds ∈ draws, ∀ d ∈ ds, d < ms.length) (threshold : Dbl) :
    (∃ c, robustD (fun _ => some nanHom) ransacD kp1 kp2 ms draws threshold = .ok (nanHom, c)) ∧
      ∀ m : Pt × Pt, HasImage nanHom m.1 ∧ missD nanHom m = .nan ∧ ¬ AgreesD (threshold.mul threshold) nanHom m := by
  obtain ⟨d, hd'⟩ := List.exists_mem_of_ne_nil _ hne
  obtain ⟨R, c, e, ⟨-, -, hR⟩, -⟩ := C217_most (fun _ => some nanHom) hm h4 hn draws hd threshold ⟨d, hd', nanHom, rfl⟩
  cases hR
  have hrow : ∀ p, rowD .nan .nan .nan p = .nan := fun p => by unfold rowD; rw [nan_mul, nan_mul, nan_add, nan_add]
  refine ⟨⟨c, e⟩, fun m => ?_⟩
  have h1 : missD nanHom m = .nan := by
    unfold missD nanHom
    simp only [hrow]
    rw [nan_div, Dbl.sub, nan_add, nan_mul, nan_add]
  refine ⟨?_, h1, ?_⟩
  · unfold HasImage nanHom
    simp only [hrow]
    exact id
  · rintro ⟨-, h⟩
    rw [h1] at h
    exact h

/-- Four matches of the corners of a square with themselves. -/
theorem corners_inRange : InRange [(0, 0), (9, 0), (0, 9), (9, 9)] [(0, 0), (9, 0), (0, 9), (9, 9)]
    [(0, 0), (1, 1), (2, 2), (3, 3)] := by
  intro m hm
  fin_cases hm <;> decide

example := C217_nan_violation corners_inRange (by decide) (by decide) [[0, 1, 2, 3]] (by simp)
  (by intro ds h d hd; rw [List.mem_singleton.1 h] at hd; fin_cases hd <;> decide) (.num 2)

example := C217_least (fun l => if l.length = 4 then some nanHom else none) msacD corners_inRange (by decide)
  [[0, 1, 2, 3], [3, 1, 0, 2]] (by intro ds h d hd; fin_cases h <;> fin_cases hd <;> decide) (.num 2)

example := C217_most (fun _ => some nanHom) corners_inRange (by decide) (by decide) [[0, 1, 2, 3]]
  (by intro ds h d hd; rw [List.mem_singleton.1 h] at hd; fin_cases hd <;> decide) (.num 2)
  ⟨[0, 1, 2, 3], by simp, nanHom, rfl⟩

/-- The identity. -/
noncomputable def oneHom : Hom := ⟨.num 1, .num 0, .num 0, .num 0, .num 1, .num 0, .num 0, .num 0, .num 1⟩

theorem rnd_eq_nat {x : ℝ} {n : Nat} (hn : n ≤ 2 ^ 50) (h : x = n) : Dbl.rnd x = .num n := by
  rw [h]
  exact ofNat_num hn

theorem oneHom_miss {p : Pt} (h1 : p.1 ≤ 2 ^ 50) (h2 : p.2 ≤ 2 ^ 50) : missD oneHom (p, p) = .num 0 := by
  have e00 : ∀ n : Nat, Dbl.rnd (0 * (n : ℝ)) = .num 0 := fun n => by
    rw [rnd_eq_nat (n := 0) (by norm_num) (by simp)]; simp
  have e1 : ∀ n : Nat, n ≤ 2 ^ 50 → Dbl.rnd (1 * (n : ℝ)) = .num n := fun n hn => rnd_eq_nat hn (by simp)
  have ea : ∀ n : Nat, n ≤ 2 ^ 50 → Dbl.rnd ((n : ℝ) + 0) = .num n := fun n hn => rnd_eq_nat hn (by simp)
  have ea' : ∀ n : Nat, n ≤ 2 ^ 50 → Dbl.rnd (0 + (n : ℝ)) = .num n := fun n hn => rnd_eq_nat hn (by simp)
  have ez : Dbl.rnd (0 + 0) = .num 0 := by rw [rnd_eq_nat (n := 0) (by norm_num) (by simp)]; simp
  have eo : Dbl.rnd (0 + 1) = .num 1 := by rw [rnd_eq_nat (n := 1) (by norm_num) (by simp)]; simp
  have ed : ∀ n : Nat, n ≤ 2 ^ 50 → Dbl.rnd ((n : ℝ) / 1) = .num n := fun n hn => rnd_eq_nat hn (by simp)
  have es : ∀ n : Nat, Dbl.rnd ((n : ℝ) + -(n : ℝ)) = .num 0 := fun n => by
    rw [rnd_eq_nat (n := 0) (by norm_num) (by simp)]; simp
  have em : Dbl.rnd (0 * 0) = .num 0 := by rw [rnd_eq_nat (n := 0) (by norm_num) (by simp)]; simp
  unfold missD rowD oneHom
  simp only [ofNat_num h1, ofNat_num h2, Dbl.mul, e00, e1 _ h1, e1 _ h2, Dbl.add, ez, eo, ea _ h1, ea _ h2, ea' _ h2,
    Dbl.div, one_ne_zero, if_false, ed _ h1, ed _ h2, Dbl.sub, Dbl.neg, es, em]

/-- With the identity as the only candidate MSAC returns it, so `C217_msac` speaks about it. -/
example : ∃ c, robustD (fun _ => some oneHom) msacD [(0, 0), (9, 0), (0, 9), (9, 9)] [(0, 0), (9, 0), (0, 9), (9, 9)]
    [(0, 0), (1, 1), (2, 2), (3, 3)] [[0, 1, 2, 3]] (.num 2) = .ok (oneHom, c) ∧ oneHom ≠ noModel := by
  obtain ⟨R, c, e, hmin, h⟩ := C217_least (fun _ => some oneHom) msacD corners_inRange (by decide) [[0, 1, 2, 3]]
    (by intro ds h d hd; rw [List.mem_singleton.1 h] at hd; fin_cases hd <;> decide) (.num 2)
  have hne : oneHom ≠ noModel := by
    intro h
    have := congrArg Sp.Hom.h11 h
    simp [oneHom, noModel] at this
  rcases h with ⟨-, rfl⟩ | ⟨-, -, pre, ds, post, -, hsol, -⟩
  · exfalso
    refine hmin [0, 1, 2, 3] (by simp) oneHom rfl ?_
    have hrow : ∀ p : Pt, p.1 ≤ 2 ^ 50 → p.2 ≤ 2 ^ 50 → scoredD ((Dbl.num 2).mul (.num 2)) oneHom (p, p) = .num 0 := by
      intro p h1 h2
      have hw : HasImage oneHom p := by
        have e00 : ∀ n : Nat, Dbl.rnd (0 * (n : ℝ)) = .num 0 := fun n => by
          rw [rnd_eq_nat (n := 0) (by norm_num) (by simp)]; simp
        have ez : Dbl.rnd (0 + 0) = .num 0 := by rw [rnd_eq_nat (n := 0) (by norm_num) (by simp)]; simp
        have eo : Dbl.rnd (0 + 1) = .num 1 := by rw [rnd_eq_nat (n := 1) (by norm_num) (by simp)]; simp
        unfold HasImage rowD oneHom
        simp only [ofNat_num h1, ofNat_num h2, Dbl.mul, e00, Dbl.add, ez, eo, Dbl.abs, abs_one]
        norm_num [Dbl.lt]
      unfold scoredD
      rw [if_pos hw, oneHom_miss h1 h2]
    have h4 : (Dbl.num 2).mul (.num 2) = .num 4 := by
      rw [Dbl.mul, rnd_eq_nat (n := 4) (by norm_num) (by norm_num)]; norm_num
    have hs : ∀ p : Pt, p.1 ≤ 2 ^ 50 → p.2 ≤ 2 ^ 50 →
        msacD (scoredD ((Dbl.num 2).mul (.num 2)) oneHom (p, p)) ((Dbl.num 2).mul (.num 2)) = .num 0 := by
      intro p h1 h2
      rw [hrow p h1 h2, h4]
      unfold msacD minD
      rw [if_neg]
      norm_num [Dbl.lt]
    have ez : (Dbl.num 0).add (.num 0) = .num 0 := by
      rw [Dbl.add, rnd_eq_nat (n := 0) (by norm_num) (by simp)]; simp
    unfold totalD
    simp only [List.map_cons, List.map_nil, matchPts, List.getD_cons_zero, List.getD_cons_succ, List.foldl_cons,
      List.foldl_nil]
    rw [hs (0, 0) (by norm_num) (by norm_num), hs (9, 0) (by norm_num) (by norm_num),
      hs (0, 9) (by norm_num) (by norm_num), hs (9, 9) (by norm_num) (by norm_num), ez, ez, ez, ez]
    have := count_lt_max (n := 0) (by norm_num)
    rwa [Nat.cast_zero] at this
  · cases hsol
    exact ⟨c, e, hne⟩

example := C217_ransac (.num 4) nanHom [((0, 0), (0, 0)), ((1, 0), (1, 0))] (by decide)

end TinyDIP.Props
