import Verif.Spec.LinAlg
import Mathlib.Algebra.Order.Field.Basic
import Mathlib.Algebra.BigOperators.Intervals
import Mathlib.Algebra.BigOperators.Ring.Finset
import Mathlib.Tactic.Ring
import Mathlib.Tactic.FieldSimp
import Mathlib.Tactic.Linarith
import Mathlib.Tactic.LinearCombination

namespace TinyDIP

variable {α : Type} [Field α] [LinearOrder α] [IsStrictOrderedRing α]

omit [IsStrictOrderedRing α] in
theorem pivotSearch_spec (A : Nat → Nat → α) (i : Nat) (ks : List Nat) (s : Nat × α)
    (hs : s.2 = |A s.1 i|) :
    (pivotSearch A i ks s).2 = |A (pivotSearch A i ks s).1 i| ∧
    ((pivotSearch A i ks s).1 = s.1 ∨ (pivotSearch A i ks s).1 ∈ ks) ∧
    s.2 ≤ (pivotSearch A i ks s).2 ∧ ∀ k ∈ ks, |A k i| ≤ (pivotSearch A i ks s).2 := by
  induction ks generalizing s with
  | nil => simp [pivotSearch, hs]
  | cons k ks ih =>
    have e : pivotSearch A i (k :: ks) s =
        pivotSearch A i ks (if |A k i| > s.2 then (k, |A k i|) else s) := rfl
    rw [e]
    by_cases h : |A k i| > s.2
    · rw [if_pos h]
      obtain ⟨h1, h2, h3, h4⟩ := ih (k, |A k i|) rfl
      refine ⟨h1, ?_, le_trans h.le h3, ?_⟩
      · rcases h2 with h2 | h2
        · right; simp [h2]
        · right; simp [h2]
      · intro k' hk'
        rcases List.mem_cons.mp hk' with rfl | hk'
        · exact h3
        · exact h4 k' hk'
    · rw [if_neg h]
      obtain ⟨h1, h2, h3, h4⟩ := ih s hs
      refine ⟨h1, ?_, h3, ?_⟩
      · rcases h2 with h2 | h2
        · left; exact h2
        · right; simp [h2]
      · intro k' hk'
        rcases List.mem_cons.mp hk' with rfl | hk'
        · exact le_trans (not_lt.mp h) h3
        · exact h4 k' hk'

omit [LinearOrder α] [IsStrictOrderedRing α] in
theorem foldl_row (l : List Nat) (hl : l.Nodup) (A : Nat → Nat → α) (i k : Nat) (hik : i ≠ k)
    (factor : α) (r c : Nat) :
    (l.foldl (fun A j => setEntry A k j (A k j - factor * A i j)) A) r c =
      if r = k ∧ c ∈ l then A k c - factor * A i c else A r c := by
  induction l generalizing A with
  | nil => simp
  | cons j js ih =>
    rw [List.nodup_cons] at hl
    rw [List.foldl_cons, ih hl.2]
    simp only [setEntry, List.mem_cons]
    by_cases hr : r = k
    · subst hr
      by_cases hc : c = j
      · subst hc; simp [hl.1]
      · simp [hc, hik]
    · simp [hr]

omit [LinearOrder α] [IsStrictOrderedRing α] in
theorem elimRow_fst (N i k : Nat) (hik : i ≠ k) (s : (Nat → Nat → α) × (Nat → α)) (r c : Nat) :
    (elimRow N i k s).1 r c =
      if r = k ∧ i ≤ c ∧ c < N then s.1 k c - s.1 k i / s.1 i i * s.1 i c else s.1 r c := by
  show ((List.range' i (N - i)).foldl
    (fun A j => setEntry A k j (A k j - s.1 k i / s.1 i i * A i j)) s.1) r c = _
  rw [foldl_row _ List.nodup_range' _ _ _ hik]
  have : (c ∈ List.range' i (N - i)) ↔ (i ≤ c ∧ c < N) := by
    rw [List.mem_range'_1]; omega
  simp only [this]

omit [LinearOrder α] [IsStrictOrderedRing α] in
theorem elimRow_snd (N i k : Nat) (s : (Nat → Nat → α) × (Nat → α)) (r : Nat) :
    (elimRow N i k s).2 r = if r = k then s.2 k - s.1 k i / s.1 i i * s.2 i else s.2 r := rfl

/-- The same solutions. -/
def SameSol (N : Nat) (s t : (Nat → Nat → α) × (Nat → α)) : Prop :=
  ∀ x, Solves N s.1 s.2 x ↔ Solves N t.1 t.2 x

omit [LinearOrder α] [IsStrictOrderedRing α] in
theorem elimRow_same (N i k : Nat) (hi : i < N) (hk : k < N) (hik : i ≠ k)
    (s : (Nat → Nat → α) × (Nat → α)) (hz : ∀ c < i, s.1 i c = 0) :
    SameSol N (elimRow N i k s) s := by
  intro x
  set fac := s.1 k i / s.1 i i
  have row : ∀ r < N, (Finset.range N).sum (fun c => (elimRow N i k s).1 r c * x c) =
      if r = k then (Finset.range N).sum (fun c => s.1 k c * x c) -
        fac * (Finset.range N).sum (fun c => s.1 i c * x c)
      else (Finset.range N).sum (fun c => s.1 r c * x c) := by
    intro r _
    by_cases hr : r = k
    · subst hr
      rw [if_pos rfl, Finset.mul_sum, ← Finset.sum_sub_distrib]
      apply Finset.sum_congr rfl
      intro c hc
      have hc' := Finset.mem_range.mp hc
      rw [elimRow_fst N i r hik]
      by_cases h : i ≤ c
      · rw [if_pos ⟨rfl, h, hc'⟩]; ring
      · rw [if_neg (by omega), hz c (by omega)]; ring
    · rw [if_neg hr]
      apply Finset.sum_congr rfl
      intro c _
      rw [elimRow_fst N i k hik, if_neg (by simp [hr])]
  constructor
  · intro h r hr
    by_cases e : r = k
    · subst e
      have h1 := h r hr
      have h2 := h i hi
      rw [row r hr, if_pos rfl, elimRow_snd, if_pos rfl] at h1
      rw [row i hi, if_neg hik, elimRow_snd, if_neg hik] at h2
      rw [h2] at h1
      exact sub_left_injective h1
    · have h1 := h r hr
      rwa [row r hr, if_neg e, elimRow_snd, if_neg e] at h1
  · intro h r hr
    rw [row r hr, elimRow_snd]
    by_cases e : r = k
    · subst e
      rw [if_pos rfl, if_pos rfl, h r hr, h i hi]
    · rw [if_neg e, if_neg e]; exact h r hr

/-- Upper triangular in the first `i` columns, with non-zero diagonal there. -/
structure Tri (N i : Nat) (A : Nat → Nat → α) : Prop where
  below : ∀ r c, c < i → c < r → r < N → A r c = 0
  diag : ∀ c, c < i → A c c ≠ 0

omit [LinearOrder α] [IsStrictOrderedRing α] in
theorem elimRows_list (N i : Nat) (hi : i < N) (s : (Nat → Nat → α) × (Nat → α))
    (hz : ∀ c < i, s.1 i c = 0) (hp : s.1 i i ≠ 0) (l : List Nat)
    (hl : ∀ k ∈ l, i < k ∧ k < N) :
    let t := l.foldl (fun s k => elimRow N i k s) s
    SameSol N t s ∧ (∀ r c, r ≤ i → t.1 r c = s.1 r c) ∧ (∀ r c, c < i → t.1 r c = s.1 r c) ∧
    (∀ k, (s.1 k i = 0 ∨ k ∈ l) → i < k → k < N → t.1 k i = 0) := by
  induction l generalizing s with
  | nil =>
    refine ⟨fun x => Iff.rfl, fun _ _ _ => rfl, fun _ _ _ => rfl, ?_⟩
    intro k hk _ _
    simpa using hk
  | cons k ks ih =>
    obtain ⟨hk1, hk2⟩ := hl k (by simp)
    have hik : i ≠ k := by omega
    have g : ∀ r c, r ≤ i → (elimRow N i k s).1 r c = s.1 r c := by
      intro r c hr; rw [elimRow_fst N i k hik, if_neg (by omega)]
    have g2 : ∀ r c, c < i → (elimRow N i k s).1 r c = s.1 r c := by
      intro r c hr; rw [elimRow_fst N i k hik, if_neg (by omega)]
    obtain ⟨h1, h2, h3, h4⟩ := ih (elimRow N i k s)
      (fun c hc => by rw [g i c le_rfl]; exact hz c hc) (by rw [g i i le_rfl]; exact hp)
      (fun k hk => hl k (by simp [hk]))
    refine ⟨fun x => (h1 x).trans (elimRow_same N i k hi hk2 hik s hz x), ?_, ?_, ?_⟩
    · intro r c hr; exact (h2 r c hr).trans (g r c hr)
    · intro r c hr; exact (h3 r c hr).trans (g2 r c hr)
    · intro k' hk' hk1' hk2'
      apply h4 k' _ hk1' hk2'
      rcases hk' with hk' | hk'
      · by_cases e : k' = k
        · subst e
          left
          rw [elimRow_fst N i k' hik, if_pos ⟨rfl, le_rfl, hi⟩]
          field_simp; ring
        · left
          rw [elimRow_fst N i k hik, if_neg (by simp [e])]; exact hk'
      · rcases List.mem_cons.mp hk' with rfl | hk'
        · left
          rw [elimRow_fst N i k' hik, if_pos ⟨rfl, le_rfl, hi⟩]
          field_simp; ring
        · right; exact hk'

omit [LinearOrder α] [IsStrictOrderedRing α] in
theorem swap_same (N i m : Nat) (hi : i < N) (hm : m < N) (s : (Nat → Nat → α) × (Nat → α)) :
    SameSol N (swapRows s.1 i m, swapVec s.2 i m) s := by
  intro x
  constructor
  · intro h r hr
    by_cases e : r = i
    · subst e
      have := h m hm
      by_cases e' : m = r
      · subst e'; simpa [swapRows, swapVec] using this
      · simpa [swapRows, swapVec, e'] using this
    · by_cases e' : r = m
      · subst e'
        have := h i hi
        simpa [swapRows, swapVec] using this
      · have := h r hr
        simpa [swapRows, swapVec, e, e'] using this
  · intro h r hr
    by_cases e : r = i
    · subst e; simpa [swapRows, swapVec] using h m hm
    · by_cases e' : r = m
      · subst e'; simpa [swapRows, swapVec, e] using h i hi
      · simpa [swapRows, swapVec, e, e'] using h r hr

/-- One step of the elimination. -/
theorem elimStep (N i : Nat) (hi : i < N) (s : (Nat → Nat → α) × (Nat → α)) (threshold : α)
    (ht : 0 < threshold) (hT : Tri N i s.1) :
    let p := pivotSearch s.1 i (List.range' (i + 1) (N - (i + 1))) (i, |s.1 i i|)
    (p.2 < threshold → ∀ k, i ≤ k → k < N → |s.1 k i| < threshold) ∧
    (¬ p.2 < threshold →
      let t := elimRows N i (if p.1 ≠ i then (swapRows s.1 i p.1, swapVec s.2 i p.1) else s)
      Tri N (i + 1) t.1 ∧ SameSol N t s) := by
  intro p
  obtain ⟨h1, h2, h3, h4⟩ := pivotSearch_spec s.1 i (List.range' (i + 1) (N - (i + 1)))
    (i, |s.1 i i|) rfl
  constructor
  · intro hlt k hk1 hk2
    rcases Nat.eq_or_lt_of_le hk1 with e | e
    · subst e; exact lt_of_le_of_lt h3 hlt
    · exact lt_of_le_of_lt (h4 k (by rw [List.mem_range'_1]; omega)) hlt
  · intro hge
    have hp1 : i ≤ p.1 ∧ p.1 < N := by
      rcases h2 with h | h
      · show i ≤ (pivotSearch _ _ _ _).1 ∧ (pivotSearch _ _ _ _).1 < N
        rw [h]; exact ⟨le_rfl, hi⟩
      · rw [List.mem_range'_1] at h
        show i ≤ (pivotSearch _ _ _ _).1 ∧ (pivotSearch _ _ _ _).1 < N
        omega
    have hpne : s.1 p.1 i ≠ 0 := by
      intro e
      apply hge
      show (pivotSearch _ _ _ _).2 < threshold
      rw [h1]
      have e' : s.1 (pivotSearch s.1 i (List.range' (i + 1) (N - (i + 1))) (i, |s.1 i i|)).1 i = 0 := e
      rw [e', abs_zero]; exact ht
    have hs' : ∃ s' : (Nat → Nat → α) × (Nat → α),
        (if p.1 ≠ i then (swapRows s.1 i p.1, swapVec s.2 i p.1) else s) = s' ∧
        SameSol N s' s ∧ Tri N i s'.1 ∧ s'.1 i i ≠ 0 := by
      refine ⟨_, rfl, ?_⟩
      by_cases e : p.1 ≠ i
      · rw [if_pos e]
        refine ⟨swap_same N i p.1 hi hp1.2 s, ⟨?_, ?_⟩, ?_⟩
        · intro r c hc hcr hr
          show swapRows s.1 i p.1 r c = 0
          unfold swapRows
          split
          · exact hT.below _ _ hc (by omega) hp1.2
          · split
            · exact hT.below _ _ hc (by omega) hi
            · exact hT.below _ _ hc hcr hr
        · intro c hc
          show swapRows s.1 i p.1 c c ≠ 0
          unfold swapRows
          rw [if_neg (by omega), if_neg (by omega)]
          exact hT.diag c hc
        · show swapRows s.1 i p.1 i i ≠ 0
          simpa [swapRows] using hpne
      · rw [if_neg e]
        refine ⟨fun x => Iff.rfl, hT, ?_⟩
        have e : p.1 = i := by simpa using e
        rw [e] at hpne; exact hpne
    obtain ⟨s', es, hsame, hT', hne⟩ := hs'
    rw [es]
    intro t
    obtain ⟨g1, g2, g3, g4⟩ := elimRows_list N i hi s' (fun c hc => hT'.below i c hc hc hi) hne
      (List.range' (i + 1) (N - (i + 1))) (fun k hk => by rw [List.mem_range'_1] at hk; omega)
    refine ⟨⟨?_, ?_⟩, fun x => (g1 x).trans (hsame x)⟩
    · intro r c hc hcr hr
      rcases Nat.lt_or_ge c i with h | h
      · exact (g3 r c h).trans (hT'.below r c h hcr hr)
      · have : c = i := by omega
        subst this
        exact g4 r (Or.inr (by rw [List.mem_range'_1]; omega)) hcr hr
    · intro c hc
      rcases Nat.lt_or_ge c i with h | h
      · show t.1 c c ≠ 0
        rw [show t.1 c c = s'.1 c c from g3 c c h]; exact hT'.diag c h
      · have : c = i := by omega
        subst this
        show t.1 c c ≠ 0
        rw [show t.1 c c = s'.1 c c from g2 c c le_rfl]; exact hne

theorem elimLoop_spec (N : Nat) (threshold : α) (ht : 0 < threshold) (n i : Nat) (hn : i + n = N)
    (s : (Nat → Nat → α) × (Nat → α)) (hT : Tri N i s.1) :
    (∃ t, elimLoop N threshold (List.range' i n) s = some t ∧ Tri N N t.1 ∧ SameSol N t s) ∨
    (elimLoop N threshold (List.range' i n) s = none ∧ ∃ j < N, ∃ t : (Nat → Nat → α) × (Nat → α),
      SameSol N t s ∧ Tri N j t.1 ∧ ∀ k, j ≤ k → k < N → |t.1 k j| < threshold) := by
  induction n generalizing i s with
  | zero =>
    left
    refine ⟨s, rfl, ?_, fun x => Iff.rfl⟩
    have : i = N := by omega
    rw [← this]; rw [← this] at hT; exact hT
  | succ n ih =>
    obtain ⟨h1, h2⟩ := elimStep N i (by omega) s threshold ht hT
    rw [List.range'_succ]
    unfold elimLoop
    by_cases hp : (pivotSearch s.1 i (List.range' (i + 1) (N - (i + 1))) (i, |s.1 i i|)).2 < threshold
    · right
      refine ⟨by simp [hp], i, by omega, s, fun x => Iff.rfl, hT, h1 hp⟩
    · obtain ⟨g1, g2⟩ := h2 hp
      simp only [hp, if_false]
      rcases ih (i + 1) (by omega) _ g1 with ⟨t, e, a, b⟩ | ⟨e, j, hj, t, a, b, c⟩
      · left
        exact ⟨t, e, a, fun x => (b x).trans (g2 x)⟩
      · right
        exact ⟨e, j, hj, t, fun x => (a x).trans (g2 x), b, c⟩

omit [LinearOrder α] [IsStrictOrderedRing α] in
theorem foldl_sum_range' (g : Nat → α) (n i : Nat) (s : α) :
    (List.range' i n).foldl (fun sum j => sum + g j) s =
      s + (Finset.Ico i (i + n)).sum g := by
  induction n generalizing i s with
  | zero => simp
  | succ n ih =>
    rw [List.range'_succ, List.foldl_cons, ih]
    rw [Finset.sum_eq_sum_Ico_succ_bot (show i < i + (n + 1) by omega),
      show i + 1 + n = i + (n + 1) by omega, add_assoc]

omit [LinearOrder α] [IsStrictOrderedRing α] in
theorem tri_row (N : Nat) (A : Nat → Nat → α) (hT : Tri N N A) (i : Nat) (hi : i < N) (x : Nat → α) :
    (Finset.range N).sum (fun c => A i c * x c) =
      A i i * x i + (Finset.Ico (i + 1) N).sum (fun c => A i c * x c) := by
  rw [← Finset.sum_range_add_sum_Ico _ (show i ≤ N by omega)]
  rw [Finset.sum_eq_zero (s := Finset.range i)]
  · rw [zero_add, Finset.sum_eq_sum_Ico_succ_bot hi]
  · intro c hc
    have := Finset.mem_range.mp hc
    rw [hT.below i c (by omega) this hi, zero_mul]

omit [LinearOrder α] [IsStrictOrderedRing α] in
theorem backSubst_spec (N : Nat) (A : Nat → Nat → α) (b : Nat → α) (hT : Tri N N A) (i : Nat)
    (hi : i ≤ N) (x : Nat → α)
    (hx : ∀ r, i ≤ r → r < N → (Finset.range N).sum (fun c => A r c * x c) = b r) :
    Solves N A b (backSubst N A b i x) := by
  induction i generalizing x with
  | zero => exact fun r hr => hx r (by omega) hr
  | succ i ih =>
    unfold backSubst
    rw [foldl_sum_range', show i + 1 + (N - (i + 1)) = N by omega, zero_add]
    apply ih (by omega)
    intro r hr hrN
    rw [tri_row N A hT r hrN]
    have hIco : ∀ v, (Finset.Ico (r + 1) N).sum (fun c => A r c * setVec x i v c) =
        (Finset.Ico (r + 1) N).sum (fun c => A r c * x c) := by
      intro v
      apply Finset.sum_congr rfl
      intro c hc
      have := Finset.mem_Ico.mp hc
      rw [setVec, if_neg (by omega)]
    rw [hIco]
    rcases Nat.eq_or_lt_of_le hr with e | e
    · subst e
      rw [setVec, if_pos rfl]
      have := hT.diag i hrN
      field_simp
      ring
    · rw [setVec, if_neg (by omega), ← tri_row N A hT r hrN]
      exact hx r (by omega) hrN

omit [LinearOrder α] [IsStrictOrderedRing α] in
theorem tri_unique (N : Nat) (A : Nat → Nat → α) (b : Nat → α) (hT : Tri N N A) (x y : Nat → α)
    (hx : Solves N A b x) (hy : Solves N A b y) : ∀ c < N, x c = y c := by
  have key : ∀ n, ∀ c, c < N → N - c ≤ n → x c = y c := by
    intro n
    induction n with
    | zero => intro c hc h; omega
    | succ n ih =>
      intro c hc h
      have h1 := hx c hc
      have h2 := hy c hc
      rw [tri_row N A hT c hc] at h1 h2
      have e : (Finset.Ico (c + 1) N).sum (fun j => A c j * x j) =
          (Finset.Ico (c + 1) N).sum (fun j => A c j * y j) := by
        apply Finset.sum_congr rfl
        intro j hj
        have := Finset.mem_Ico.mp hj
        rw [ih j this.2 (by omega)]
      rw [e] at h1
      have : A c c * x c = A c c * y c := by linear_combination h1 - h2
      exact mul_left_cancel₀ (hT.diag c hc) this
  exact fun c hc => key (N - c) c hc le_rfl

end TinyDIP
