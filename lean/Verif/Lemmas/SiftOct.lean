import Verif.Lemmas.Sift
import Mathlib.Data.List.Perm.Basic
import Mathlib.Tactic.ByContra

/-!
# Lemmas about the octaves and the search
-/

namespace TinyDIP.Sift

open TinyDIP Image

variable {K : Type} [Field K] [LinearOrder K] [IsStrictOrderedRing K]

omit [IsStrictOrderedRing K] in
theorem octavesFrom_len (dog : Image K → Nat → Image K) (resample : Image K → Nat → Nat → Image K)
    (levels : Nat) : ∀ (n m : Nat) (im : Image K), m ≤ n →
      (∀ o < m, 20 ≤ (baseOf resample o im).width ∧ 20 ≤ (baseOf resample o im).height) →
      (m < n → (baseOf resample m im).width < 20 ∨ (baseOf resample m im).height < 20) →
      (octavesFrom dog resample levels n im).length = m ∧
      ∀ o < m, (octavesFrom dog resample levels n im)[o]? =
        some (generateOctave dog (baseOf resample o im) levels) := by
  intro n
  induction n with
  | zero =>
    intro m im hm _ _
    have : m = 0 := by omega
    subst this
    simp [octavesFrom]
  | succ n ih =>
    intro m im hm hok hbad
    unfold octavesFrom
    cases m with
    | zero =>
      have hb := hbad (by omega)
      simp only [baseOf] at hb
      rw [if_pos hb]
      simp
    | succ m =>
      have h0 := hok 0 (by omega)
      rw [if_neg (by simp only [baseOf] at h0; omega)]
      obtain ⟨h1, h2⟩ := ih m (resample im (im.width / 2) (im.height / 2)) (by omega)
        (fun o ho => hok (o + 1) (by omega)) (fun h => hbad (by omega))
      refine ⟨by simp [h1], fun o ho => ?_⟩
      cases o with
      | zero => simp [baseOf]
      | succ o => simpa [baseOf] using h2 o (by omega)

/-- What one octave contributes. -/
noncomputable def octavePoints (F : Nat → Nat → Nat → Nat → K) (w h levels : Nat) (contrast edge : K)
    (schedS : List Nat → List Nat) (sched : List (Nat × Nat) → List (Nat × Nat)) (o : Nat) :
    List (KeyPoint K) :=
  (schedS (List.range (levels - 3))).flatMap fun s =>
    (sched (interior (w / 2 ^ o - 1) (h / 2 ^ o - 1))).flatMap
      (pointsAt (F o s) (F o (s + 1)) (F o (s + 2)) o s contrast edge false)

omit [IsStrictOrderedRing K] [LinearOrder K] in
theorem generateOctave_len (dog : Image K → Nat → Image K) (im : Image K) {levels : Nat} (h : 3 ≤ levels) :
    (generateOctave dog im levels).length = levels - 1 := by
  unfold generateOctave
  rw [if_neg (by omega)]
  simp

omit [IsStrictOrderedRing K] [LinearOrder K] in
theorem generateOctave_get (dog : Image K → Nat → Image K) (im : Image K) {levels s : Nat} (h : 3 ≤ levels)
    (hs : s < levels - 1) : vget (generateOctave dog im levels) s = .ok (dog im s) := by
  unfold generateOctave vget
  rw [if_neg (by omega)]
  simp [hs]

theorem octave_loop (dog : Image K → Nat → Image K) (base : Image K) {w h levels : Nat}
    (F : Nat → Nat → Nat → Nat → K) (o : Nat) (hl : 3 ≤ levels) (hl' : levels < 2 ^ 64)
    (hw0 : 0 < w / 2 ^ o) (hh0 : 0 < h / 2 ^ o) (hw : w < 2 ^ 64 - 2) (hh : h < 2 ^ 64 - 2)
    (hF : ∀ s < levels - 1, (dog base s).Shows (w / 2 ^ o) (h / 2 ^ o) (F o s)) (contrast edge : K)
    {schedS : List Nat → List Nat} {sched : List (Nat × Nat) → List (Nat × Nat)}
    (hsS : ∀ l, (schedS l).Perm l) (hs : ∀ l, (sched l).Perm l) (keypoints : List (KeyPoint K)) :
    loop (fun keypoints s => do
      let i1 ← vget (generateOctave dog base levels) s
      let i2 ← vget (generateOctave dog base levels) (s + 1)
      let i3 ← vget (generateOctave dog base levels) (s + 2)
      let new ← findLocalExtrema sched i1 i2 i3 o s contrast edge false
      Res.ok (keypoints ++ new))
        (schedS (List.range (wsub (generateOctave dog base levels).length 2))) keypoints =
      .ok (keypoints ++ octavePoints F w h levels contrast edge schedS sched o) := by
  rw [generateOctave_len _ _ hl, wsub_of_le (by omega) (by omega),
    show levels - 1 - 2 = levels - 3 by omega]
  rw [loop_collectL _ fun s => (sched (interior (w / 2 ^ o - 1) (h / 2 ^ o - 1))).flatMap
      (pointsAt (F o s) (F o (s + 1)) (F o (s + 2)) o s contrast edge false)]
  · rfl
  · intro s hs' out
    have hs' : s < levels - 3 := List.mem_range.1 ((hsS _).mem_iff.1 hs')
    have a : w / 2 ^ o ≤ w := Nat.div_le_self _ _
    have b : h / 2 ^ o ≤ h := Nat.div_le_self _ _
    rw [generateOctave_get _ _ hl (by omega), generateOctave_get _ _ hl (by omega),
      generateOctave_get _ _ hl (by omega)]
    simp only [Res.ok_bind]
    rw [findLocalExtrema_ok (hF s (by omega)) (hF (s + 1) (by omega)) (hF (s + 2) (by omega)) hw0 hh0
      (by omega) (by omega) o s contrast edge false hs]
    rfl

theorem searchOctaves_ok (dog : Image K → Nat → Image K) (resample : Image K → Nat → Nat → Image K)
    (input : Image K) {w h count levels : Nat} (F : Nat → Nat → Nat → Nat → K)
    (hl : 3 ≤ levels) (hl' : levels < 2 ^ 64) (hw : w < 2 ^ 64 - 2) (hh : h < 2 ^ 64 - 2)
    (hsz : ∀ o < count, (baseOf resample o input).width = w / 2 ^ o ∧
      (baseOf resample o input).height = h / 2 ^ o)
    (hF : ∀ o < count, ∀ s < levels - 1,
      (dog (baseOf resample o input) s).Shows (w / 2 ^ o) (h / 2 ^ o) (F o s))
    (hbig : ∀ o < count, 20 ≤ w / 2 ^ o ∧ 20 ≤ h / 2 ^ o) (contrast edge : K)
    {schedO schedS : List Nat → List Nat} {sched : List (Nat × Nat) → List (Nat × Nat)}
    (hsO : ∀ l, (schedO l).Perm l) (hsS : ∀ l, (schedS l).Perm l) (hs : ∀ l, (sched l).Perm l) :
    searchOctaves schedO schedS sched (octavesFrom dog resample levels count input) count contrast edge =
      .ok ((schedO (List.range count)).flatMap
        (octavePoints F w h levels contrast edge schedS sched)) := by
  obtain ⟨h1, h2⟩ := octavesFrom_len dog resample levels count count input (le_refl _)
    (fun o ho => by rw [(hsz o ho).1, (hsz o ho).2]; exact hbig o ho) (by omega)
  unfold searchOctaves
  rw [loop_collectL _ (octavePoints F w h levels contrast edge schedS sched)]
  · rfl
  · intro o ho out
    have ho : o < count := List.mem_range.1 ((hsO _).mem_iff.1 ho)
    have hv : vget (octavesFrom dog resample levels count input) o =
        .ok (generateOctave dog (baseOf resample o input) levels) := by
      unfold vget; rw [h2 o ho]
    rw [hv]
    simp only [Res.ok_bind]
    exact octave_loop dog _ F o hl hl' (by have := hbig o ho; omega) (by have := hbig o ho; omega) hw hh
      (hF o ho) contrast edge hsS hs out

theorem loop_ub {σ β : Type} {body : σ → β → Res σ} {l : List β}
    (h1 : ∀ b ∈ l, ∀ s, (∃ s', body s b = .ok s') ∨ body s b = .ub)
    (h2 : ∃ b ∈ l, ∀ s, body s b = .ub) (s : σ) : loop body l s = .ub := by
  induction l generalizing s with
  | nil => obtain ⟨b, hb, _⟩ := h2; simp at hb
  | cons b l ih =>
    rw [loop]
    rcases h1 b (by simp) s with ⟨s', e⟩ | e
    · rw [e]
      refine ih (fun b hb => h1 b (by simp [hb])) ?_ s'
      obtain ⟨c, hc, hu⟩ := h2
      rcases List.mem_cons.1 hc with rfl | hc
      · rw [hu s] at e; exact absurd e (by simp)
      · exact ⟨c, hc, hu⟩
    · rw [e]

theorem searchOctaves_ub (dog : Image K → Nat → Image K) (resample : Image K → Nat → Nat → Image K)
    (input : Image K) {w h count levels m : Nat} (F : Nat → Nat → Nat → Nat → K)
    (hl : 3 ≤ levels) (hl' : levels < 2 ^ 64) (hw : w < 2 ^ 64 - 2) (hh : h < 2 ^ 64 - 2) (hm : m < count)
    (hsz : ∀ o ≤ m, (baseOf resample o input).width = w / 2 ^ o ∧
      (baseOf resample o input).height = h / 2 ^ o)
    (hF : ∀ o < m, ∀ s < levels - 1,
      (dog (baseOf resample o input) s).Shows (w / 2 ^ o) (h / 2 ^ o) (F o s))
    (hbig : ∀ o < m, 20 ≤ w / 2 ^ o ∧ 20 ≤ h / 2 ^ o) (hsmall : w / 2 ^ m < 20 ∨ h / 2 ^ m < 20)
    (contrast edge : K)
    {schedO schedS : List Nat → List Nat} {sched : List (Nat × Nat) → List (Nat × Nat)}
    (hsO : ∀ l, (schedO l).Perm l) (hsS : ∀ l, (schedS l).Perm l) (hs : ∀ l, (sched l).Perm l) :
    searchOctaves schedO schedS sched (octavesFrom dog resample levels count input) count contrast edge =
      .ub := by
  obtain ⟨h1, h2⟩ := octavesFrom_len dog resample levels count m input (by omega)
    (fun o ho => by rw [(hsz o (by omega)).1, (hsz o (by omega)).2]; exact hbig o ho)
    (fun _ => by rw [(hsz m (le_refl _)).1, (hsz m (le_refl _)).2]; exact hsmall)
  have hub : ∀ o, m ≤ o → vget (octavesFrom dog resample levels count input) o = .ub := by
    intro o ho
    unfold vget
    rw [List.getElem?_eq_none (by omega)]
  unfold searchOctaves
  refine loop_ub ?_ ?_ _
  · intro o ho out
    by_cases hom : o < m
    · left
      have hv : vget (octavesFrom dog resample levels count input) o =
          .ok (generateOctave dog (baseOf resample o input) levels) := by
        unfold vget; rw [h2 o hom]
      rw [hv]
      simp only [Res.ok_bind]
      exact ⟨_, octave_loop dog _ F o hl hl' (by have := hbig o hom; omega) (by have := hbig o hom; omega) hw hh
        (hF o hom) contrast edge hsS hs out⟩
    · right
      rw [hub o (by omega)]
      rfl
  · refine ⟨m, (hsO _).mem_iff.2 (List.mem_range.2 hm), fun s => ?_⟩
    rw [hub m (le_refl _)]
    rfl

omit [IsStrictOrderedRing K] in
theorem searchOctaves_levels_ub (dog : Image K → Nat → Image K) (resample : Image K → Nat → Nat → Image K)
    (input : Image K) {count levels : Nat} (hl : levels < 3) (hc : 0 < count)
    (contrast edge : K)
    {schedO schedS : List Nat → List Nat} {sched : List (Nat × Nat) → List (Nat × Nat)}
    (hsO : ∀ l, (schedO l).Perm l) (hsS : ∀ l, (schedS l).Perm l) :
    searchOctaves schedO schedS sched (octavesFrom dog resample levels count input) count contrast edge =
      .ub := by
  have hlen : ∀ im : Image K, (generateOctave dog im levels).length < 2 := by
    intro im
    unfold generateOctave
    split
    · simp
    · simp; omega
  have hmem : ∀ n (im : Image K), ∀ e ∈ octavesFrom dog resample levels n im, e.length < 2 := by
    intro n
    induction n with
    | zero => intro im; simp [octavesFrom]
    | succ n ih =>
      intro im e he
      unfold octavesFrom at he
      split at he
      · simp at he
      · rcases List.mem_cons.1 he with rfl | he
        · exact hlen im
        · exact ih _ e he
  have key : ∀ o s, (do
      let each ← vget (octavesFrom dog resample levels count input) o
      loop (fun keypoints s => do
        let i1 ← vget each s
        let i2 ← vget each (s + 1)
        let i3 ← vget each (s + 2)
        let new ← findLocalExtrema sched i1 i2 i3 o s contrast edge false
        Res.ok (keypoints ++ new)) (schedS (List.range (wsub each.length 2))) s) = Res.ub := by
    intro o st
    by_cases ho : o < (octavesFrom dog resample levels count input).length
    · rw [vget_eq_ok ho]
      simp only [Res.ok_bind]
      generalize hE : (octavesFrom dog resample levels count input)[o] = each
      have h2 : each.length < 2 := hmem _ _ _ (hE ▸ List.getElem_mem ho)
      have hne : schedS (List.range (wsub each.length 2)) ≠ [] := by
        intro h0
        have := (hsS (List.range (wsub each.length 2))).length_eq
        rw [h0, wsub_of_gt h2 (by omega)] at this
        simp at this
      obtain ⟨s, rest, hr⟩ := List.exists_cons_of_ne_nil hne
      rw [hr, loop]
      have hs1 : vget each (s + 1) = .ub := by
        unfold vget; rw [List.getElem?_eq_none (by omega)]
      rw [hs1]
      by_cases h : s < each.length
      · rw [vget_eq_ok h]; rfl
      · have : vget each s = .ub := by
          unfold vget; rw [List.getElem?_eq_none (by omega)]
        rw [this]; rfl
    · have : vget (octavesFrom dog resample levels count input) o = .ub := by
        unfold vget; rw [List.getElem?_eq_none (by omega)]
      rw [this]; rfl
  unfold searchOctaves
  refine loop_ub (fun o _ s => Or.inr (key o s)) ?_ _
  exact ⟨0, (hsO _).mem_iff.2 (List.mem_range.2 hc), fun s => key 0 s⟩

/-! ### Mapping back -/

variable [FloorRing K]

theorem toSize_scale {v : K} {a b : Nat} (ha : 0 < a) (hb : b < 2 ^ 64) (h0 : 0 ≤ v) (h1 : v < a) (hb0 : 0 < b) :
    ∃ n, toSize (v / (a : K) * (b : K)) = .ok n ∧ n < b := by
  have ha' : (0 : K) < a := by exact_mod_cast ha
  have hb' : (0 : K) < b := by exact_mod_cast hb0
  have hlt : v / (a : K) * (b : K) < b := by
    have : v / (a : K) < 1 := (div_lt_one ha').2 h1
    nlinarith
  have hge : 0 ≤ v / (a : K) * (b : K) := by positivity
  unfold toSize
  rw [if_pos ⟨by linarith, lt_trans hlt (by exact_mod_cast hb)⟩]
  refine ⟨_, rfl, ?_⟩
  have hf : ⌊v / (a : K) * (b : K)⌋ < (b : Int) := Int.floor_lt.2 (by exact_mod_cast hlt)
  omega

end TinyDIP.Sift
