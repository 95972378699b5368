import Verif.Spec.Sift
import Verif.Lemmas.Blocks
import Mathlib.Tactic.Ring
import Mathlib.Tactic.FieldSimp
import Mathlib.Tactic.LinearCombination
import Mathlib.Tactic.IntervalCases
import Mathlib.Tactic.Linarith
import Mathlib.Algebra.Order.Field.Basic

/-!
# Lemmas about key points
-/

namespace TinyDIP.Sift

open TinyDIP Image

section Field
variable {K : Type} [Field K] [LinearOrder K] [IsStrictOrderedRing K]

theorem data3 {im : Image K} {f : Nat → Nat → K} (s : im.Shows 3 3 f) :
    im.data = [f 0 0, f 1 0, f 2 0, f 0 1, f 1 1, f 2 1, f 0 2, f 1 2, f 2 2] := by
  have hl : im.data.length = 9 := by have := s.len; omega
  apply List.ext_getElem?
  intro i
  by_cases hi : i < 9
  · have h : i = i % 3 + 3 * (i / 3) := by omega
    have := s.data? (x := i % 3) (y := i / 3) (by omega) (by omega)
    rw [← h] at this
    rw [this]
    interval_cases i <;> rfl
  · rw [List.getElem?_eq_none (by omega), List.getElem?_eq_none (by simp; omega)]

theorem check3_ok {im : Image K} {f : Nat → Nat → K} (s : im.Shows 3 3 f) : check3 im = .ok () := by
  unfold check3
  rw [if_neg (by simp [s.dim]), if_neg (by simp [s.width, s.height])]

theorem allNeighbours_iff (R : K → K → Prop) (g : Fin 3 → Nat → Nat → K) :
    AllNeighbours R g 1 1 ↔
      (∀ v ∈ [g 0 0 0, g 0 1 0, g 0 2 0, g 0 0 1, g 0 1 1, g 0 2 1, g 0 0 2, g 0 1 2, g 0 2 2], R v (g 1 1 1)) ∧
      (∀ v ∈ [g 1 0 0, g 1 1 0, g 1 2 0, g 1 0 1, g 1 2 1, g 1 0 2, g 1 1 2, g 1 2 2], R v (g 1 1 1)) ∧
      (∀ v ∈ [g 2 0 0, g 2 1 0, g 2 2 0, g 2 0 1, g 2 1 1, g 2 2 1, g 2 0 2, g 2 1 2, g 2 2 2], R v (g 1 1 1)) := by
  simp only [List.forall_mem_cons, List.not_mem_nil, false_imp_iff, implies_true, and_true]
  constructor
  · intro h
    have h' : ∀ k x' y', x' < 3 → y' < 3 → ¬ (k = 1 ∧ x' = 1 ∧ y' = 1) → R (g k x' y') (g 1 1 1) :=
      fun k x' y' hx hy hn => h k x' y' (by omega) (by omega) (by omega) (by omega) hn
    refine ⟨⟨?_, ?_, ?_, ?_, ?_, ?_, ?_, ?_, ?_⟩, ⟨?_, ?_, ?_, ?_, ?_, ?_, ?_, ?_⟩, ?_, ?_, ?_, ?_, ?_, ?_, ?_, ?_, ?_⟩ <;>
      exact h' _ _ _ (by decide) (by decide) (by decide)
  · rintro ⟨⟨a0, a1, a2, a3, a4, a5, a6, a7, a8⟩, ⟨b0, b1, b2, b3, b5, b6, b7, b8⟩, c0, c1, c2, c3, c4, c5, c6, c7, c8⟩
    intro k x y _ hx _ hy hn
    have hx : x ≤ 2 := by omega
    have hy : y ≤ 2 := by omega
    match k with
    | 0 => interval_cases x <;> interval_cases y <;> assumption
    | 1 => interval_cases x <;> interval_cases y <;> first | assumption | exact absurd ⟨rfl, rfl, rfl⟩ hn
    | 2 => interval_cases x <;> interval_cases y <;> assumption

theorem isItExtremum_ok {i1 i2 i3 : Image K} {g : Fin 3 → Nat → Nat → K} (s1 : i1.Shows 3 3 (g 0))
    (s2 : i2.Shows 3 3 (g 1)) (s3 : i3.Shows 3 3 (g 2)) (thr : K) :
    ∃ b, isItExtremum i1 i2 i3 thr = .ok b ∧ (b = true ↔ StrictExtremum g 1 1 thr) := by
  unfold isItExtremum
  rw [check3_ok s1, check3_ok s2, check3_ok s3]
  simp only [Res.ok_bind, s2.px 1 1 (by omega) (by omega), data3 s1, data3 s2, data3 s3]
  have he : [g 1 0 0, g 1 1 0, g 1 2 0, g 1 0 1, g 1 1 1, g 1 2 1, g 1 0 2, g 1 1 2, g 1 2 2].eraseIdx 4
      = [g 1 0 0, g 1 1 0, g 1 2 0, g 1 0 1, g 1 2 1, g 1 0 2, g 1 1 2, g 1 2 2] := rfl
  rw [he]
  unfold StrictExtremum
  rw [allNeighbours_iff, allNeighbours_iff]
  by_cases ht : |g 1 1 1| ≤ thr
  · rw [if_pos ht]
    exact ⟨false, rfl, by simp [not_lt.2 ht]⟩
  · rw [if_neg ht]
    generalize hA : [g 0 0 0, g 0 1 0, g 0 2 0, g 0 0 1, g 0 1 1, g 0 2 1, g 0 0 2, g 0 1 2, g 0 2 2] = A
    generalize hB : [g 1 0 0, g 1 1 0, g 1 2 0, g 1 0 1, g 1 2 1, g 1 0 2, g 1 1 2, g 1 2 2] = B
    generalize hC : [g 2 0 0, g 2 1 0, g 2 2 0, g 2 0 1, g 2 1 1, g 2 2 1, g 2 0 2, g 2 1 2, g 2 2 2] = C
    have e1 : ([A, B, C].all fun l => l.all fun i => decide (g 1 1 1 > i)) = true ↔
        (∀ v ∈ A, v < g 1 1 1) ∧ (∀ v ∈ B, v < g 1 1 1) ∧ ∀ v ∈ C, v < g 1 1 1 := by simp
    have e2 : ([A, B, C].all fun l => l.all fun i => decide (g 1 1 1 < i)) = true ↔
        (∀ v ∈ A, v > g 1 1 1) ∧ (∀ v ∈ B, v > g 1 1 1) ∧ ∀ v ∈ C, v > g 1 1 1 := by simp
    by_cases h1 : ([A, B, C].all fun l => l.all fun i => decide (g 1 1 1 > i)) = true
    · rw [if_pos h1]
      exact ⟨true, rfl, by simp only [true_iff]; exact ⟨not_le.1 ht, Or.inl (e1.1 h1)⟩⟩
    · rw [if_neg h1]
      by_cases h2 : ([A, B, C].all fun l => l.all fun i => decide (g 1 1 1 < i)) = true
      · rw [if_pos h2]
        exact ⟨true, rfl, by simp only [true_iff]; exact ⟨not_le.1 ht, Or.inr (e2.1 h2)⟩⟩
      · rw [if_neg h2]
        refine ⟨false, rfl, ?_⟩
        simp only [Bool.false_eq_true, false_iff]
        rintro ⟨-, h | h⟩
        · exact h1 (e1.2 h)
        · exact h2 (e2.2 h)

theorem keypointRefinement_ok {im : Image K} {f : Nat → Nat → K} (s : im.Shows 3 3 f) (px py : Nat) :
    keypointRefinement im px py = .ok
      ((px : K) + (hessXY f 1 1 * gradY f 1 1 - hessXX f 1 1 * gradX f 1 1) / hessDet f 1 1,
       (py : K) + (hessXY f 1 1 * gradX f 1 1 - hessYY f 1 1 * gradY f 1 1) / hessDet f 1 1) := by
  unfold keypointRefinement
  simp only [s.px 2 1 (by omega) (by omega), s.px 0 1 (by omega) (by omega), s.px 1 2 (by omega) (by omega),
    s.px 1 0 (by omega) (by omega), s.px 1 1 (by omega) (by omega), s.px 2 2 (by omega) (by omega),
    s.px 2 0 (by omega) (by omega), s.px 0 2 (by omega) (by omega), s.px 0 0 (by omega) (by omega), Res.ok_bind]
  refine congrArg Res.ok ?_
  simp only [hessDet, hessXX, hessYY, hessXY, gradX, gradY]
  refine Prod.ext ?_ ?_ <;> simp only [] <;> ring

theorem keypointFiltering_ok {im : Image K} {f : Nat → Nat → K} (s : im.Shows 3 3 f) (contrast edge : K) :
    ∃ b, keypointFiltering im contrast edge = .ok b ∧ (b = true ↔ PassesFilter f 1 1 contrast edge) := by
  unfold keypointFiltering
  simp only [s.px 2 1 (by omega) (by omega), s.px 0 1 (by omega) (by omega), s.px 1 2 (by omega) (by omega),
    s.px 1 0 (by omega) (by omega), s.px 1 1 (by omega) (by omega), s.px 2 2 (by omega) (by omega),
    s.px 2 0 (by omega) (by omega), s.px 0 2 (by omega) (by omega), s.px 0 0 (by omega) (by omega), Res.ok_bind]
  refine ⟨_, rfl, ?_⟩
  unfold PassesFilter hessDet hessXX hessYY hessXY
  simp

/-! ### find_local_extrema -/

theorem mem_interior {w h : Nat} (hw : 0 < w) (hh : 0 < h) {p : Nat × Nat} :
    p ∈ interior (w - 1) (h - 1) ↔ Inner w h p.1 p.2 := by
  obtain ⟨x, y⟩ := p
  unfold interior Inner
  simp only [List.mem_flatMap, List.mem_map, List.mem_range'_1, Prod.mk.injEq]
  constructor
  · rintro ⟨y', hy, x', hx, rfl, rfl⟩; omega
  · intro h; exact ⟨y, by omega, x, by omega, rfl, rfl⟩

/-- A neighbourhood inside the image. -/
theorem sub3_inner {im : Image K} {w h : Nat} {f : Nat → Nat → K} (s : im.Shows w h f)
    (hw : w < 2 ^ 64 - 2) (hh : h < 2 ^ 64 - 2) {x y : Nat} (hi : Inner w h x y) :
    ∃ out, subimage2d im 0 3 3 x y 0 = .ok out ∧ out.Shows 3 3 (fun i j => f (x + i - 1) (y + j - 1)) := by
  obtain ⟨hx1, hx2, hy1, hy2⟩ := hi
  obtain ⟨out, e, so⟩ := subimage2d_shows 0 s (w := 3) (h := 3) (cx := x) (cy := y) (by omega) (by omega)
    (by omega) (by omega) (by omega) (by omega) (by omega) 0
  refine ⟨out, e, so.congr fun i j hi hj => ?_⟩
  rw [if_pos (by omega)]

/-- The neighbourhoods of three images. -/
def stack (f1 f2 f3 : Nat → Nat → K) : Fin 3 → Nat → Nat → K
  | 0 => f1
  | 1 => f2
  | 2 => f3

theorem allNeighbours_shift (R : K → K → Prop) (g : Fin 3 → Nat → Nat → K) {x y : Nat} (hx : 1 ≤ x) (hy : 1 ≤ y) :
    AllNeighbours R (fun k i j => g k (x + i - 1) (y + j - 1)) 1 1 ↔ AllNeighbours R g x y := by
  constructor
  · intro h k x' y' h1 h2 h3 h4 hn
    have := h k (x' + 1 - x) (y' + 1 - y) (by omega) (by omega) (by omega) (by omega)
      (by rintro ⟨a, b, c⟩; exact hn ⟨a, by omega, by omega⟩)
    simp only [Nat.add_sub_cancel] at this
    rwa [show x + (x' + 1 - x) - 1 = x' by omega, show y + (y' + 1 - y) - 1 = y' by omega] at this
  · intro h k i j h1 h2 h3 h4 hn
    have := h k (x + i - 1) (y + j - 1) (by omega) (by omega) (by omega) (by omega)
      (by rintro ⟨a, b, c⟩; exact hn ⟨a, by omega, by omega⟩)
    simpa using this

theorem strictExtremum_shift (g : Fin 3 → Nat → Nat → K) {x y : Nat} (hx : 1 ≤ x) (hy : 1 ≤ y) (thr : K) :
    StrictExtremum (fun k i j => g k (x + i - 1) (y + j - 1)) 1 1 thr ↔ StrictExtremum g x y thr := by
  unfold StrictExtremum
  rw [allNeighbours_shift _ g hx hy, allNeighbours_shift _ g hx hy]
  simp

omit [LinearOrder K] [IsStrictOrderedRing K] in
theorem shift_derivs (f : Nat → Nat → K) {x y : Nat} (hx : 1 ≤ x) (hy : 1 ≤ y) :
    gradX (fun i j => f (x + i - 1) (y + j - 1)) 1 1 = gradX f x y ∧
    gradY (fun i j => f (x + i - 1) (y + j - 1)) 1 1 = gradY f x y ∧
    hessXX (fun i j => f (x + i - 1) (y + j - 1)) 1 1 = hessXX f x y ∧
    hessYY (fun i j => f (x + i - 1) (y + j - 1)) 1 1 = hessYY f x y ∧
    hessXY (fun i j => f (x + i - 1) (y + j - 1)) 1 1 = hessXY f x y := by
  refine ⟨?_, ?_, ?_, ?_, ?_⟩ <;> simp [gradX, gradY, hessXX, hessYY, hessXY]

open Classical in
/-- The key points of one position. -/
noncomputable def pointsAt (f1 f2 f3 : Nat → Nat → K) (octave scale : Nat) (contrast edge : K)
    (filter : Bool) (p : Nat × Nat) : List (KeyPoint K) :=
  if StrictExtremum (stack f1 f2 f3) p.1 p.2 contrast ∧
      (filter = true → PassesFilter f2 p.1 p.2 contrast edge) then
    [(octave, scale, (refinedAt f2 p.1 p.2).1, (refinedAt f2 p.1 p.2).2)]
  else []

theorem extremaStep_ok {i1 i2 i3 : Image K} {w h : Nat} {f1 f2 f3 : Nat → Nat → K}
    (s1 : i1.Shows w h f1) (s2 : i2.Shows w h f2) (s3 : i3.Shows w h f3)
    (hw : w < 2 ^ 64 - 2) (hh : h < 2 ^ 64 - 2) (octave scale : Nat) (contrast edge : K) (filter : Bool)
    {p : Nat × Nat} (hp : Inner w h p.1 p.2) (output : List (KeyPoint K)) :
    extremaStep i1 i2 i3 octave scale contrast edge filter output p =
      .ok (output ++ pointsAt f1 f2 f3 octave scale contrast edge filter p) := by
  obtain ⟨x, y⟩ := p
  have hp' := hp
  obtain ⟨hx1, hx2, hy1, hy2⟩ := hp
  obtain ⟨o1, e1, t1⟩ := sub3_inner s1 hw hh hp'
  obtain ⟨o2, e2, t2⟩ := sub3_inner s2 hw hh hp'
  obtain ⟨o3, e3, t3⟩ := sub3_inner s3 hw hh hp'
  obtain ⟨b, eb, hb⟩ := isItExtremum_ok (g := fun k i j => stack f1 f2 f3 k (x + i - 1) (y + j - 1)) t1 t2 t3 contrast
  rw [strictExtremum_shift _ hx1 hy1] at hb
  obtain ⟨c, ec, hc⟩ := keypointFiltering_ok t2 contrast edge
  obtain ⟨d1, d2, d3, d4, d5⟩ := shift_derivs f2 hx1 hy1
  have hpf : PassesFilter (fun i j => f2 (x + i - 1) (y + j - 1)) 1 1 contrast edge ↔
      PassesFilter f2 x y contrast edge := by
    unfold PassesFilter hessDet
    simp only [d3, d4, d5]
    simp
  simp only at hpf d1 d2 d3 d4 d5
  rw [hpf] at hc
  have hr := keypointRefinement_ok t2 x y
  simp only [hessDet, d1, d2, d3, d4, d5] at hr
  unfold extremaStep pointsAt
  simp only [e1, e2, e3, eb, Res.ok_bind]
  cases b with
  | false =>
    have : ¬ StrictExtremum (stack f1 f2 f3) x y contrast := fun h => by simpa using hb.2 h
    simp [this]
  | true =>
    have h1 : StrictExtremum (stack f1 f2 f3) x y contrast := hb.1 rfl
    cases filter with
    | false =>
      simp only [if_true, Bool.false_eq_true, if_false, Res.ok_bind, hr]
      rw [if_pos ⟨h1, fun h => by simp at h⟩]
      rfl
    | true =>
      simp only [if_true, ec, Res.ok_bind]
      cases c with
      | false =>
        have : ¬ PassesFilter f2 x y contrast edge := fun h => by simpa using hc.2 h
        simp [this]
      | true =>
        have h2 : PassesFilter f2 x y contrast edge := hc.1 rfl
        simp only [if_true, hr, Res.ok_bind]
        rw [if_pos ⟨h1, fun _ => h2⟩]
        rfl

theorem loop_collectL {β γ : Type} (body : List γ → β → Res (List γ)) (g : β → List γ) (l : List β)
    (h : ∀ b ∈ l, ∀ out, body out b = .ok (out ++ g b)) (out : List γ) :
    loop body l out = .ok (out ++ l.flatMap g) := by
  induction l generalizing out with
  | nil => simp [loop]
  | cons b l ih =>
    rw [loop, h b (by simp) out]
    simp only
    rw [ih (fun b hb => h b (by simp [hb]))]
    simp

theorem findLocalExtrema_ok {i1 i2 i3 : Image K} {w h : Nat} {f1 f2 f3 : Nat → Nat → K}
    (s1 : i1.Shows w h f1) (s2 : i2.Shows w h f2) (s3 : i3.Shows w h f3) (hw0 : 0 < w) (hh0 : 0 < h)
    (hw : w < 2 ^ 64 - 2) (hh : h < 2 ^ 64 - 2) (octave scale : Nat) (contrast edge : K) (filter : Bool)
    {sched : List (Nat × Nat) → List (Nat × Nat)} (hs : ∀ l, (sched l).Perm l) :
    findLocalExtrema sched i1 i2 i3 octave scale contrast edge filter =
      .ok ((sched (interior (w - 1) (h - 1))).flatMap
        (pointsAt f1 f2 f3 octave scale contrast edge filter)) := by
  unfold findLocalExtrema
  rw [if_neg (by simp [s1.dim]), if_neg (by simp [s2.dim]), if_neg (by simp [s3.dim]),
    if_neg (by simp [s1.size, s2.size]), if_neg (by simp [s2.size, s3.size]), s1.width, s1.height]
  simp only [wsub_of_le (show 1 ≤ w from hw0) (by omega), wsub_of_le (show 1 ≤ h from hh0) (by omega)]
  rw [loop_collectL _ (pointsAt f1 f2 f3 octave scale contrast edge filter)]
  · rfl
  · intro p hp out
    exact extremaStep_ok s1 s2 s3 hw hh _ _ _ _ _ ((mem_interior hw0 hh0).1 ((hs _).mem_iff.1 hp)) out

end Field
end TinyDIP.Sift
