import Verif.Lemmas.Samples
import Verif.Lemmas.SiftOct
import Mathlib.Data.Rat.Floor
import Mathlib.Algebra.Order.Ring.Rat

/-!
# Key points: C48, C49, C50, C85
-/

namespace TinyDIP.Props

open TinyDIP Image Sift

section
variable {K : Type} [Field K] [LinearOrder K] [IsStrictOrderedRing K]

/-! ## C48 is_it_extremum -/

/-- Three 3 x 3 images: the answer is `true` exactly when the centre of the middle one is larger in
magnitude than the threshold and strictly above, or strictly below, its 26 neighbours. -/
theorem C48_extremum {i1 i2 i3 : Image K} {g : Fin 3 → Nat → Nat → K} (s1 : i1.Shows 3 3 (g 0))
    (s2 : i2.Shows 3 3 (g 1)) (s3 : i3.Shows 3 3 (g 2)) (threshold : K) :
    ∃ b, isItExtremum i1 i2 i3 threshold = .ok b ∧ (b = true ↔ StrictExtremum g 1 1 threshold) :=
  isItExtremum_ok s1 s2 s3 threshold

example := C48_extremum (g := fun k x y => (k : ℚ) + (x * y : Nat)) (picture_shows 3 3 _) (picture_shows 3 3 _)
  (picture_shows 3 3 _) 4

/-- Any other images are rejected. -/
theorem C48_rejected (i1 i2 i3 : Image K) (threshold : K)
    (h : ¬ (i1.size = [3, 3] ∧ i2.size = [3, 3] ∧ i3.size = [3, 3])) :
    isItExtremum i1 i2 i3 threshold = .throw .runtime := by
  have key : ∀ im : Image K, check3 im = .throw .runtime ∨ (check3 im = .ok () ∧ im.size = [3, 3]) := by
    intro im
    unfold check3
    by_cases h1 : im.dim = 2
    · rw [if_neg (by simp [h1])]
      by_cases h2 : im.width ≠ 3 ∨ im.height ≠ 3
      · rw [if_pos h2]; exact Or.inl rfl
      · rw [if_neg h2]
        refine Or.inr ⟨rfl, ?_⟩
        obtain ⟨sz, d⟩ := im
        match sz with
        | [] | [_] | _ :: _ :: _ :: _ => simp [Image.dim] at h1
        | [a, b] => simp [Image.width, Image.height] at h2; simp [h2.1, h2.2]
    · rw [if_pos h1]; exact Or.inl rfl
  unfold isItExtremum
  rcases key i1 with e1 | ⟨e1, f1⟩
  · rw [e1]; rfl
  rcases key i2 with e2 | ⟨e2, f2⟩
  · rw [e1, e2]; rfl
  rcases key i3 with e3 | ⟨e3, f3⟩
  · rw [e1, e2, e3]; rfl
  exact absurd ⟨f1, f2, f3⟩ h

/-- The hypotheses are met, and there are extrema: a single bright pixel. -/
def spot (c : ℚ) : Image ℚ := ⟨[3, 3], [0, 0, 0, 0, c, 0, 0, 0, 0]⟩

theorem spot_shows (c : ℚ) : (spot c).Shows 3 3 (fun x y => if x = 1 ∧ y = 1 then c else 0) :=
  Image.Shows.of_data (by omega) (by omega) (by omega) rfl rfl (by
    intro x y hx hy
    interval_cases x <;> interval_cases y <;> rfl)

example : isItExtremum (spot 0) (spot 5) (spot 0) 4 = .ok true ∧
    isItExtremum (spot 0) (spot 5) (spot 0) 5 = .ok false ∧
    isItExtremum (spot 0) (spot (-5)) (spot 0) 4 = .ok true ∧
    isItExtremum (spot 5) (spot 5) (spot 0) 4 = .ok false := by
  decide +kernel

/-! ## C49 keypoint_refinement -/

/-- The offset that `keypoint_refinement` adds to the position of a 3 x 3 neighbourhood with an
invertible Hessian makes the gradient of the fitted quadratic vanish exactly when the two second
derivatives are equal or the gradient is zero already. Missing: all other neighbourhoods, for which the
offset is wrong (the two diagonal entries of the inverse are exchanged in the code). -/
theorem C49_refinement_partial {im : Image K} {f : Nat → Nat → K} (s : im.Shows 3 3 f) (px py : Nat)
    (hd : hessDet f 1 1 ≠ 0) :
    ∃ u v, keypointRefinement im px py = .ok ((px : K) + u, (py : K) + v) ∧
      (Stationary f 1 1 u v ↔
        hessXX f 1 1 = hessYY f 1 1 ∨ (gradX f 1 1 = 0 ∧ gradY f 1 1 = 0)) := by
  refine ⟨_, _, keypointRefinement_ok s px py, ?_⟩
  unfold Stationary
  generalize hA : hessXX f 1 1 = A
  generalize hB : hessYY f 1 1 = B
  generalize hC : hessXY f 1 1 = C
  generalize hp : gradX f 1 1 = p
  generalize hq : gradY f 1 1 = q
  have hD : hessDet f 1 1 = A * B - C * C := by unfold hessDet; rw [hA, hB, hC]
  rw [hD] at hd ⊢
  have hi := mul_inv_cancel₀ hd
  have e1 : p + A * ((C * q - A * p) / (A * B - C * C)) + C * ((C * p - B * q) / (A * B - C * C)) =
      (A - B) * (C * q - A * p) / (A * B - C * C) := by
    simp only [div_eq_mul_inv]; linear_combination (-p) * hi
  have e2 : q + C * ((C * q - A * p) / (A * B - C * C)) + B * ((C * p - B * q) / (A * B - C * C)) =
      (A - B) * (B * q - C * p) / (A * B - C * C) := by
    simp only [div_eq_mul_inv]; linear_combination (-q) * hi
  rw [e1, e2]
  constructor
  · rintro ⟨h1, h2⟩
    rw [div_eq_zero_iff, or_iff_left hd, mul_eq_zero] at h1 h2
    by_cases hab : A = B
    · exact Or.inl hab
    · have hab' : A - B ≠ 0 := sub_ne_zero.2 hab
      have h1 := h1.resolve_left hab'
      have h2 := h2.resolve_left hab'
      right
      constructor
      · have : (A * B - C * C) * p = 0 := by linear_combination (-B) * h1 + C * h2
        exact (mul_eq_zero.1 this).resolve_left hd
      · have : (A * B - C * C) * q = 0 := by linear_combination (-C) * h1 + A * h2
        exact (mul_eq_zero.1 this).resolve_left hd
  · rintro (h | ⟨h1, h2⟩)
    · rw [h]; simp
    · rw [h1, h2]; simp

example := C49_refinement_partial
  (picture_shows 3 3 fun x y => if x = 1 ∧ y = 1 then (5 : ℚ) else if x = 2 ∧ y = 1 then 1 else 0) 7 9
  (by unfold hessDet hessXX hessYY hessXY; decide +kernel)

/-- A slope: values 0, 0, 2 from left to right in the middle row, 2 above and below the centre. -/
def slope : Image ℚ := ⟨[3, 3], [0, 2, 0, 0, 0, 2, 0, 2, 0]⟩

def slopeAt (x y : Nat) : ℚ := if (x = 1 ∧ y ≠ 1) ∨ (x = 2 ∧ y = 1) then 2 else 0

theorem slope_shows : slope.Shows 3 3 slopeAt :=
  Image.Shows.of_data (by omega) (by omega) (by omega) rfl rfl (by
    intro x y hx hy
    interval_cases x <;> interval_cases y <;> decide +kernel)

/-- The property fails: the quadratic through this neighbourhood has its stationary point at the offset
(-1/2, 0); the program answers (-1/4, 0). -/
theorem C49_refinement_violation :
    slope.Shows 3 3 slopeAt ∧ hessDet slopeAt 1 1 ≠ 0 ∧ Stationary slopeAt 1 1 (-1 / 2) 0 ∧
    keypointRefinement slope 7 7 = .ok (7 + -1 / 4, 7) ∧ ¬ Stationary slopeAt 1 1 (-1 / 4) 0 := by
  refine ⟨slope_shows, ?_, ?_, ?_, ?_⟩
  · unfold hessDet hessXX hessYY hessXY; decide +kernel
  · unfold Stationary gradX gradY hessXX hessYY hessXY; decide +kernel
  · decide +kernel
  · unfold Stationary gradX gradY hessXX hessYY hessXY; decide +kernel

/-- The hypotheses of the partial theorem are met. -/
example : hessDet (fun x y => if x = 1 ∧ y = 1 then (5 : ℚ) else if x = 2 ∧ y = 1 then 1 else 0) 1 1 ≠ 0 := by
  unfold hessDet hessXX hessYY hessXY; decide +kernel

/-! ## C85 find_local_extrema -/

/-- Three images of the same size, whatever the order of the iterations: the reported key points are
exactly the inner positions that are strict extrema (and pass the filter when it is requested), with
the given octave and scale and the refined location. Missing: iterations that run at the same time. -/
theorem C85_extrema_partial {i1 i2 i3 : Image K} {w h : Nat} {g : Fin 3 → Nat → Nat → K}
    (s1 : i1.Shows w h (g 0)) (s2 : i2.Shows w h (g 1)) (s3 : i3.Shows w h (g 2)) (hw0 : 0 < w) (hh0 : 0 < h)
    (hw : w < 2 ^ 64 - 2) (hh : h < 2 ^ 64 - 2) (octave scale : Nat) (contrast edge : K) (filter : Bool)
    (sched : List (Nat × Nat) → List (Nat × Nat)) (hs : ∀ l, (sched l).Perm l) :
    ∃ out, findLocalExtrema sched i1 i2 i3 octave scale contrast edge filter = .ok out ∧
      ∀ k, k ∈ out ↔ ∃ x y, Inner w h x y ∧ StrictExtremum g x y contrast ∧
        (filter = true → PassesFilter (g 1) x y contrast edge) ∧
        k = (octave, scale, (refinedAt (g 1) x y).1, (refinedAt (g 1) x y).2) := by
  refine ⟨_, findLocalExtrema_ok s1 s2 s3 hw0 hh0 hw hh octave scale contrast edge filter hs, fun k => ?_⟩
  have hst : stack (g 0) (g 1) (g 2) = g := by
    funext i; match i with | 0 => rfl | 1 => rfl | 2 => rfl
  rw [List.mem_flatMap]
  unfold pointsAt
  rw [hst]
  constructor
  · rintro ⟨p, hp, hk⟩
    split at hk
    · next hc =>
      exact ⟨p.1, p.2, (mem_interior hw0 hh0).1 ((hs _).mem_iff.1 hp), hc.1, hc.2, by simpa using hk⟩
    · simp at hk
  · rintro ⟨x, y, hi, he, hf, rfl⟩
    refine ⟨(x, y), (hs _).mem_iff.2 ((mem_interior hw0 hh0).2 hi), ?_⟩
    rw [if_pos ⟨he, hf⟩]
    simp

example := C85_extrema_partial (g := fun k x y => (k : ℚ) + (x * y : Nat)) (picture_shows 5 4 _) (picture_shows 5 4 _)
  (picture_shows 5 4 _) (by decide) (by decide) (by decide) (by decide) 2 1 4 12 true List.reverse (fun l => l.reverse_perm)

/-- Two orders of the iterations give the same key points, each the same number of times. -/
theorem C85_schedule {i1 i2 i3 : Image K} {w h : Nat} {g : Fin 3 → Nat → Nat → K}
    (s1 : i1.Shows w h (g 0)) (s2 : i2.Shows w h (g 1)) (s3 : i3.Shows w h (g 2)) (hw0 : 0 < w) (hh0 : 0 < h)
    (hw : w < 2 ^ 64 - 2) (hh : h < 2 ^ 64 - 2) (octave scale : Nat) (contrast edge : K) (filter : Bool)
    (sched sched' : List (Nat × Nat) → List (Nat × Nat)) (hs : ∀ l, (sched l).Perm l)
    (hs' : ∀ l, (sched' l).Perm l) :
    ∃ out out', findLocalExtrema sched i1 i2 i3 octave scale contrast edge filter = .ok out ∧
      findLocalExtrema sched' i1 i2 i3 octave scale contrast edge filter = .ok out' ∧ out.Perm out' :=
  ⟨_, _, findLocalExtrema_ok s1 s2 s3 hw0 hh0 hw hh octave scale contrast edge filter hs,
    findLocalExtrema_ok s1 s2 s3 hw0 hh0 hw hh octave scale contrast edge filter hs',
    ((hs _).trans (hs' _).symm).flatMap_right _⟩

example := C85_schedule (g := fun k x y => (k : ℚ) + (x * y : Nat)) (picture_shows 5 4 _) (picture_shows 5 4 _)
  (picture_shows 5 4 _) (by decide) (by decide) (by decide) (by decide) 2 1 4 12 true List.reverse id
  (fun l => l.reverse_perm) (fun _ => .refl _)

/-- The property fails when two iterations of the parallel loop append at the same time: with this
interleaving both threads finish, the vector has grown by one, and the first thread's key point is
gone. -/
theorem C85_race_violation {α : Type} (a b : α) (hab : a ≠ b) :
    ∃ order : List Bool,
      let s := (PushState.mk (fun _ => none) 0 (fun t => if t then b else a) (fun _ => 0) (fun _ => 0)).run order
      s.pc false = 3 ∧ s.pc true = 3 ∧ s.size = 1 ∧ ∀ i, s.slots i ≠ some a := by
  refine ⟨[false, true, false, true, false, true], ?_⟩
  refine ⟨rfl, rfl, rfl, fun i => ?_⟩
  show (if i = 0 then some b else if i = 0 then some a else none) ≠ some a
  by_cases hi : i = 0
  · simp [hi, Ne.symm hab]
  · simp [hi]

/-- The hypotheses are met and key points are found. -/
example : findLocalExtrema id (spot 0) (spot 5) (spot 0) 2 1 4 12 false = .ok [(2, 1, 1, 1)] ∧
    Inner 3 3 1 1 := by
  refine ⟨by decide +kernel, by unfold Inner; omega⟩

/-! ## C50 get_potential_keypoint -/

/-- When every requested octave exists (its image is at least 20 x 20), there are at least three scale
levels, the resampler returns images of the requested size and the differences of Gaussians keep the
size: the search ends without reading a missing octave or level, and finds exactly the strict extrema of
three consecutive levels of an octave. Missing: images that are too small for the requested
octaves, and fewer than three levels. -/
theorem C50_search_partial (dog : Image K → Nat → Image K) (resample : Image K → Nat → Nat → Image K)
    (input : Image K) {w h count levels : Nat} (F : Nat → Nat → Nat → Nat → K)
    (hl : 3 ≤ levels) (hl' : levels < 2 ^ 64) (hw : w < 2 ^ 64 - 2) (hh : h < 2 ^ 64 - 2)
    (hsz : ∀ o < count, (baseOf resample o input).width = w / 2 ^ o ∧
      (baseOf resample o input).height = h / 2 ^ o)
    (hF : ∀ o < count, ∀ s < levels - 1,
      (dog (baseOf resample o input) s).Shows (w / 2 ^ o) (h / 2 ^ o) (F o s))
    (hbig : ∀ o < count, 20 ≤ w / 2 ^ o ∧ 20 ≤ h / 2 ^ o) (contrast edge : K)
    (schedO schedS : List Nat → List Nat) (sched : List (Nat × Nat) → List (Nat × Nat))
    (hsO : ∀ l, (schedO l).Perm l) (hsS : ∀ l, (schedS l).Perm l) (hs : ∀ l, (sched l).Perm l) :
    ∃ out, searchOctaves schedO schedS sched (octavesFrom dog resample levels count input) count
        contrast edge = .ok out ∧
      ∀ k, k ∈ out ↔ ∃ o s x y, o < count ∧ s + 3 < levels ∧ Inner (w / 2 ^ o) (h / 2 ^ o) x y ∧
        StrictExtremum (fun i : Fin 3 => F o (s + i)) x y contrast ∧
        k = (o, s, (refinedAt (F o (s + 1)) x y).1, (refinedAt (F o (s + 1)) x y).2) := by
  refine ⟨_, searchOctaves_ok dog resample input F hl hl' hw hh hsz hF hbig contrast edge hsO hsS hs,
    fun k => ?_⟩
  have hst : ∀ o s, stack (F o s) (F o (s + 1)) (F o (s + 2)) = fun i : Fin 3 => F o (s + i) := by
    intro o s; funext i; match i with | 0 => rfl | 1 => rfl | 2 => rfl
  unfold octavePoints
  simp only [List.mem_flatMap]
  unfold pointsAt
  constructor
  · rintro ⟨o, ho, s, hs', p, hp, hk⟩
    rw [hst] at hk
    have ho : o < count := List.mem_range.1 ((hsO _).mem_iff.1 ho)
    have hs' : s < levels - 3 := List.mem_range.1 ((hsS _).mem_iff.1 hs')
    have hb := hbig o ho
    split at hk
    · next hc =>
      exact ⟨o, s, p.1, p.2, ho, by omega,
        (mem_interior (by omega) (by omega)).1 ((hs _).mem_iff.1 hp), hc.1, by simpa using hk⟩
    · simp at hk
  · rintro ⟨o, s, x, y, ho, hs', hi, he, rfl⟩
    have hb := hbig o ho
    refine ⟨o, (hsO _).mem_iff.2 (List.mem_range.2 ho), s, (hsS _).mem_iff.2 (List.mem_range.2 (by omega)),
      (x, y), (hs _).mem_iff.2 ((mem_interior (by omega) (by omega)).2 hi), ?_⟩
    rw [hst, if_pos ⟨he, by simp⟩]
    simp

/-- The order of the parallel iterations changes only the order of the key points. -/
theorem C50_schedule (dog : Image K → Nat → Image K) (resample : Image K → Nat → Nat → Image K)
    (input : Image K) {w h count levels : Nat} (F : Nat → Nat → Nat → Nat → K)
    (hl : 3 ≤ levels) (hl' : levels < 2 ^ 64) (hw : w < 2 ^ 64 - 2) (hh : h < 2 ^ 64 - 2)
    (hsz : ∀ o < count, (baseOf resample o input).width = w / 2 ^ o ∧
      (baseOf resample o input).height = h / 2 ^ o)
    (hF : ∀ o < count, ∀ s < levels - 1,
      (dog (baseOf resample o input) s).Shows (w / 2 ^ o) (h / 2 ^ o) (F o s))
    (hbig : ∀ o < count, 20 ≤ w / 2 ^ o ∧ 20 ≤ h / 2 ^ o) (contrast edge : K)
    (schedO schedS schedO' schedS' : List Nat → List Nat)
    (sched sched' : List (Nat × Nat) → List (Nat × Nat))
    (hsO : ∀ l, (schedO l).Perm l) (hsS : ∀ l, (schedS l).Perm l) (hs : ∀ l, (sched l).Perm l)
    (hsO' : ∀ l, (schedO' l).Perm l) (hsS' : ∀ l, (schedS' l).Perm l) (hs' : ∀ l, (sched' l).Perm l) :
    ∃ out out', searchOctaves schedO schedS sched (octavesFrom dog resample levels count input) count
        contrast edge = .ok out ∧
      searchOctaves schedO' schedS' sched' (octavesFrom dog resample levels count input) count
        contrast edge = .ok out' ∧ out.Perm out' := by
  refine ⟨_, _, searchOctaves_ok dog resample input F hl hl' hw hh hsz hF hbig contrast edge hsO hsS hs,
    searchOctaves_ok dog resample input F hl hl' hw hh hsz hF hbig contrast edge hsO' hsS' hs', ?_⟩
  refine List.Perm.flatMap ((hsO _).trans (hsO' _).symm) fun o _ => ?_
  refine List.Perm.flatMap ((hsS _).trans (hsS' _).symm) fun s _ => ?_
  exact ((hs _).trans (hs' _).symm).flatMap_right _

/-- Key points whose refined location lies inside their octave's image are mapped to pixels of the
original image, one for each. -/
theorem C50_mapped_inside [FloorRing K] (octaves : List (List (Image K))) (input : Image K)
    (keypoints : List (KeyPoint K)) (hw : 0 < input.width) (hh : 0 < input.height)
    (hw' : input.width < 2 ^ 64) (hh' : input.height < 2 ^ 64)
    (h : ∀ k ∈ keypoints, ∃ first rest, octaves[k.1]? = some (first :: rest) ∧
      0 ≤ k.2.2.1 ∧ k.2.2.1 < (first.width : K) ∧ 0 ≤ k.2.2.2 ∧ k.2.2.2 < (first.height : K)) :
    ∃ points, mapKeypoints octaves input keypoints = .ok points ∧
      points.length = keypoints.length ∧ ∀ p ∈ points, p.1 < input.width ∧ p.2 < input.height := by
  have key : ∀ k ∈ keypoints, ∃ p : Nat × Nat, (∀ mapped : List (Nat × Nat), (do
      let each ← vget octaves k.1
      let first ← vget each 0
      let p ← mappingPoint (k.2.2.1, k.2.2.2) first.width first.height input.width input.height
      Res.ok (mapped ++ [p])) = .ok (mapped ++ [p])) ∧ p.1 < input.width ∧ p.2 < input.height := by
    intro k hk
    obtain ⟨first, rest, e, hx0, hx1, hy0, hy1⟩ := h k hk
    have pw : 0 < first.width := by
      by_contra hc
      have : first.width = 0 := by omega
      rw [this] at hx1
      simp at hx1
      exact absurd hx0 (not_le.2 hx1)
    have ph : 0 < first.height := by
      by_contra hc
      have : first.height = 0 := by omega
      rw [this] at hy1
      simp at hy1
      exact absurd hy0 (not_le.2 hy1)
    obtain ⟨x, ex, hx⟩ := toSize_scale pw hw' hx0 hx1 hw
    obtain ⟨y, ey, hy⟩ := toSize_scale ph hh' hy0 hy1 hh
    refine ⟨(x, y), fun mapped => ?_, hx, hy⟩
    have e1 : vget octaves k.1 = .ok (first :: rest) := by unfold vget; rw [e]
    have e2 : vget (first :: rest) 0 = .ok first := rfl
    unfold mappingPoint
    simp only [e1, e2, Res.ok_bind, ex, ey]
  unfold mapKeypoints
  clear h
  suffices hgen : ∀ mapped : List (Nat × Nat), (∀ p ∈ mapped, p.1 < input.width ∧ p.2 < input.height) →
      ∃ points, loop (fun mapped k => do
        let each ← vget octaves k.1
        let first ← vget each 0
        let p ← mappingPoint (k.2.2.1, k.2.2.2) first.width first.height input.width input.height
        Res.ok (mapped ++ [p])) keypoints mapped = .ok points ∧
        points.length = mapped.length + keypoints.length ∧
        ∀ p ∈ points, p.1 < input.width ∧ p.2 < input.height by
    obtain ⟨points, a, b, c⟩ := hgen [] (by simp)
    exact ⟨points, a, by simpa using b, c⟩
  induction keypoints with
  | nil => intro mapped hm; exact ⟨mapped, rfl, by simp, hm⟩
  | cons k rest ih =>
    intro mapped hm
    obtain ⟨p, e, hp⟩ := key k (by simp)
    obtain ⟨points, a, b, c⟩ := ih (fun k hk => key k (by simp [hk])) (mapped ++ [p]) (by
      intro q hq
      rcases List.mem_append.1 hq with hq | hq
      · exact hm q hq
      · rw [List.mem_singleton.1 hq]; exact hp)
    refine ⟨points, ?_, by simp at b ⊢; omega, c⟩
    rw [loop, e mapped]
    exact a

example := C50_mapped_inside [[Image.ofSizes (0 : ℚ) [40, 30]], [Image.ofSizes 0 [20, 15]]] (Image.ofSizes 0 [40, 30])
  [(1, 2, 39 / 2, 1 / 4), (0, 1, 3, 29)] (by decide) (by decide) (by decide) (by decide) (by
    intro k hk
    simp only [List.mem_cons, List.not_mem_nil, or_false] at hk
    rcases hk with rfl | rfl
    · exact ⟨_, _, rfl, by norm_num, show (39 / 2 : ℚ) < 20 by norm_num, by norm_num, show (1 / 4 : ℚ) < 15 by norm_num⟩
    · exact ⟨_, _, rfl, by norm_num, show (3 : ℚ) < 40 by norm_num, by norm_num, show (29 : ℚ) < 30 by norm_num⟩)

/-- The property fails when some requested octave does not exist: whenever the image of octave `m` is
smaller than 20 pixels in one direction and more than `m` octaves are requested, the search reads
beyond the end of the vector of octaves. -/
theorem C50_missing_octave_violation (dog : Image K → Nat → Image K)
    (resample : Image K → Nat → Nat → Image K)
    (input : Image K) {w h count levels m : Nat} (F : Nat → Nat → Nat → Nat → K)
    (hl : 3 ≤ levels) (hl' : levels < 2 ^ 64) (hw : w < 2 ^ 64 - 2) (hh : h < 2 ^ 64 - 2) (hm : m < count)
    (hsz : ∀ o ≤ m, (baseOf resample o input).width = w / 2 ^ o ∧
      (baseOf resample o input).height = h / 2 ^ o)
    (hF : ∀ o < m, ∀ s < levels - 1,
      (dog (baseOf resample o input) s).Shows (w / 2 ^ o) (h / 2 ^ o) (F o s))
    (hbig : ∀ o < m, 20 ≤ w / 2 ^ o ∧ 20 ≤ h / 2 ^ o) (hsmall : w / 2 ^ m < 20 ∨ h / 2 ^ m < 20)
    (contrast edge : K)
    (schedO schedS : List Nat → List Nat) (sched : List (Nat × Nat) → List (Nat × Nat))
    (hsO : ∀ l, (schedO l).Perm l) (hsS : ∀ l, (schedS l).Perm l) (hs : ∀ l, (sched l).Perm l) :
    searchOctaves schedO schedS sched (octavesFrom dog resample levels count input) count contrast edge =
      .ub :=
  searchOctaves_ub dog resample input F hl hl' hw hh hm hsz hF hbig hsmall contrast edge hsO hsS hs

/-- The property fails with fewer than three scale levels: the number of triples of levels wraps
around. -/
theorem C50_levels_violation (dog : Image K → Nat → Image K) (resample : Image K → Nat → Nat → Image K)
    (input : Image K) {count levels : Nat} (hl : levels < 3) (hc : 0 < count) (contrast edge : K)
    (schedO schedS : List Nat → List Nat) (sched : List (Nat × Nat) → List (Nat × Nat))
    (hsO : ∀ l, (schedO l).Perm l) (hsS : ∀ l, (schedS l).Perm l) :
    searchOctaves schedO schedS sched (octavesFrom dog resample levels count input) count contrast edge =
      .ub :=
  searchOctaves_levels_ub dog resample input hl hc contrast edge hsO hsS

end

/-- Three levels for which the refined location of the extremum is left of the image. -/
def steep : Image ℚ := ⟨[3, 3], [0, 9, 0, 9, 10, 0, 0, 9, 0]⟩

/-- The property fails when the refinement moves a key point out of the image: the negative location
is converted to `size_t`. -/
theorem C50_location_violation :
    findLocalExtrema id (spot 0) steep (spot 0) 0 0 8 12 false = .ok [(0, 0, -5 / 4, 1)] ∧
    mapKeypoints [[spot 0, steep, spot 0]] (spot 0) [(0, 0, -5 / 4, 1)] = .ub := by
  constructor <;> decide +kernel

/-- The hypotheses of the search theorems are met by a 100 x 100 image with a resampler that takes
every second pixel: three octaves exist, the fourth (the default number) does not. -/
example : (∀ o < 3, 20 ≤ 100 / 2 ^ o) ∧ 100 / 2 ^ 3 < 20 ∧
    (∀ o ≤ 3, (baseOf (fun _ w h => Image.ofSizes (0 : ℚ) [w, h]) o (Image.ofSizes (0 : ℚ) [100, 100])).size
      = [100 / 2 ^ o, 100 / 2 ^ o]) := by
  refine ⟨by decide, by decide, ?_⟩
  intro o ho
  interval_cases o <;> rfl

theorem baseOf_example : ∀ o < 3, (baseOf (fun _ w h => Image.ofSizes (0 : ℚ) [w, h]) o (Image.ofSizes (0 : ℚ) [100, 100])) =
    Image.ofSizes 0 [100 / 2 ^ o, 100 / 2 ^ o] := by
  intro o ho
  interval_cases o <;> rfl

theorem octaves_example : ∀ o < 3, ∀ s < 5 - 1, (fun (im : Image ℚ) (_ : Nat) => im)
    (baseOf (fun _ w h => Image.ofSizes (0 : ℚ) [w, h]) o (Image.ofSizes (0 : ℚ) [100, 100])) s |>.Shows (100 / 2 ^ o)
      (100 / 2 ^ o) (fun _ _ => 0) := by
  intro o ho s _
  show (baseOf _ o _).Shows _ _ _
  rw [baseOf_example o ho]
  interval_cases o <;> exact ofSizes_shows _ (by decide) (by decide) (by decide)

theorem sizes_example : ∀ o < 3, (baseOf (fun _ w h => Image.ofSizes (0 : ℚ) [w, h]) o (Image.ofSizes (0 : ℚ) [100, 100])).width =
      100 / 2 ^ o ∧ (baseOf (fun _ w h => Image.ofSizes (0 : ℚ) [w, h]) o (Image.ofSizes (0 : ℚ) [100, 100])).height = 100 / 2 ^ o := by
  intro o ho
  rw [baseOf_example o ho]
  exact ⟨rfl, rfl⟩

example := C50_search_partial (fun im _ => im) (fun _ w h => Image.ofSizes (0 : ℚ) [w, h]) (Image.ofSizes 0 [100, 100])
  (w := 100) (h := 100) (count := 3) (levels := 5) (fun _ _ _ _ => 0) (by decide) (by decide) (by decide) (by decide)
  sizes_example octaves_example (by decide) 4 12 List.reverse id List.reverse (fun l => l.reverse_perm) (fun l => .refl l)
  (fun l => l.reverse_perm)

example := C50_schedule (fun im _ => im) (fun _ w h => Image.ofSizes (0 : ℚ) [w, h]) (Image.ofSizes 0 [100, 100])
  (w := 100) (h := 100) (count := 3) (levels := 5) (fun _ _ _ _ => 0) (by decide) (by decide) (by decide) (by decide)
  sizes_example octaves_example (by decide) 4 12 List.reverse id id List.reverse List.reverse id (fun l => l.reverse_perm)
  (fun l => .refl l) (fun l => l.reverse_perm) (fun l => .refl l) (fun l => l.reverse_perm) (fun l => .refl l)

end TinyDIP.Props
