import Verif.Model.SolveSpecial
import Verif.Spec.WarpSpecial
import Verif.Props.StitchSpecial
import Verif.Lemmas.Stitch

/-!
# Property C223: the homography of point pairs in double precision

Full statement of C223: the equations `compute_homography` hands to the solver are exact for coordinates up to `2 ^ 26`;
a homography it returns has the last entry exactly one and every entry within one rounding of the quotient; it gives
none for fewer than four pairs, for an answer without nine numbers and for a last number below `2 ^ -52` in magnitude.
NaN is not rejected.
-/

namespace TinyDIP.Props

open TinyDIP Rnd Sp Dbl Stitch

open scoped Classical

/-! ## C223 -/

/-- The value of an equation for given coefficients. -/
def equationValue (row : List ℝ) (h : Fin 9 → ℝ) : ℝ := (List.zipWith (· * ·) row (List.ofFn h)).sum

theorem prod_num {a b : Nat} (ha : a ≤ 2 ^ 26) (hb : b ≤ 2 ^ 26) :
    (Dbl.ofNat a).mul (Dbl.ofNat b) = .num ((a : ℝ) * b) := by
  rw [ofNat_eq (ha.trans (by norm_num)), ofNat_eq (hb.trans (by norm_num))]
  show Dbl.rnd _ = _
  have h : a * b ≤ 2 ^ 53 := (Nat.mul_le_mul ha hb).trans (by norm_num)
  have := ofNat_eq h
  unfold Dbl.ofNat at this
  push_cast at this
  exact this

/-- The exact rows of a pair of points. -/
noncomputable def pairRows (p : Pt × Pt) : List (List ℝ) :=
  [[-(p.1.1 : ℝ), -(p.1.2 : ℝ), -1, 0, 0, 0, (p.2.1 : ℝ) * p.1.1, (p.2.1 : ℝ) * p.1.2, p.2.1],
    [0, 0, 0, -(p.1.1 : ℝ), -(p.1.2 : ℝ), -1, (p.2.2 : ℝ) * p.1.1, (p.2.2 : ℝ) * p.1.2, p.2.2]]

theorem pairRows_eq {p : Pt × Pt} (h1 : p.1.1 ≤ 2 ^ 26) (h2 : p.1.2 ≤ 2 ^ 26) (h3 : p.2.1 ≤ 2 ^ 26)
    (h4 : p.2.2 ≤ 2 ^ 26) : pairRowsD p = (pairRows p).map (List.map Dbl.num) := by
  unfold pairRowsD pairRows
  simp only [prod_num h3 h1, prod_num h3 h2, prod_num h4 h1, prod_num h4 h2]
  simp only [ofNat_eq (h1.trans (show 2 ^ 26 ≤ 2 ^ 53 by norm_num)), ofNat_eq (h2.trans (show 2 ^ 26 ≤ 2 ^ 53 by norm_num)),
    ofNat_eq (h3.trans (show 2 ^ 26 ≤ 2 ^ 53 by norm_num)), ofNat_eq (h4.trans (show 2 ^ 26 ≤ 2 ^ 53 by norm_num)),
    Dbl.neg, List.map_cons, List.map_nil]

theorem pairRows_zero (p : Pt × Pt) (h : Fin 9 → ℝ) (hz : homog (matOf h) (p.1.1 : ℝ) (p.1.2 : ℝ) 2 ≠ 0) :
    (∀ r ∈ pairRows p, equationValue r h = 0) ↔
      MapsTo (matOf h) (p.1.1 : ℝ) (p.1.2 : ℝ) ((p.2.1 : ℝ), (p.2.2 : ℝ)) := by
  have e1 : equationValue [-(p.1.1 : ℝ), -(p.1.2 : ℝ), -1, 0, 0, 0, (p.2.1 : ℝ) * p.1.1, (p.2.1 : ℝ) * p.1.2, p.2.1] h =
      (p.2.1 : ℝ) * homog (matOf h) p.1.1 p.1.2 2 - homog (matOf h) p.1.1 p.1.2 0 := by
    unfold equationValue
    simp [homog_eq, matOf, List.ofFn_succ]
    ring
  have e2 : equationValue [0, 0, 0, -(p.1.1 : ℝ), -(p.1.2 : ℝ), -1, (p.2.2 : ℝ) * p.1.1, (p.2.2 : ℝ) * p.1.2, p.2.2] h =
      (p.2.2 : ℝ) * homog (matOf h) p.1.1 p.1.2 2 - homog (matOf h) p.1.1 p.1.2 1 := by
    unfold equationValue
    simp [homog_eq, matOf, List.ofFn_succ]
    ring
  unfold pairRows
  simp only [List.mem_cons, List.not_mem_nil, or_false, forall_eq_or_imp, forall_eq, e1, e2]
  unfold MapsTo project
  rw [Prod.mk.injEq, div_eq_iff hz, div_eq_iff hz, sub_eq_zero, sub_eq_zero]
  constructor
  · rintro ⟨a, b⟩; exact ⟨hz, a.symm, b.symm⟩
  · rintro ⟨-, a, b⟩; exact ⟨a.symm, b.symm⟩

/-- The equations are exact: for coordinates up to `2 ^ 26` no entry is rounded, there are two equations of nine entries
for each pair, and coefficients satisfy them all exactly when the homography sends every first point to its second. -/
theorem C223_equations (points : List (Pt × Pt))
    (hb : ∀ p ∈ points, p.1.1 ≤ 2 ^ 26 ∧ p.1.2 ≤ 2 ^ 26 ∧ p.2.1 ≤ 2 ^ 26 ∧ p.2.2 ≤ 2 ^ 26) :
    ∃ rows : List (List ℝ), dltRowsD points = rows.map (List.map Dbl.num) ∧ rows.length = 2 * points.length ∧
      (∀ r ∈ rows, r.length = 9) ∧
      ∀ h : Fin 9 → ℝ, (∀ p ∈ points, homog (matOf h) (p.1.1 : ℝ) (p.1.2 : ℝ) 2 ≠ 0) →
        ((∀ r ∈ rows, equationValue r h = 0) ↔
          ∀ p ∈ points, MapsTo (matOf h) (p.1.1 : ℝ) (p.1.2 : ℝ) ((p.2.1 : ℝ), (p.2.2 : ℝ))) := by
  refine ⟨points.flatMap pairRows, ?_, ?_, ?_, ?_⟩
  · unfold dltRowsD
    induction points with
    | nil => rfl
    | cons p l ih =>
      obtain ⟨a, b, c, d⟩ := hb p (by simp)
      rw [List.flatMap_cons, List.flatMap_cons, List.map_append, pairRows_eq a b c d, ih fun q hq => hb q (by simp [hq])]
  · clear hb
    induction points with
    | nil => rfl
    | cons p l ih =>
      rw [List.flatMap_cons, List.length_append, ih, List.length_cons]
      simp only [pairRows, List.length_cons, List.length_nil]
      omega
  · intro r hr
    obtain ⟨p, -, hr⟩ := List.mem_flatMap.1 hr
    simp only [pairRows, List.mem_cons, List.not_mem_nil, or_false] at hr
    rcases hr with rfl | rfl <;> rfl
  · intro h hz
    constructor
    · intro H p hp
      exact (pairRows_zero p h (hz p hp)).1 fun r hr => H r (List.mem_flatMap.2 ⟨p, hp, hr⟩)
    · intro H r hr
      obtain ⟨p, hp, hr⟩ := List.mem_flatMap.1 hr
      exact (pairRows_zero p h (hz p hp)).2 (H p hp) r hr

/-- Fewer than four pairs: no homography. -/
theorem C223_few (null : List (List Dbl) → List Dbl) (points : List (Pt × Pt)) (h : points.length < 4) :
    computeD null points = none := if_pos h

/-- An answer of the solver without exactly nine numbers: no homography. -/
theorem C223_nine (null : List (List Dbl) → List Dbl) (points : List (Pt × Pt)) (h : ∀ A, (null A).length ≠ 9) :
    computeD null points = none := by
  unfold computeD
  split
  · rfl
  · have := h (dltRowsD points)
    generalize null (dltRowsD points) = l at *
    unfold homographyOfD
    split
    · exact absurd rfl this
    · rfl

theorem quot_num {x s : ℝ} (hx : |x| ≤ 2) (hs : 1 / 2 ^ 52 ≤ |s|) :
    (Dbl.num x).div (.num s) = .num (dbl (x / s)) :=
  (is_div (k := 1) (j := 52) (is_num (by simpa using hx)) rfl hs (by norm_num)).1

/-- For every answer of the solver with nine numbers of magnitude at most 2 (it is a unit vector up to rounding): no
homography when the last number is below `2 ^ -52`; otherwise a homography whose last entry is exactly one and whose
entries are the quotients by the last number with one rounding each. -/
theorem C223_result (null : List (List Dbl) → List Dbl) (points : List (Pt × Pt)) (h4 : 4 ≤ points.length)
    (h : Fin 9 → ℝ) (hn : null (dltRowsD points) = List.ofFn fun i => .num (h i)) (hb : ∀ i, |h i| ≤ 2) :
    (|h 8| < 1 / 2 ^ 52 → computeD null points = none) ∧
    (1 / 2 ^ 52 ≤ |h 8| → ∃ H, computeD null points = some H ∧ H.h33 = .num 1 ∧
      ∃ g : Fin 9 → ℝ, (H.entries = List.ofFn fun i => Dbl.num (g i)) ∧
        ∀ i, |g i - h i / h 8| ≤ |h i / h 8| / 2 ^ 53) := by
  have e : computeD null points = homographyOfD [.num (h 0), .num (h 1), .num (h 2), .num (h 3), .num (h 4), .num (h 5),
      .num (h 6), .num (h 7), .num (h 8)] := by
    unfold computeD
    rw [if_neg (by omega), hn]
    rfl
  rw [e]
  constructor
  · intro hs
    exact if_pos (show |h 8| < 1 / 2 ^ 52 from hs)
  · intro hs
    have hne : h 8 ≠ 0 := by
      intro h0
      rw [h0, abs_zero] at hs
      norm_num at hs
    refine ⟨⟨.num (dbl (h 0 / h 8)), .num (dbl (h 1 / h 8)), .num (dbl (h 2 / h 8)), .num (dbl (h 3 / h 8)),
      .num (dbl (h 4 / h 8)), .num (dbl (h 5 / h 8)), .num (dbl (h 6 / h 8)), .num (dbl (h 7 / h 8)),
      .num (dbl (h 8 / h 8))⟩, ?_, ?_, fun i => dbl (h i / h 8), rfl, fun i => ?_⟩
    · refine (if_neg (show ¬ |h 8| < 1 / 2 ^ 52 from not_lt.2 hs)).trans ?_
      simp only [quot_num (hb _) hs]
    · show Dbl.num (dbl (h 8 / h 8)) = _
      rw [div_self hne, dbl_one]
    · have := dbl_err (h i / h 8)
      unfold eps at this
      refine this.trans (le_of_eq ?_)
      ring

/-- NaN as the last number is not rejected: the result is the matrix of NaN, and it counts as a homography. -/
theorem C223_nan (null : List (List Dbl) → List Dbl) (points : List (Pt × Pt)) (h4 : 4 ≤ points.length)
    (l : List Dbl) (hl : l.length = 8) (hn : null (dltRowsD points) = l ++ [.nan]) :
    ∃ H, computeD null points = some H ∧ H.entries = List.replicate 9 .nan := by
  have hd : ∀ a : Dbl, a.div .nan = .nan := fun a => by cases a <;> rfl
  match l, hl with
  | [a, b, c, d, e, f, g, i], _ =>
    refine ⟨⟨.nan, .nan, .nan, .nan, .nan, .nan, .nan, .nan, .nan⟩, ?_, rfl⟩
    unfold computeD
    rw [if_neg (by omega), hn]
    show homographyOfD [a, b, c, d, e, f, g, i, .nan] = _
    refine (if_neg (show ¬ (Dbl.nan.abs).lt (.num (1 / 2 ^ 52)) from fun h => h)).trans ?_
    simp only [hd]

/-! The corners of a picture of ten by ten pixels and the identity. -/

def tenCorners : List (Pt × Pt) :=
  [((0, 0), (0, 0)), ((9, 0), (9, 0)), ((0, 9), (0, 9)), ((9, 9), (9, 9))]

example := C223_equations tenCorners (by
  intro p hp
  simp only [tenCorners, List.mem_cons, List.not_mem_nil, or_false] at hp
  rcases hp with rfl | rfl | rfl | rfl <;> norm_num)

example := (C223_result (fun _ => [.num (1 / 2), .num 0, .num 0, .num 0, .num (1 / 2), .num 0, .num 0, .num 0, .num (1 / 2)])
  tenCorners (by simp [tenCorners]) ![1 / 2, 0, 0, 0, 1 / 2, 0, 0, 0, 1 / 2] (by simp [List.ofFn_succ, Fin.succ])
  (by intro i; fin_cases i <;> norm_num)).2 (by
    show (1 : ℝ) / 2 ^ 52 ≤ |1 / 2|
    rw [abs_of_pos (by norm_num)]
    norm_num)

example := C223_nan (fun _ => List.replicate 9 .nan) tenCorners (by simp [tenCorners]) (List.replicate 8 .nan) rfl rfl

example := C223_nine (fun _ => []) tenCorners (by simp)

end TinyDIP.Props
