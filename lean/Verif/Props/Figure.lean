import Verif.Lemmas.Samples
import Verif.Lemmas.Figure

/-!
# Property theorems: Gaussian figures (C108)
-/

namespace TinyDIP.Filter

open TinyDIP Image Finset

/-! ## C108 -/

/-- The one-dimensional figure: the bell curve around the centre; normalised, the samples sum to one. -/
theorem C108_figure1D (n c : Nat) (hn : n < 2 ^ 64) (h0 : 0 < n) (sd : ℝ) :
    (∃ out, gaussianFigure1D n c sd false = .ok out ∧ out.Shows n 1 (fun x _ => bell sd ((x : ℝ) - c))) ∧
    (∃ out, gaussianFigure1D n c sd true = .ok out ∧ out.Shows n 1 (fun x _ => bellWeight sd c n x) ∧
      (range n).sum (bellWeight sd c n) = 1) := by
  refine ⟨gaussianFigure1D_shows hn c sd, ?_⟩
  obtain ⟨o, e, s⟩ := gaussianFigure1D_norm hn h0 c sd
  exact ⟨o, e, s, bellWeight_sum sd c h0⟩

example := C108_figure1D 9 4 (by decide) (by decide) 2

/-- The two-dimensional figure is the product of the two bell curves; normalised, the product of the
two normalised bell curves, and its pixels sum to one. -/
theorem C108_figure2D (n m cx cy : Nat) (hn : n < 2 ^ 64) (hm : m < 2 ^ 64) (hf : n * m < 2 ^ 64)
    (hn0 : 0 < n) (hm0 : 0 < m) (sdx sdy : ℝ) :
    (∃ out, gaussianFigure2D n m cx cy sdx sdy false = .ok out ∧
      out.Shows n m (fun x y => bell sdx ((x : ℝ) - cx) * bell sdy ((y : ℝ) - cy))) ∧
    (∃ out, gaussianFigure2D n m cx cy sdx sdy true = .ok out ∧
      out.Shows n m (fun x y => bellWeight sdx cx n x * bellWeight sdy cy m y) ∧
      ((range m).sum fun y => (range n).sum fun x => bellWeight sdx cx n x * bellWeight sdy cy m y) = 1) := by
  obtain ⟨g, s, e⟩ := gaussianFigure2D_loop hn hm hf cx cy sdx sdy
  refine ⟨⟨g, by rw [e]; rfl, s⟩, ?_⟩
  obtain ⟨o, eo, so⟩ := dividesScalar_shows s (Nat.mul_pos hn0 hm0) (· / ·)
    ((range m).sum fun y => (range n).sum fun x => bell sdx ((x : ℝ) - cx) * bell sdy ((y : ℝ) - cy))
  refine ⟨o, by rw [e, if_pos rfl, eo], so.congr fun x y _ _ => ?_, ?_⟩
  · unfold bellWeight
    rw [div_mul_div_comm]
    congr 1
    rw [Finset.sum_mul_sum, Finset.sum_comm]
  · simp only [← Finset.sum_mul, ← Finset.mul_sum, bellWeight_sum _ _ hn0, bellWeight_sum _ _ hm0, one_mul]

example := C108_figure2D 9 7 4 3 (by decide) (by decide) (by decide) (by decide) (by decide) 2 (1 / 2)

/-- Shape of the figure: never above one, one exactly at the centre, symmetric about it. -/
theorem C108_shape (sdx sdy : ℝ) (hx : sdx ≠ 0) (hy : sdy ≠ 0) (cx cy : ℝ) :
    let g := fun x y : ℝ => bell sdx (x - cx) * bell sdy (y - cy)
    (∀ x y, 0 < g x y ∧ g x y ≤ 1) ∧ (∀ x y, g x y = 1 ↔ x = cx ∧ y = cy) ∧
    (∀ d e, g (cx + d) (cy + e) = g (cx - d) (cy + e) ∧ g (cx + d) (cy + e) = g (cx + d) (cy - e)) := by
  have hle : ∀ {sd : ℝ}, sd ≠ 0 → ∀ x, bell sd x ≤ 1 ∧ (bell sd x = 1 ↔ x = 0) := by
    intro sd hsd x
    unfold bell
    have h2 : 0 < 2 * sd ^ 2 := by positivity
    constructor
    · rw [Real.exp_le_one_iff]
      exact div_nonpos_of_nonpos_of_nonneg (neg_nonpos.mpr (sq_nonneg x)) h2.le
    · rw [Real.exp_eq_one_iff, div_eq_zero_iff, neg_eq_zero, sq_eq_zero_iff]
      constructor
      · rintro (h | h)
        · exact h
        · exact absurd h h2.ne'
      · exact Or.inl
  have hev : ∀ sd x : ℝ, bell sd (-x) = bell sd x := by intro sd x; unfold bell; rw [neg_sq]
  intro g
  refine ⟨fun x y => ⟨mul_pos (bell_pos _ _) (bell_pos _ _), ?_⟩, fun x y => ?_, fun d e => ⟨?_, ?_⟩⟩
  · exact mul_le_one₀ (hle hx _).1 (bell_pos _ _).le (hle hy _).1
  · constructor
    · intro h
      have h1 := (hle hx (x - cx)).1
      have h2 := (hle hy (y - cy)).1
      have p1 := bell_pos sdx (x - cx)
      have p2 := bell_pos sdy (y - cy)
      have e1 : bell sdx (x - cx) = 1 := by
        refine le_antisymm h1 ?_
        calc (1 : ℝ) = bell sdx (x - cx) * bell sdy (y - cy) := h.symm
          _ ≤ bell sdx (x - cx) * 1 := mul_le_mul_of_nonneg_left h2 p1.le
          _ = _ := mul_one _
      have e2 : bell sdy (y - cy) = 1 := by
        have h : bell sdx (x - cx) * bell sdy (y - cy) = 1 := h
        rwa [e1, one_mul] at h
      have a1 := (hle hx _).2.mp e1
      have a2 := (hle hy _).2.mp e2
      exact ⟨by linarith, by linarith⟩
    · rintro ⟨rfl, rfl⟩
      show bell sdx (x - x) * bell sdy (y - y) = 1
      rw [(hle hx _).2.mpr (sub_self x), (hle hy _).2.mpr (sub_self y), one_mul]
  · show bell sdx (cx + d - cx) * _ = bell sdx (cx - d - cx) * _
    rw [show cx - d - cx = -(cx + d - cx) by ring, hev]
  · show _ * bell sdy (cy + e - cy) = _ * bell sdy (cy - e - cy)
    rw [show cy - e - cy = -(cy + e - cy) by ring, hev]

example := C108_shape 2 (1 / 2) (by norm_num) (by norm_num) 4 3

/-- The density of the bivariate normal distribution with variances `s1`, `s2` and correlation `rho`. -/
noncomputable def density (s1 s2 rho dx dy : ℝ) : ℝ :=
  1 / (2 * Real.pi * Real.sqrt s1 * Real.sqrt s2 * Real.sqrt (1 - rho ^ 2)) *
    Real.exp (-((dx / Real.sqrt s1) ^ 2 - 2 * rho * (dx / Real.sqrt s1) * (dy / Real.sqrt s2) +
      (dy / Real.sqrt s2) ^ 2) / (2 * (1 - rho ^ 2)))

/-- The elliptical figure, computed in any order of the pixels (with repetitions, even), is `factor`
times the bivariate normal density. -/
theorem C108_ellipse (order : List (Nat × Nat)) (n m cx cy : Nat) (hn : n < 2 ^ 64) (hm : m < 2 ^ 64)
    (hf : n * m < 2 ^ 64) (ho : Covers order n m) (s1 s2 rho factor : ℝ) (h1 : 0 < s1) (h2 : 0 < s2)
    (hr : rho ^ 2 < 1) :
    ∃ out, gaussianEllipse order n m cx cy s1 s2 rho factor = .ok out ∧
      out.Shows n m (fun x y => factor * density s1 s2 rho ((x : ℝ) - cx) ((y : ℝ) - cy)) := by
  have q1 := Real.sqrt_pos.mpr h1
  have q2 := Real.sqrt_pos.mpr h2
  have e1 := Real.sq_sqrt h1.le
  have e2 := Real.sq_sqrt h2.le
  have hr' : 0 < 1 - rho ^ 2 := by linarith
  unfold gaussianEllipse
  refine pixFor_fill order (fun x _ => x) (fun _ y => y)
    (fun x y => factor * density s1 s2 rho ((x : ℝ) - cx) ((y : ℝ) - cy)) _ (ofSizes_shows (0 : ℝ) hn hm hf)
    ?_ (fun a b ha hb => ⟨a, b, (ho a b).mpr ⟨ha, hb⟩, rfl, rfl⟩)
  intro x y hp im f s
  obtain ⟨hx, hy⟩ := (ho x y).mp hp
  obtain ⟨im', e, s'⟩ := s.set2 hx hy (factor / (2 * Real.pi * Real.sqrt s1 * Real.sqrt s2 *
    Real.sqrt (1 - rho ^ 2)) * Real.exp (-1 / (2 * s1 * s2 * (1 - rho ^ 2)) *
      (s2 * (((x : ℝ) - cx) * ((x : ℝ) - cx)) -
        (2 * rho * Real.sqrt s1 * Real.sqrt s2 * ((x : ℝ) - cx) * ((y : ℝ) - cy)) +
        s1 * (((y : ℝ) - cy) * ((y : ℝ) - cy)))))
  refine ⟨im', e, s'.congr fun a b _ _ => ?_⟩
  unfold updPx
  congr 1
  unfold density
  rw [← mul_assoc factor, mul_one_div]
  congr 2
  generalize Real.sqrt s1 = r1 at *
  generalize Real.sqrt s2 = r2 at *
  subst e1
  subst e2
  field_simp

example := C108_ellipse (iterYX 9 7) 9 7 4 3 (by decide) (by decide) (by decide) (covers_iterYX 9 7) 2 3 (1 / 2) 10 (by norm_num)
  (by norm_num) (by norm_num)

/-- Without correlation the elliptical figure is the separable one, up to the constant factor. -/
theorem C108_ellipse_separable (s1 s2 dx dy : ℝ) (h1 : 0 < s1) (h2 : 0 < s2) :
    density s1 s2 0 dx dy =
      1 / (2 * Real.pi * Real.sqrt s1 * Real.sqrt s2) * (bell (Real.sqrt s1) dx * bell (Real.sqrt s2) dy) := by
  have q1 := Real.sqrt_pos.mpr h1
  have q2 := Real.sqrt_pos.mpr h2
  unfold density bell
  rw [← Real.exp_add]
  congr 1
  · simp
  · congr 1
    field_simp
    ring

example := C108_ellipse_separable 2 3 1 (-1) (by norm_num) (by norm_num)

/-- The three-dimensional figure is the product of the three bell curves. -/
theorem C108_figure3D (a b c cx cy cz : Nat) (ha : a < 2 ^ 64) (hb : b < 2 ^ 64) (hc : c < 2 ^ 64)
    (ha0 : 0 < a) (hb0 : 0 < b) (hab : a * b < 2 ^ 64) (hf : a * b * c < 2 ^ 64) (sdx sdy sdz : ℝ) :
    ∃ out, gaussianFigure3D a b c cx cy cz sdx sdy sdz = .ok out ∧ out.size = [a, b, c] ∧
      ∀ x y z, x < a → y < b → z < c → out.at' [x, y, z] =
        .ok (bell sdx ((x : ℝ) - cx) * bell sdy ((y : ℝ) - cy) * bell sdz ((z : ℝ) - cz)) := by
  obtain ⟨g, s, e⟩ := gaussianFigure2D_loop ha hb hab cx cy sdx sdy
  have s0 := ofSizes_showsN (0 : ℝ) (sz := [a, b, c]) (by simpa [mul_assoc] using hf)
    (by intro n hn; simp at hn; rcases hn with rfl | rfl | rfl <;> assumption)
  obtain ⟨out, eo, so⟩ := forUp_inv (n := c) (body := fun (output : Image ℝ) z => do
      let each_plane ← multipliesScalar (· * ·) 0 g (normal1D ((z : ℝ) - (cz : ℝ)) sdz)
      loop (fun output p => do
        let v ← each_plane.at2u p.1 p.2
        output.setAtUnchecked [p.1, p.2, z] v) (iterYX a b) output)
    (fun k im => im.ShowsN [a, b, c] (fun i => if i.getD 2 0 < k then
      bell sdx (((i.getD 0 0 : Nat) : ℝ) - cx) * bell sdy (((i.getD 1 0 : Nat) : ℝ) - cy) *
        bell sdz (((i.getD 2 0 : Nat) : ℝ) - cz) else 0))
    (by
      intro k im hk si
      obtain ⟨pl, epl, spl⟩ := multipliesScalar_shows s (Nat.mul_pos ha0 hb0)
        (normal1D ((k : ℝ) - (cz : ℝ)) sdz)
      obtain ⟨im', e', s'⟩ := ShowsN.loop_write (pos := fun p : Nat × Nat => [p.1, p.2, k])
        (g := fun i => bell sdx (((i.getD 0 0 : Nat) : ℝ) - cx) * bell sdy (((i.getD 1 0 : Nat) : ℝ) - cy) *
          bell sdz (((i.getD 2 0 : Nat) : ℝ) - cz))
        (body := fun output p => do
          let v ← pl.at2u p.1 p.2
          output.setAtUnchecked [p.1, p.2, k] v) (iterYX a b)
        (by
          intro p hp im1 f1 s1
          obtain ⟨hx, hy⟩ : p.1 < a ∧ p.2 < b := mem_iterYX.1 hp
          obtain ⟨im2, e2, s2⟩ := s1.setU (inBounds3.mpr ⟨hx, hy, hk⟩) (bell sdx ((p.1 : ℝ) - cx) *
            bell sdy ((p.2 : ℝ) - cy) * normal1D ((k : ℝ) - (cz : ℝ)) sdz)
          refine ⟨im2, ?_, s2.congr fun j hj => ?_⟩
          · rw [spl.at2u hx hy, Res.ok_bind, e2]
          · by_cases hjp : j = [p.1, p.2, k]
            · rw [if_pos hjp, if_pos hjp, hjp, normal1D_eq]; rfl
            · rw [if_neg hjp, if_neg hjp]) si
      classical
      refine ⟨im', by rw [epl]; exact e', s'.congr fun j hj => ?_⟩
      have hl := hj.length_eq
      match j, hl with
      | [x, y, z], _ =>
        obtain ⟨hx, hy, hz⟩ := inBounds3.mp hj
        simp only [List.getD_cons_zero, List.getD_cons_succ]
        by_cases hzk : z = k
        · subst hzk
          rw [if_pos ⟨(x, y), mem_iterYX.2 ⟨hx, hy⟩, rfl⟩, if_pos (by omega)]
        · rw [if_neg]
          · by_cases hlt : z < k
            · rw [if_pos hlt, if_pos (by omega)]
            · rw [if_neg hlt, if_neg (by omega)]
          · rintro ⟨p, _, hp⟩
            simp at hp
            exact hzk hp.2.2.symm)
    (ofSizes 0 [a, b, c]) (s0.congr (by simp))
  refine ⟨out, ?_, so.size, fun x y z hx hy hz => ?_⟩
  · rw [gaussianFigure3D, e, if_neg (by decide), Res.ok_bind]
    exact eo
  · rw [so.px _ (inBounds3.mpr ⟨hx, hy, hz⟩)]
    simp only [List.getD_cons_zero, List.getD_cons_succ]
    rw [if_pos hz]

/-- The hypotheses are met by a 5 × 4 (× 3) figure and the row-by-row order. -/
example : Covers (iterYX 5 4) 5 4 ∧ 5 * 4 * 3 < 2 ^ 64 ∧ (0.5 : ℝ) ^ 2 < 1 :=
  ⟨covers_iterYX 5 4, by decide, by norm_num⟩

end TinyDIP.Filter
