import Verif.Lemmas.Filter
import Verif.Lemmas.ShowsN
import Verif.Lemmas.SiftOri
import Verif.Props.Pixelwise

/-! # Lemmas on Gaussian figures -/

namespace TinyDIP.Filter

open TinyDIP Image Finset

/-- A loop that writes `g x y` and adds it to a running sum. -/
theorem loop_writeSum {w h : Nat} (g : Nat → Nat → ℝ) (body : Image ℝ × ℝ → Nat × Nat → Res (Image ℝ × ℝ))
    (l : List (Nat × Nat)) (hl : ∀ p ∈ l, p.1 < w ∧ p.2 < h)
    (hb : ∀ s p, p ∈ l → body s p = (do
      let out ← s.1.set2 p.1 p.2 (g p.1 p.2)
      .ok (out, s.2 + g p.1 p.2)))
    (im : Image ℝ) (t : ℝ) (f : Nat → Nat → ℝ) (s : im.Shows w h f) :
    ∃ out, pixFor l (fun im x y => im.set2 x y (g x y)) im = .ok out ∧
      loop body l (im, t) = .ok (out, t + (l.map fun p => g p.1 p.2).sum) := by
  induction l generalizing im t f with
  | nil => exact ⟨im, rfl, by simp [loop]⟩
  | cons p l ih =>
    obtain ⟨hx, hy⟩ := hl p (by simp)
    obtain ⟨im1, e1, s1⟩ := s.set2 hx hy (g p.1 p.2)
    obtain ⟨out, e2, e3⟩ := ih (fun q hq => hl q (by simp [hq])) (fun s q hq => hb s q (by simp [hq])) im1
      (t + g p.1 p.2) _ s1
    refine ⟨out, ?_, ?_⟩
    · unfold pixFor at e2 ⊢
      simp only [loop, e1, Res.ok_bind, e2]
    · simp only [loop, hb _ p (by simp), e1, Res.ok_bind, e3, List.map_cons, List.sum_cons, add_assoc]

theorem gaussianFigure2D_loop {n m : Nat} (hn : n < 2 ^ 64) (hm : m < 2 ^ 64) (hf : n * m < 2 ^ 64)
    (cx cy : Nat) (sdx sdy : ℝ) :
    ∃ out, out.Shows n m (fun x y => bell sdx ((x : ℝ) - cx) * bell sdy ((y : ℝ) - cy)) ∧
      ∀ b, gaussianFigure2D n m cx cy sdx sdy b =
        if b then dividesScalar (· / ·) out ((range m).sum fun y => (range n).sum fun x =>
          bell sdx ((x : ℝ) - cx) * bell sdy ((y : ℝ) - cy)) else .ok out := by
  obtain ⟨rx, ex, sx⟩ := gaussianFigure1D_shows hn cx sdx
  obtain ⟨ry, ey, sy⟩ := gaussianFigure1D_shows hm cy sdy
  obtain ⟨out, e1, e2⟩ := loop_writeSum (w := n) (h := m)
    (fun x y => bell sdx ((x : ℝ) - cx) * bell sdy ((y : ℝ) - cy))
    (fun (s : Image ℝ × ℝ) p => do
      let a ← rx.at2 p.1 0
      let b ← ry.at2 p.2 0
      let out ← s.1.set2 p.1 p.2 (a * b)
      .ok (out, s.2 + a * b)) (iterYX n m) (fun p hp => mem_iterYX.1 hp)
    (by
      intro s p hp
      obtain ⟨hx, hy⟩ : p.1 < n ∧ p.2 < m := mem_iterYX.1 hp
      rw [sx.px p.1 0 hx (by omega), sy.px p.2 0 hy (by omega)]
      simp only [Res.ok_bind])
    (ofSizes 0 [n, m]) 0 _ (ofSizes_shows 0 hn hm hf)
  obtain ⟨out', e3, s3⟩ := pixFor_fill (iterYX n m) (fun x _ => x) (fun _ y => y)
    (fun x y => bell sdx ((x : ℝ) - cx) * bell sdy ((y : ℝ) - cy))
    (fun im x y => im.set2 x y (bell sdx ((x : ℝ) - cx) * bell sdy ((y : ℝ) - cy)))
    (ofSizes_shows (0 : ℝ) hn hm hf)
    (by
      intro x y hp im f s
      obtain ⟨hx, hy⟩ : x < n ∧ y < m := mem_iterYX.1 hp
      exact s.set2 hx hy _)
    (fun a b ha hb => ⟨a, b, mem_iterYX.2 ⟨ha, hb⟩, rfl, rfl⟩)
  rw [e1] at e3
  have := Res.ok.inj e3
  subst this
  refine ⟨out, s3, fun b => ?_⟩
  rw [gaussianFigure2D, ex, Res.ok_bind, ey, Res.ok_bind, e2, Res.ok_bind, zero_add,
    Sift.iterYX_sum (fun x y => bell sdx ((x : ℝ) - cx) * bell sdy ((y : ℝ) - cy))]

theorem multipliesScalar_shows {im : Image ℝ} {w h : Nat} {f : Nat → Nat → ℝ} (s : im.Shows w h f)
    (h0 : 0 < w * h) (t : ℝ) :
    ∃ out, multipliesScalar (· * ·) 0 im t = .ok out ∧ out.Shows w h (fun x y => f x y * t) := by
  have hp : 0 < im.size.prod := by rw [s.size]; simpa using h0
  rw [Props.C09_multiplies_scalar _ _ _ im s.wf hp, pixelwiseTransform_ok _ s.wf hp]
  refine ⟨_, rfl, Image.Shows.of_data s.w_lt s.h_lt s.fits s.size (by simp [s.len]) ?_⟩
  intro x y hx hy
  rw [List.getElem?_map, s.data? hx hy]; rfl

end TinyDIP.Filter
