import Verif.Lemmas.Samples
import Verif.Lemmas.Transform
import Mathlib.Tactic.IntervalCases

/-!
# Properties C25 and C26: Fourier and cosine transforms

Real and complex numbers stand for the floating-point types (Model/Transform.lean).
-/

namespace TinyDIP.Props

open TinyDIP Image Finset

/-! ## C25 Fourier transform -/

/-- `dft2` computes the unitary discrete Fourier transform
`1/√(wh) Σ f(m, n) exp(-2πi (xm/w + yn/h))`. The bound on the sizes keeps the `size_t` products
`x * m` and `y * n` exact. -/
theorem C25_dft2_is_fourier (im : Image ℝ) (w h : Nat) (f : Nat → Nat → ℝ) (s : im.Shows w h f)
    (hw : w * w < 2 ^ 64) (hh : h * h < 2 ^ 64) :
    ∃ out, dft2 im = .ok out ∧ out.Shows w h (dftVal w h fun x y => (f x y : ℂ)) :=
  dft2_shows s hw hh

example := C25_dft2_is_fourier _ 3 2 _ (picture_shows 3 2 fun x y => ((x * y : Nat) : ℝ)) (by decide) (by decide)

theorem C25_idft2_is_inverse_fourier (im : Image ℂ) (w h : Nat) (f : Nat → Nat → ℂ)
    (s : im.Shows w h f) (hw : w * w < 2 ^ 64) (hh : h * h < 2 ^ 64) :
    ∃ out, idft2 im = .ok out ∧ out.Shows w h (idftVal w h f) :=
  idft2_shows s hw hh

example := C25_idft2_is_inverse_fourier _ 3 2 _ (picture_shows 3 2 fun x y => ((x * y : Nat) : ℂ)) (by decide) (by decide)

/-- The inverse transform of the transform is the image. -/
theorem C25_idft2_dft2 (im : Image ℝ) (w h : Nat) (f : Nat → Nat → ℝ) (s : im.Shows w h f)
    (hw : w * w < 2 ^ 64) (hh : h * h < 2 ^ 64) :
    ∃ F out, dft2 im = .ok F ∧ idft2 F = .ok out ∧ out.Shows w h (fun x y => (f x y : ℂ)) := by
  obtain ⟨F, e1, s1⟩ := dft2_shows s hw hh
  obtain ⟨out, e2, s2⟩ := idft2_shows s1 hw hh
  refine ⟨F, out, e1, e2, s2.congr ?_⟩
  intro x y hx hy
  exact idft_dft (by omega) (by omega) _ hx hy

example : (⟨[2, 2], [1, 2, 3, 4]⟩ : Image ℝ).Shows 2 2 (fun x y => 1 + x + 2 * y) ∧
    2 * 2 < 2 ^ 64 := by
  refine ⟨Image.Shows.of_data (by norm_num) (by norm_num) (by norm_num) rfl (by simp) ?_, by norm_num⟩
  intro x y hx hy
  interval_cases x <;> interval_cases y <;> norm_num

/-! ## C26 cosine transform -/

/-- A stack of two planes. -/
theorem stack_shows : StackShows [picture 3 2 fun x y => (x : ℝ) + y, picture 3 2 fun x y => (x : ℝ) * y] 3 2
    (fun z x y => if z = 0 then (x : ℝ) + y else (x : ℝ) * y) := by
  intro z hz
  obtain rfl | rfl : z = 0 ∨ z = 1 := by
    simp only [List.length_cons, List.length_nil] at hz; omega
  · exact ⟨_, rfl, by simpa using picture_shows 3 2 fun x y => (x : ℝ) + y⟩
  · exact ⟨_, rfl, by simpa using picture_shows 3 2 fun x y => (x : ℝ) * y⟩

/-- Every plane of `dct3` is the scaled cosine transform (`dctVal`, Spec/Transform.lean), whatever
the order in which its pixels are computed. -/
theorem C26_dct3_plane_is_cosine (l : List (Image ℝ)) (w h : Nat) (g : Nat → Nat → Nat → ℝ)
    (s : StackShows l w h g) (order : List (Nat × Nat)) (ho : order.Perm (iterYX w h)) (z : Nat)
    (hz : z < l.length) :
    ∃ out, dct3OnePlaneOrd order l z = .ok out ∧ out.Shows w h (dctVal w h l.length g z) :=
  dct3OnePlaneOrd_shows s order ho hz

example := C26_dct3_plane_is_cosine [picture 3 2 fun x y => (x : ℝ) + y, picture 3 2 fun x y => (x : ℝ) * y] 3 2 _
  stack_shows _ (List.reverse_perm _) 1 (by decide)

theorem C26_idct3_plane_is_expansion (l : List (Image ℝ)) (w h : Nat) (g : Nat → Nat → Nat → ℝ)
    (s : StackShows l w h g) (order : List (Nat × Nat)) (ho : order.Perm (iterYX w h)) (z : Nat)
    (hz : z < l.length) :
    ∃ out, idct3OnePlaneOrd order l z = .ok out ∧ out.Shows w h (idctVal w h l.length g z) :=
  idct3OnePlaneOrd_shows s order ho hz

example := C26_idct3_plane_is_expansion [picture 3 2 fun x y => (x : ℝ) + y, picture 3 2 fun x y => (x : ℝ) * y] 3 2 _
  stack_shows _ (List.reverse_perm _) 1 (by decide)

/-- `idct3(dct3(x)) = x` for every stack of equally sized planes. -/
theorem C26_idct3_dct3 (l : List (Image ℝ)) (w h : Nat) (g : Nat → Nat → Nat → ℝ)
    (s : StackShows l w h g) :
    ∃ F out, dct3 l = .ok F ∧ idct3 F = .ok out ∧ out.length = l.length ∧ StackShows out w h g := by
  obtain ⟨F, e1, l1, s1⟩ := stack_loop (l := l) (dct3OnePlane l) fun z hz => dct3OnePlane_shows s hz
  obtain ⟨out, e2, l2, s2⟩ := stack_loop (l := F) (idct3OnePlane F) fun z hz => idct3OnePlane_shows s1 hz
  refine ⟨F, out, e1, e2, by omega, ?_⟩
  intro z hz
  obtain ⟨im, ei, si⟩ := s2 z hz
  refine ⟨im, ei, si.congr ?_⟩
  intro x y hx hy
  rw [l1]
  exact idct_dct (by omega) (by omega) (by omega) g hx hy (by omega)

example := C26_idct3_dct3 _ 3 2 _ stack_shows

/-- `dct3(idct3(x)) = x`. -/
theorem C26_dct3_idct3 (l : List (Image ℝ)) (w h : Nat) (g : Nat → Nat → Nat → ℝ)
    (s : StackShows l w h g) :
    ∃ F out, idct3 l = .ok F ∧ dct3 F = .ok out ∧ out.length = l.length ∧ StackShows out w h g := by
  obtain ⟨F, e1, l1, s1⟩ := stack_loop (l := l) (idct3OnePlane l) fun z hz => idct3OnePlane_shows s hz
  obtain ⟨out, e2, l2, s2⟩ := stack_loop (l := F) (dct3OnePlane F) fun z hz => dct3OnePlane_shows s1 hz
  refine ⟨F, out, e1, e2, by omega, ?_⟩
  intro z hz
  obtain ⟨im, ei, si⟩ := s2 z hz
  refine ⟨im, ei, si.congr ?_⟩
  intro x y hx hy
  rw [l1]
  exact dct_idct (by omega) (by omega) (by omega) g hx hy (by omega)

example := C26_dct3_idct3 _ 3 2 _ stack_shows

/-- `idct2(dct2(x)) = x` for every non-empty image. -/
theorem C26_idct2_dct2 (im : Image ℝ) (w h : Nat) (f : Nat → Nat → ℝ) (s : im.Shows w h f)
    (hw : 0 < w) (hh : 0 < h) :
    ∃ F, dct2 im = .ok F ∧ idct2 F = .ok im := by
  obtain ⟨F, e1, s1⟩ := dct3OnePlane_shows (stack_one s) (z := 0) (by simp)
  obtain ⟨out, e2, s2⟩ := idct3OnePlane_shows (stack_one s1) (z := 0) (by simp)
  refine ⟨F, by rw [dct2, cast_id s hw hh, Res.ok_bind, e1], ?_⟩
  rw [idct2, cast_id s1 hw hh, Res.ok_bind, e2]
  congr 1
  refine s2.ext s ?_
  intro x y hx hy
  have := idct_dct hw hh (d := 1) (by omega) (fun _ => f) hx hy (z := 0) (by omega)
  rw [← this]
  unfold idctVal
  simp

example := C26_idct2_dct2 _ 3 2 _ (picture_shows 3 2 fun x y => ((x * y : Nat) : ℝ)) (by decide) (by decide)

/-- `dct2(idct2(x)) = x` for every non-empty image. -/
theorem C26_dct2_idct2 (im : Image ℝ) (w h : Nat) (f : Nat → Nat → ℝ) (s : im.Shows w h f)
    (hw : 0 < w) (hh : 0 < h) :
    ∃ F, idct2 im = .ok F ∧ dct2 F = .ok im := by
  obtain ⟨F, e1, s1⟩ := idct3OnePlane_shows (stack_one s) (z := 0) (by simp)
  obtain ⟨out, e2, s2⟩ := dct3OnePlane_shows (stack_one s1) (z := 0) (by simp)
  refine ⟨F, by rw [idct2, cast_id s hw hh, Res.ok_bind, e1], ?_⟩
  rw [dct2, cast_id s1 hw hh, Res.ok_bind, e2]
  congr 1
  refine s2.ext s ?_
  intro x y hx hy
  have := dct_idct hw hh (d := 1) (by omega) (fun _ => f) hx hy (z := 0) (by omega)
  rw [← this]
  unfold dctVal
  simp

/-- A stack of two planes meets the hypotheses. -/
example : StackShows [⟨[1, 2], [5, 6]⟩, ⟨[1, 2], [7, 8]⟩] 1 2 (fun z _ y => 5 + 2 * z + y) := by
  intro z hz
  have hz' : z < 2 := hz
  interval_cases z
  · refine ⟨_, rfl, Image.Shows.of_data (by norm_num) (by norm_num) (by norm_num) rfl (by simp) ?_⟩
    intro x y hx hy
    interval_cases x; interval_cases y <;> norm_num
  · refine ⟨_, rfl, Image.Shows.of_data (by norm_num) (by norm_num) (by norm_num) rfl (by simp) ?_⟩
    intro x y hx hy
    interval_cases x; interval_cases y <;> norm_num

end TinyDIP.Props
