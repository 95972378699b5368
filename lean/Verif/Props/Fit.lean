import Verif.Lemmas.Samples
import Verif.Lemmas.Fit
import Mathlib.Tactic.IntervalCases

/-!
# Property theorems: fitting and rendering two-dimensional Gaussians (C72, C99, C100)
-/

namespace TinyDIP.Fit

open TinyDIP

variable {w h : Nat} {f : Nat → Nat → ℝ} {im : Image ℝ}

/-- All reductions visit all pixels once, in any order. -/
def Fair (n : Nat) (order : List Nat) (orders : Nat → List Nat × List Nat) : Prop :=
  Covers n order ∧ ∀ i, Covers n (orders i).1 ∧ Covers n (orders i).2

/-! ## C72 -/

/-- The starting point (the result of zero iterations): amplitude and position of the first brightest
pixel; when that pixel is positive, the widths and correlation come from the second moments of the
pixels brighter than a tenth of it, otherwise they are 10, 10 and 0. Every quantity under a square
root is non-negative. -/
theorem C72_start (s : im.Shows w h f) (hn : 0 < w * h) (hlt : w * h < 2 ^ 31) (tol : ℝ)
    {order : List Nat} {orders : Nat → List Nat × List Nat} (ho : Fair (w * h) order orders) :
    ∃ p X Y, estimateGaussianParameters2d im 0 tol order orders = .ok p ∧ Proper p ∧
      X < w ∧ Y < h ∧ p.x0 = X ∧ p.y0 = Y ∧ p.amplitude = f X Y ∧
      (∀ x y, x < w → y < h → f x y ≤ f X Y) ∧
      (∀ x y, x < w → y < h → y < Y ∨ (y = Y ∧ x < X) → f x y < f X Y) ∧
      (f X Y ≤ 0 → p.sigma_x = 10 ∧ p.sigma_y = 10 ∧ p.rho = 0) ∧
      (0 < f X Y →
        let m := moment w h f (f X Y)
        let mass := m fun _ _ => 1
        let varX := m (fun x _ => ((x : ℝ) - X) ^ 2) / mass
        let varY := m (fun _ y => ((y : ℝ) - Y) ^ 2) / mass
        let cov := m (fun x y => ((x : ℝ) - X) * ((y : ℝ) - Y)) / mass
        0 < mass ∧ 0 ≤ varX ∧ 0 ≤ varY ∧
        p.sigma_x = max 1e-6 (Real.sqrt varX) ∧ p.sigma_y = max 1e-6 (Real.sqrt varY) ∧
        p.rho = max (-0.99) (min 0.99 (cov / (p.sigma_x * p.sigma_y)))) := by
  have hw : 0 < w := Nat.pos_of_mul_pos_right hn
  obtain ⟨m, em, hm, hmax, hfirst⟩ := maxIndex_spec (im := im) (fun i => f (i % w) (i / w)) hn
    (fun i hi => get_px s hi)
  have hX : m % w < w := Nat.mod_lt _ hw
  have hY : m / w < h := Nat.div_lt_of_lt_mul hm
  have hidx : ∀ x y, x < w → (x + w * y) % w = x ∧ (x + w * y) / w = y := by
    intro x y hx
    exact ⟨by rw [Nat.add_mul_mod_self_left, Nat.mod_eq_of_lt hx],
      by rw [Nat.add_mul_div_left _ _ hw, Nat.div_eq_of_lt hx, Nat.zero_add]⟩
  have hall : ∀ x y, x < w → y < h → f x y ≤ f (m % w) (m / w) := by
    intro x y hx hy
    have hlt' : x + w * y < w * h := by
      calc x + w * y < w + w * y := by omega
        _ = w * (y + 1) := by rw [Nat.mul_add]; omega
        _ ≤ w * h := Nat.mul_le_mul_left _ hy
    have := hmax _ hlt'
    simpa only [(hidx x y hx).1, (hidx x y hx).2] using this
  have hfst : ∀ x y, x < w → y < h → y < m / w ∨ (y = m / w ∧ x < m % w) →
      f x y < f (m % w) (m / w) := by
    intro x y hx hy hlt'
    have e := Nat.mod_add_div m w
    have : x + w * y < m := by
      rcases hlt' with h1 | ⟨h1, h2⟩
      · have : w * (y + 1) ≤ w * (m / w) := Nat.mul_le_mul_left _ h1
        rw [Nat.mul_add] at this
        omega
      · subst h1; omega
    have := hfirst _ this
    simpa only [(hidx x y hx).1, (hidx x y hx).2] using this
  have eg : im.get m = .ok (f (m % w) (m / w)) := get_px s hm
  have est : ∃ p, estimateGaussianParameters2d im 0 tol order orders = .ok p ∧
      p = ⟨f (m % w) (m / w), (m % w : Nat), (m / w : Nat), p.sigma_x, p.sigma_y, p.rho⟩ ∧
      p.sigma_x = max 1e-6 (open scoped Classical in
        if moment w h f (f (m % w) (m / w)) (fun _ _ => 1) > 0 then
          Real.sqrt (moment w h f (f (m % w) (m / w)) (fun x _ => ((x : ℝ) - (m % w : Nat)) ^ 2) /
            moment w h f (f (m % w) (m / w)) (fun _ _ => 1)) else 10) ∧
      p.sigma_y = max 1e-6 (open scoped Classical in
        if moment w h f (f (m % w) (m / w)) (fun _ _ => 1) > 0 then
          Real.sqrt (moment w h f (f (m % w) (m / w)) (fun _ y => ((y : ℝ) - (m / w : Nat)) ^ 2) /
            moment w h f (f (m % w) (m / w)) (fun _ _ => 1)) else 10) ∧
      p.rho = max (-0.99) (min 0.99 (open scoped Classical in
        if moment w h f (f (m % w) (m / w)) (fun _ _ => 1) > 0 then
          (moment w h f (f (m % w) (m / w)) (fun x y => ((x : ℝ) - (m % w : Nat)) *
            ((y : ℝ) - (m / w : Nat))) / moment w h f (f (m % w) (m / w)) (fun _ _ => 1)) /
            (p.sigma_x * p.sigma_y) else 0)) := by
    have hc : ¬ (w * h ≥ 2 ^ 31) := by omega
    simp only [estimateGaussianParameters2d, s.dim, ne_eq, not_true_eq_false, if_false, initialGuess,
      s.count, if_neg hc, em, Res.ok_bind, eg, umod, udiv, s.width, if_neg hw.ne',
      moments_eq s _ _ _ ho.1, lmLoop]
    exact ⟨_, rfl, rfl, rfl, rfl, rfl⟩
  obtain ⟨p, e, ep, esx, esy, er⟩ := est
  refine ⟨p, m % w, m / w, e, ⟨?_, ?_, ?_⟩, hX, hY, by rw [ep], by rw [ep], by rw [ep], hall, hfst,
    ?_, ?_⟩
  · rw [esx]; exact le_max_left _ _
  · rw [esy]; exact le_max_left _ _
  · rw [er]
    exact abs_le.2 ⟨le_trans (by norm_num) (le_max_left _ _),
      max_le (by norm_num) ((min_le_left _ _).trans (by norm_num))⟩
  · intro hA
    have hz := moment_zero hA (fun x y hx hy => hall x y hx hy) (fun _ _ => 1)
    rw [er, esx, esy, hz]
    simp only [gt_iff_lt, lt_irrefl, if_false]
    norm_num
  · intro hA
    have hpos := moment_pos hX hY hA
    refine ⟨hpos, div_nonneg (moment_nonneg hA.le _ fun _ _ => sq_nonneg _) hpos.le,
      div_nonneg (moment_nonneg hA.le _ fun _ _ => sq_nonneg _) hpos.le, ?_, ?_, ?_⟩
    · rw [esx, if_pos hpos]
    · rw [esy, if_pos hpos]
    · rw [er, if_pos hpos]

-- A 3 × 2 picture, with all reductions running backwards.
example := C72_start (picture_shows 3 2 fun x y => ((x * y : Nat) : ℝ)) (by decide) (by decide) 1e-7
  (order := (List.range 6).reverse) (orders := fun _ => ((List.range 6).reverse, (List.range 6).reverse))
  ⟨List.reverse_perm _, fun _ => ⟨List.reverse_perm _, List.reverse_perm _⟩⟩

/-- One iteration from any proper parameters and damping: the squared error is compared exactly; the
iteration stops, or the moved parameters are accepted with a strictly smaller squared error and are
proper again, or the parameters stay exactly as they are. -/
theorem C72_step (s : im.Shows w h f) {p : GaussianParameters2D} (hp : Proper p) (tol lam : ℝ)
    {o : List Nat × List Nat} (h1 : Covers (w * h) o.1) (h2 : Covers (w * h) o.2) :
    lmStep im tol o (p, lam) = .ok none ∨
    (∃ q, lmStep im tol o (p, lam) = .ok (some (q, lam / 10)) ∧ Proper q ∧
      squaredError w h f q < squaredError w h f p) ∨
    lmStep im tol o (p, lam) = .ok (some (p, lam * 10)) := by
  rw [lmStep_eq s hp tol lam h1 h2]
  split_ifs with a b
  · exact .inl rfl
  · exact .inr (.inl ⟨_, rfl, lmMove_proper _ _, b⟩)
  · exact .inr (.inr rfl)

example := C72_step (picture_shows 3 2 fun x y => ((x * y : Nat) : ℝ)) (p := ⟨2, 1, 1, 3, 4, 1 / 2⟩)
  ⟨by norm_num, by norm_num, by norm_num⟩ 1e-7 (1 / 1000) (o := ((List.range 6).reverse, List.range 6))
  (List.reverse_perm _) (List.Perm.refl _)

/-- The whole fit: for every non-empty image (of fewer than `2^31` pixels), iteration count and tolerance, under every
order of the reductions, it returns parameters with positive widths and correlation strictly between -1 and 1, which
are the starting point or have a strictly smaller squared error. Missing: images without pixels and larger ones, see
`C72_empty_violation` and `C72_large_violation`. -/
theorem C72_fit_partial (s : im.Shows w h f) (hn : 0 < w * h) (hlt : w * h < 2 ^ 31) (n : Nat) (tol : ℝ)
    {order : List Nat} {orders : Nat → List Nat × List Nat} (ho : Fair (w * h) order orders) :
    ∃ start p, estimateGaussianParameters2d im 0 tol order orders = .ok start ∧
      estimateGaussianParameters2d im n tol order orders = .ok p ∧
      1e-6 ≤ p.sigma_x ∧ 1e-6 ≤ p.sigma_y ∧ |p.rho| ≤ 0.999 ∧
      (p = start ∨ squaredError w h f p < squaredError w h f start) := by
  obtain ⟨p, _, _, e, hp, _⟩ := C72_start s hn hlt tol ho
  have hi : initialGuess im order = .ok p := by
    simp only [estimateGaussianParameters2d, s.dim, ne_eq, not_true_eq_false, if_false, lmLoop] at e
    cases hg : initialGuess im order <;> rw [hg] at e <;> simp at e
    rw [e]
  have en : estimateGaussianParameters2d im n tol order orders = .ok (run w h f tol n (p, 0.01)) := by
    simp only [estimateGaussianParameters2d, s.dim, ne_eq, not_true_eq_false, if_false, hi,
      Res.ok_bind]
    exact lmLoop_eq s tol orders ho.2 n 0 _ hp
  have hq := run_proper (w := w) (h := h) (f := f) tol n (p, 0.01) hp
  exact ⟨p, _, e, en, hq.sigma_x, hq.sigma_y, hq.rho, run_le tol n (p, 0.01)⟩

example := C72_fit_partial (picture_shows 3 2 fun x y => ((x * y : Nat) : ℝ)) (by decide) (by decide) 50 1e-7
  (order := (List.range 6).reverse) (orders := fun _ => ((List.range 6).reverse, (List.range 6).reverse))
  ⟨List.reverse_perm _, fun _ => ⟨List.reverse_perm _, List.reverse_perm _⟩⟩

theorem estimate_eq (s : im.Shows w h f) (hn : 0 < w * h) (hlt : w * h < 2 ^ 31) (tol : ℝ)
    {order : List Nat} {orders : Nat → List Nat × List Nat} (ho : Fair (w * h) order orders) :
    ∃ p, initialGuess im order = .ok p ∧ Proper p ∧ ∀ n,
      estimateGaussianParameters2d im n tol order orders = .ok (run w h f tol n (p, 0.01)) := by
  obtain ⟨p, _, _, e, hp, _⟩ := C72_start s hn hlt tol ho
  have hi : initialGuess im order = .ok p := by
    simp only [estimateGaussianParameters2d, s.dim, ne_eq, not_true_eq_false, if_false, lmLoop] at e
    cases hg : initialGuess im order <;> rw [hg] at e <;> simp at e
    rw [e]
  refine ⟨p, hi, hp, fun n => ?_⟩
  simp only [estimateGaussianParameters2d, s.dim, ne_eq, not_true_eq_false, if_false, hi,
    Res.ok_bind]
  exact lmLoop_eq s tol orders ho.2 n 0 _ hp

/-- One more allowed iteration gives the same parameters or a strictly smaller squared error. -/
theorem C72_more_iterations (s : im.Shows w h f) (hn : 0 < w * h) (hlt : w * h < 2 ^ 31) (n : Nat)
    (tol : ℝ) {order : List Nat} {orders : Nat → List Nat × List Nat}
    (ho : Fair (w * h) order orders) :
    ∃ p q, estimateGaussianParameters2d im n tol order orders = .ok p ∧
      estimateGaussianParameters2d im (n + 1) tol order orders = .ok q ∧
      (q = p ∨ squaredError w h f q < squaredError w h f p) := by
  obtain ⟨p, _, _, e⟩ := estimate_eq s hn hlt tol ho
  exact ⟨_, _, e n, e (n + 1), run_succ tol n (p, 0.01)⟩

example := C72_more_iterations (picture_shows 3 2 fun x y => ((x * y : Nat) : ℝ)) (by decide) (by decide) 12 1e-7
  (order := (List.range 6).reverse) (orders := fun _ => ((List.range 6).reverse, (List.range 6).reverse))
  ⟨List.reverse_perm _, fun _ => ⟨List.reverse_perm _, List.reverse_perm _⟩⟩

/-- The result does not depend on the order of the reductions. -/
theorem C72_schedule (s : im.Shows w h f) (hn : 0 < w * h) (hlt : w * h < 2 ^ 31) (n : Nat) (tol : ℝ)
    {order order' : List Nat} {orders orders' : Nat → List Nat × List Nat}
    (ho : Fair (w * h) order orders) (ho' : Fair (w * h) order' orders') :
    estimateGaussianParameters2d im n tol order orders =
      estimateGaussianParameters2d im n tol order' orders' := by
  obtain ⟨p, hi, _, e⟩ := estimate_eq s hn hlt tol ho
  obtain ⟨p', hi', _, e'⟩ := estimate_eq s hn hlt tol ho'
  have : initialGuess im order = initialGuess im order' := by
    simp only [initialGuess, moments_eq s _ _ _ ho.1, moments_eq s _ _ _ ho'.1]
  rw [hi, hi'] at this
  injection this with this
  rw [e n, e' n, this]

example := C72_schedule (picture_shows 3 2 fun x y => ((x * y : Nat) : ℝ)) (by decide) (by decide) 12 1e-7
  (order' := List.range 6) (orders' := fun _ => (List.range 6, List.range 6))
  (order := (List.range 6).reverse) (orders := fun _ => ((List.range 6).reverse, (List.range 6).reverse))
  ⟨List.reverse_perm _, fun _ => ⟨List.reverse_perm _, List.reverse_perm _⟩⟩
  ⟨List.Perm.refl _, fun _ => ⟨List.Perm.refl _, List.Perm.refl _⟩⟩

/-- An image that the starting point already reproduces exactly is fitted by the starting point. -/
theorem C72_perfect_start (s : im.Shows w h f) (hn : 0 < w * h) (hlt : w * h < 2 ^ 31) (n : Nat)
    (tol : ℝ) {order : List Nat} {orders : Nat → List Nat × List Nat}
    (ho : Fair (w * h) order orders) {start : GaussianParameters2D}
    (hs : estimateGaussianParameters2d im 0 tol order orders = .ok start)
    (hx : ∀ x y, x < w → y < h → f x y = gaussianAt start x y) :
    estimateGaussianParameters2d im n tol order orders = .ok start := by
  obtain ⟨st, p, e0, en, _, _, _, hor⟩ := C72_fit_partial s hn hlt n tol ho
  rw [hs] at e0
  injection e0 with e0
  subst e0
  rcases hor with rfl | hlt'
  · exact en
  · exfalso
    have h0 : squaredError w h f start = 0 := by
      unfold squaredError
      refine Finset.sum_eq_zero fun y hy => Finset.sum_eq_zero fun x hx' => ?_
      rw [hx x y (Finset.mem_range.1 hx') (Finset.mem_range.1 hy), sub_self]
      norm_num
    have h1 : 0 ≤ squaredError w h f p :=
      Finset.sum_nonneg fun _ _ => Finset.sum_nonneg fun _ _ => sq_nonneg _
    linarith

-- A black picture is a Gaussian of amplitude 0, and that is where the fit starts.
example (n : Nat) : ∃ start : GaussianParameters2D,
    estimateGaussianParameters2d (picture 3 2 fun _ _ => 0) n 1e-7 (List.range 6) (fun _ => (List.range 6, List.range 6))
      = .ok start := by
  obtain ⟨p, X, Y, e, -, -, -, -, -, ha, -⟩ := C72_start (picture_shows 3 2 fun _ _ => (0 : ℝ)) (by decide) (by decide)
    1e-7 (order := List.range 6) (orders := fun _ => (List.range 6, List.range 6))
    ⟨List.Perm.refl _, fun _ => ⟨List.Perm.refl _, List.Perm.refl _⟩⟩
  exact ⟨p, C72_perfect_start (picture_shows 3 2 fun _ _ => (0 : ℝ)) (by decide) (by decide) n 1e-7
    (order := List.range 6) (orders := fun _ => (List.range 6, List.range 6)) ⟨List.Perm.refl _, fun _ => ⟨List.Perm.refl _, List.Perm.refl _⟩⟩ e (fun x y _ _ => by simp [gaussianAt, ha])⟩

/-- An image that does not have two dimensions is rejected. -/
theorem C72_dimension (im : Image ℝ) (hd : im.dim ≠ 2) (n : Nat) (tol : ℝ) (order : List Nat)
    (orders : Nat → List Nat × List Nat) :
    estimateGaussianParameters2d im n tol order orders = .throw .invalidArg := by
  simp [estimateGaussianParameters2d, hd]

example := C72_dimension ⟨[1, 2, 1], [3, 4]⟩ (by decide) 9 1e-7 [0] fun _ => ([0], [0])

/-- On a two-dimensional image without pixels the call is undefined (the end iterator is
dereferenced) instead of throwing. -/
theorem C72_empty_violation (s : im.Shows w h f) (hn : w * h = 0) (n : Nat) (tol : ℝ)
    (order : List Nat) (orders : Nat → List Nat × List Nat) :
    estimateGaussianParameters2d im n tol order orders = .ub := by
  simp [estimateGaussianParameters2d, s.dim, initialGuess, s.count, hn, maxIndex]

/-- On an image of `2^31` or more pixels the call is undefined (the index counter is an `int`). -/
theorem C72_large_violation (s : im.Shows w h f) (hn : 2 ^ 31 ≤ w * h) (n : Nat) (tol : ℝ)
    (order : List Nat) (orders : Nat → List Nat × List Nat) :
    estimateGaussianParameters2d im n tol order orders = .ub := by
  have hn' : w * h ≥ 2 ^ 31 := hn
  simp only [estimateGaussianParameters2d, s.dim, ne_eq, not_true_eq_false, if_false, initialGuess,
    s.count, if_pos hn', Res.ub_bind]

/-- A witness: a 3×2 image, all orders ascending. -/
def demo : Image ℝ := Image.ofSizes 1 [3, 2]

theorem demo_shows : demo.Shows 3 2 (fun _ _ => 1) :=
  ofSizes_shows 1 (by norm_num) (by norm_num) (by norm_num)

theorem fair_range (n : Nat) : Fair n (List.range n) (fun _ => (List.range n, List.range n)) :=
  ⟨List.Perm.refl _, fun _ => ⟨List.Perm.refl _, List.Perm.refl _⟩⟩

example (n : Nat) : ∃ p, estimateGaussianParameters2d demo n 1e-7 (List.range 6)
    (fun _ => (List.range 6, List.range 6)) = .ok p := by
  obtain ⟨_, p, _, e, _⟩ := C72_fit_partial demo_shows (by norm_num) (by norm_num) n 1e-7 (fair_range 6)
  exact ⟨p, e⟩

example : ∃ im : Image ℝ, im.Shows 0 4 (fun _ _ => 0) :=
  ⟨_, ofSizes_shows 0 (by norm_num) (by norm_num) (by norm_num)⟩

/-! ## C99 -/

/-- The step of every iteration: with `d` the computed step, the iteration stops when `|d|² <
tolerance`, otherwise tries the limited parameters `p + d`. The step solves the damped normal
equations built from the true partial derivatives of the Gaussian, or is zero; a non-zero step is a
strict descent direction of the squared error. -/
theorem C99_step (s : im.Shows w h f) {p : GaussianParameters2D} (hp : Proper p) (tol lam : ℝ)
    (hl : 0 < lam) {o : List Nat × List Nat} (h1 : Covers (w * h) o.1) (h2 : Covers (w * h) o.2) :
    ∃ d : Nat → ℝ,
      lmStep im tol o (p, lam) = .ok (open scoped Classical in
        if ∑ i ∈ Finset.range 6, d i ^ 2 < tol then none
        else if squaredError w h f (limited (along p d 1)) < squaredError w h f p then
          some (limited (along p d 1), lam / 10)
        else some (p, lam * 10)) ∧
      (SolvesDamped w h f p lam d ∨ ∀ i, d i = 0) ∧
      ((∃ i < 6, d i ≠ 0) → ∃ slope < 0,
        HasDerivAt (fun t => squaredError w h f (along p d t)) slope 0) := by
  refine ⟨lmDelta (accOf w h f p) lam, ?_, lmDelta_spec hp lam, fun hne => ?_⟩
  · rw [lmStep_eq s hp tol lam h1 h2, deltaSq_eq, lmMove_eq]
  · rcases lmDelta_spec (w := w) (h := h) (f := f) hp lam with hs | hz
    · refine ⟨_, ?_, hasDerivAt_error f hp _⟩
      have hd := descent hl hs hne
      have e : ∑ i ∈ Finset.range 6, (accOf w h f p).g i * lmDelta (accOf w h f p) lam i =
          ∑ i ∈ Finset.range 6, normalRhs w h f p i * lmDelta (accOf w h f p) lam i :=
        Finset.sum_congr rfl fun i hi => by rw [accOf_g hp (Finset.mem_range.1 hi)]
      rw [e]
      linarith
    · obtain ⟨i, _, hi⟩ := hne
      exact absurd (hz i) hi

example := C99_step (picture_shows 3 2 fun x y => ((x * y : Nat) : ℝ)) (p := ⟨2, 1, 1, 3, 4, 1 / 2⟩)
  ⟨by norm_num, by norm_num, by norm_num⟩ 1e-7 (1 / 1000) (by norm_num) (o := ((List.range 6).reverse, List.range 6))
  (List.reverse_perm _) (List.Perm.refl _)

/-- At a stationary point of the squared error the step is zero, so with a positive tolerance the fit
stops there. -/
theorem C99_stationary (s : im.Shows w h f) {p : GaussianParameters2D} (hp : Proper p) (tol lam : ℝ)
    (ht : 0 < tol) (hl : 0 < lam) {o : List Nat × List Nat} (h1 : Covers (w * h) o.1)
    (h2 : Covers (w * h) o.2)
    (hst : ∀ d, HasDerivAt (fun t => squaredError w h f (along p d t)) 0 0) :
    lmStep im tol o (p, lam) = .ok none := by
  obtain ⟨d, e, _, hd⟩ := C99_step s hp tol lam hl h1 h2
  have hz : ∀ i < 6, d i = 0 := by
    by_contra hc
    push Not at hc
    obtain ⟨slope, hneg, hs⟩ := hd hc
    have := hs.unique (hst d)
    linarith
  rw [e, if_pos]
  rw [Finset.sum_eq_zero fun i hi => by rw [hz i (Finset.mem_range.1 hi)]; norm_num]
  exact ht

-- A picture which is the Gaussian itself.
example := C99_stationary (picture_shows 3 2 fun x y => gaussianAt ⟨2, 1, 1, 3, 4, 1 / 2⟩ x y)
  (p := ⟨2, 1, 1, 3, 4, 1 / 2⟩) ⟨by norm_num, by norm_num, by norm_num⟩ 1e-7 (1 / 1000) (by norm_num) (by norm_num)
  (o := ((List.range 6).reverse, List.range 6)) (List.reverse_perm _) (List.Perm.refl _)
  (fun d => (hasDerivAt_error _ ⟨by norm_num, by norm_num, by norm_num⟩ d).congr_deriv (by simp [accOf]))

/-- The partial derivatives exist: moving along any direction changes the Gaussian at the rate of the
combination of its partial derivatives, which are the ones the normal equations use. -/
theorem C99_jacobian {p : GaussianParameters2D} (hp : Proper p) (d : Nat → ℝ) (x y : ℝ) :
    HasDerivAt (fun t => gaussianAt (along p d t) x y)
      (∑ i ∈ Finset.range 6, partialAt p x y i * d i) 0 := by
  refine (hasDerivAt_gaussian hp d x y).congr_deriv ?_
  exact Finset.sum_congr rfl fun i hi => by rw [partialAt_eq hp _ _ (Finset.mem_range.1 hi)]

/-- A witness: on the 1×1 image with value 5, from amplitude 1 and damping 1, the damped normal
equations have the non-zero solution 2 for the amplitude. -/
def demoP : GaussianParameters2D := ⟨1, 0, 0, 1, 1, 0⟩

theorem demoP_proper : Proper demoP := ⟨by norm_num [demoP], by norm_num [demoP], by norm_num [demoP]⟩

example : SolvesDamped 1 1 (fun _ _ => 5) demoP 1 (fun i => if i = 0 then 2 else 0) := by
  have hJ : ∀ i < 6, partialAt demoP ((0 : Nat) : ℝ) ((0 : Nat) : ℝ) i = if i = 0 then 1 else 0 := by
    intro i hi
    rw [partialAt_eq demoP_proper _ _ hi]
    interval_cases i <;> simp [lmJ, lmExp, lmZ, demoP]
  have hG : gaussianAt demoP ((0 : Nat) : ℝ) ((0 : Nat) : ℝ) = 1 := by simp [gaussianAt, demoP]
  have hN : ∀ i < 6, ∀ j < 6, normalMatrix 1 1 demoP i j = if i = 0 ∧ j = 0 then 1 else 0 := by
    intro i hi j hj
    simp only [normalMatrix, Finset.sum_range_one, hJ i hi, hJ j hj]
    by_cases a : i = 0 <;> by_cases b : j = 0 <;> simp [a, b]
  intro i hi
  have e : ∀ j ∈ Finset.range 6, normalMatrix 1 1 demoP i j * (if j = 0 then (2 : ℝ) else 0) =
      if j = 0 then (if i = 0 then 2 else 0) else 0 := by
    intro j hj
    rw [hN i hi j (Finset.mem_range.1 hj)]
    by_cases a : i = 0 <;> by_cases b : j = 0 <;> simp [a, b]
  rw [Finset.sum_congr rfl e, hN i hi i hi]
  simp only [normalRhs, Finset.sum_range_one, hJ i hi, hG]
  by_cases a : i = 0
  · subst a; norm_num
  · simp [a]

/-! ## C100 -/

/-- Rendering: for positive widths and correlation strictly between -1 and 1, in every order of the rows, the image
shows at every pixel the bivariate normal density with the given centre, widths and correlation, times
`normalize_factor_input`. The amplitude of the parameters plays no part. Missing: the amplitude, see
`C100_amplitude_violation`. -/
theorem C100_render_partial {xsize ysize : Nat} (hx : xsize < 2 ^ 64) (hy : ysize < 2 ^ 64)
    (hxy : xsize * ysize < 2 ^ 64) (p : GaussianParameters2D) (hsx : 0 < p.sigma_x)
    (hsy : 0 < p.sigma_y) (hr : p.rho ^ 2 < 1) (nf : ℝ) {rows : List Nat}
    (hrows : rows.Perm (List.range ysize)) :
    ∃ out, gaussianFigure2D rows xsize ysize p nf = .ok out ∧
      out.Shows xsize ysize fun x y =>
        gaussianAt { p with amplitude :=
          nf / (2 * Real.pi * p.sigma_x * p.sigma_y * Real.sqrt (1 - p.rho ^ 2)) } x y := by
  let g : Nat → Nat → ℝ := fun x y =>
    gaussianAt { p with amplitude :=
      nf / (2 * Real.pi * p.sigma_x * p.sigma_y * Real.sqrt (1 - p.rho ^ 2)) } x y
  have hval : ∀ x y : Nat,
      nf / (2 * Real.pi * p.sigma_x * p.sigma_y * Real.sqrt (1 - p.rho ^ 2)) *
        Real.exp ((-1) / (2 * (p.sigma_x * p.sigma_x) * (p.sigma_y * p.sigma_y) * (1 - p.rho ^ 2)) *
          ((p.sigma_y * p.sigma_y) * (((x : ℝ) - p.x0) * ((x : ℝ) - p.x0)) -
            (2 * p.rho * p.sigma_x * p.sigma_y * ((x : ℝ) - p.x0) * ((y : ℝ) - p.y0)) +
            (p.sigma_x * p.sigma_x) * (((y : ℝ) - p.y0) * ((y : ℝ) - p.y0)))) = g x y := by
    intro x y
    simp only [g, gaussianAt]
    congr 2
    have a := hsx.ne'
    have b := hsy.ne'
    have c : (1 : ℝ) - p.rho ^ 2 ≠ 0 := by linarith
    generalize (1 : ℝ) - p.rho ^ 2 = r at c ⊢
    field_simp
  unfold gaussianFigure2D
  simp only [hval]
  have row : ∀ (y : Nat), y < ysize → ∀ (im : Image ℝ) f, im.Shows xsize ysize f →
      ∃ im', forUp xsize (fun output x => output.setAt [x, y] (g x y)) im = .ok im' ∧
        im'.Shows xsize ysize (fun a b => if b = y then g a b else f a b) := by
    intro y hy im f hs
    obtain ⟨im', e, s'⟩ := loop_write (fun x => (x, y)) g
      (fun output x => output.setAt [x, y] (g x y)) (List.range xsize)
      (fun x hx im f hs => hs.set2 (List.mem_range.1 hx) hy _) im f hs
    refine ⟨im', e, s'.congr fun a b ha hb => ?_⟩
    by_cases hby : b = y
    · subst hby
      simp [ha]
    · have : ¬ ∃ x ∈ List.range xsize, (x, y) = (a, b) := by
        rintro ⟨x, _, hxy⟩
        simp at hxy
        exact hby hxy.2.symm
      rw [if_neg this, if_neg hby]
  have rowsL : ∀ (l : List Nat), (∀ y ∈ l, y < ysize) → ∀ (im : Image ℝ) f, im.Shows xsize ysize f →
      ∃ im', loop (fun output y => forUp xsize (fun output x => output.setAt [x, y] (g x y)) output)
        l im = .ok im' ∧ im'.Shows xsize ysize (fun a b => if b ∈ l then g a b else f a b) := by
    intro l
    induction l with
    | nil => intro _ im f hs; exact ⟨im, rfl, by simpa using hs⟩
    | cons y l ih =>
      intro hl im f hs
      obtain ⟨im1, e1, s1⟩ := row y (hl y (by simp)) im f hs
      obtain ⟨im2, e2, s2⟩ := ih (fun z hz => hl z (by simp [hz])) im1 _ s1
      refine ⟨im2, by simp only [loop, e1, e2], s2.congr fun a b _ _ => ?_⟩
      by_cases h1 : b ∈ l <;> by_cases h2 : b = y <;> simp [h1, h2]
  obtain ⟨im', e, s'⟩ := rowsL rows (fun y hy => by simpa using hrows.mem_iff.1 hy) _ _
    (ofSizes_shows (0 : ℝ) hx hy hxy)
  refine ⟨im', e, s'.congr fun a b _ hb => ?_⟩
  rw [if_pos (hrows.mem_iff.2 (List.mem_range.2 hb))]

example := C100_render_partial (xsize := 3) (ysize := 2) (by decide) (by decide) (by decide) ⟨2, 1, 1, 3, 4, 1 / 2⟩
  (by norm_num) (by norm_num) (by norm_num) 1 (rows := [1, 0]) (by decide)

/-- Rendering the parameters of a fit does not reproduce the fitted surface: the amplitude is
ignored. Parameters that differ only in their amplitude are rendered alike, so the peak of the image
is not the amplitude. -/
theorem C100_amplitude_violation (rows : List Nat) (xsize ysize : Nat) (p : GaussianParameters2D)
    (a nf : ℝ) :
    gaussianFigure2D rows xsize ysize { p with amplitude := a } nf =
      gaussianFigure2D rows xsize ysize p nf := rfl

/-- The peak value shown for amplitude 1 and unit widths is `1 / (2 π)`, not 1. -/
theorem C100_peak_violation : ∃ out, gaussianFigure2D [0] 1 1 demoP 1 = .ok out ∧
    out.at2 0 0 = .ok (1 / (2 * Real.pi)) ∧ gaussianAt demoP 0 0 = 1 ∧ 1 / (2 * Real.pi) ≠ 1 := by
  obtain ⟨out, e, s⟩ := C100_render_partial (xsize := 1) (ysize := 1) (by norm_num) (by norm_num)
    (by norm_num) demoP (by norm_num [demoP]) (by norm_num [demoP]) (by norm_num [demoP]) 1
    (rows := [0]) (by simp)
  refine ⟨out, e, ?_, by simp [gaussianAt, demoP], ?_⟩
  · rw [s.px 0 0 (by omega) (by omega)]
    simp [gaussianAt, demoP]
  · have := Real.pi_gt_three
    intro h
    rw [div_eq_iff (by positivity)] at h
    linarith

end TinyDIP.Fit
