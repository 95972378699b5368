import Verif.Spec.Fit
import Verif.Lemmas.Image
import Verif.Lemmas.Loop
import Verif.Lemmas.Conv
import Verif.Props.LinAlg
import Mathlib.Analysis.SpecialFunctions.ExpDeriv
import Mathlib.Analysis.Calculus.Deriv.Mul
import Mathlib.Analysis.Calculus.Deriv.Inv
import Mathlib.Analysis.Calculus.Deriv.Pow
import Mathlib.Analysis.Calculus.Deriv.Add
import Mathlib.Algebra.BigOperators.Field
import Mathlib.Tactic.FieldSimp
import Mathlib.Tactic.Ring
import Mathlib.Tactic.Linarith
import Mathlib.Tactic.NormNum
import Mathlib.Tactic.Positivity

namespace TinyDIP.Fit

open TinyDIP

theorem Proper.sx_pos {p : GaussianParameters2D} (hp : Proper p) : 0 < p.sigma_x :=
  lt_of_lt_of_le (by norm_num) hp.sigma_x
theorem Proper.sy_pos {p : GaussianParameters2D} (hp : Proper p) : 0 < p.sigma_y :=
  lt_of_lt_of_le (by norm_num) hp.sigma_y
theorem Proper.one_sub {p : GaussianParameters2D} (hp : Proper p) : 0 < 1 - p.rho ^ 2 := by
  have h := abs_le.1 hp.rho
  have h1 : p.rho ≤ 0.999 := h.2
  have h2 : -0.999 ≤ p.rho := h.1
  norm_num at h1 h2
  nlinarith

theorem lmVal_eq {p : GaussianParameters2D} (hp : Proper p) (x y : ℝ) :
    lmVal p (x - p.x0) (y - p.y0) = gaussianAt p x y := by
  have h1 := hp.sx_pos.ne'
  have h2 := hp.sy_pos.ne'
  have h3 := hp.one_sub.ne'
  unfold lmVal lmExp gaussianAt lmW lmZ
  congr 2
  rw [show (1 : ℝ) - p.rho * p.rho = 1 - p.rho ^ 2 by ring]
  generalize 1 - p.rho ^ 2 = r at h3 ⊢
  norm_num
  field_simp
  ring

theorem get_px {im : Image ℝ} {w h : Nat} {f : Nat → Nat → ℝ} (s : im.Shows w h f) {i : Nat}
    (hi : i < w * h) : im.get i = .ok (f (i % w) (i / w)) := by
  have hw : 0 < w := by
    rcases Nat.eq_zero_or_pos w with h0 | h0
    · subst h0; simp at hi
    · exact h0
  have hx : i % w < w := Nat.mod_lt _ hw
  have hy : i / w < h := Nat.div_lt_of_lt_mul hi
  have := s.data? hx hy
  rw [Nat.mod_add_div] at this
  simp [Image.get, vget, this]

theorem offset_px {w h : Nat} {i : Nat} (hi : i < w * h) (p : GaussianParameters2D) :
    offset w i p = .ok (((i % w : Nat) : ℝ) - p.x0, ((i / w : Nat) : ℝ) - p.y0) := by
  have hw : w ≠ 0 := by rintro rfl; simp at hi
  simp [offset, umod, udiv, hw]

/-- Sums over all indices, as sums over rows and columns. -/
theorem sum_idx {M : Type} [AddCommMonoid M] (w h : Nat) (g : Nat → Nat → M) :
    ∑ i ∈ Finset.range (w * h), g (i % w) (i / w) =
      ∑ y ∈ Finset.range h, ∑ x ∈ Finset.range w, g x y := by
  rcases Nat.eq_zero_or_pos w with rfl | hw
  · simp
  induction h with
  | zero => simp
  | succ h ih =>
    rw [Nat.mul_succ, Finset.sum_range_add, ih, Finset.sum_range_succ]
    congr 1
    refine Finset.sum_congr rfl fun x hx => ?_
    rw [Finset.mem_range] at hx
    rw [Nat.mul_add_mod, Nat.mod_eq_of_lt hx, Nat.mul_add_div hw, Nat.div_eq_of_lt hx, Nat.add_zero]

theorem sum_order {M : Type} [AddCommMonoid M] {w h : Nat} {order : List Nat}
    (ho : Covers (w * h) order) (g : Nat → Nat → M) :
    (order.map fun i => g (i % w) (i / w)).sum =
      ∑ y ∈ Finset.range h, ∑ x ∈ Finset.range w, g x y := by
  rw [(ho.map _).sum_eq, sum_map_range, sum_idx]

theorem Covers.lt {n : Nat} {order : List Nat} (ho : Covers n order) {i : Nat} (hi : i ∈ order) :
    i < n := by simpa using ho.mem_iff.1 hi

theorem sseReduce_eq {im : Image ℝ} {w h : Nat} {f : Nat → Nat → ℝ} (s : im.Shows w h f)
    {p : GaussianParameters2D} (hp : Proper p) {order : List Nat} (ho : Covers (w * h) order) :
    sseReduce im p order = .ok (squaredError w h f p) := by
  unfold sseReduce
  rw [loop_sum (fun i => (f (i % w) (i / w) - gaussianAt p (i % w : Nat) (i / w : Nat)) ^ 2)]
  · rw [sum_order ho (fun x y => (f x y - gaussianAt p x y) ^ 2), zero_add]; rfl
  · intro i hi t
    have hi' := ho.lt hi
    simp only [sseMapper, s.width, offset_px hi', get_px s hi', Res.ok_bind, lmVal_eq hp]
    rw [pow_two]

/-- The sums of the accumulator, as sums over the pixels. -/
noncomputable def accOf (w h : Nat) (f : Nat → Nat → ℝ) (p : GaussianParameters2D) : LMAccumulator :=
  ⟨squaredError w h f p,
    fun i j => ∑ y ∈ Finset.range h, ∑ x ∈ Finset.range w,
      lmJ p (x - p.x0) (y - p.y0) i * lmJ p (x - p.x0) (y - p.y0) j,
    fun i => ∑ y ∈ Finset.range h, ∑ x ∈ Finset.range w,
      lmJ p (x - p.x0) (y - p.y0) i * (f x y - gaussianAt p x y)⟩

theorem loop_acc (body : LMAccumulator → Nat → Res LMAccumulator) (m : Nat → LMAccumulator)
    (l : List Nat) (hb : ∀ b ∈ l, ∀ s, body s b = .ok (s.add (m b))) (s : LMAccumulator) :
    loop body l s = .ok ⟨s.sse + (l.map fun b => (m b).sse).sum,
      fun i j => s.H i j + (l.map fun b => (m b).H i j).sum,
      fun i => s.g i + (l.map fun b => (m b).g i).sum⟩ := by
  induction l generalizing s with
  | nil => simp [loop]
  | cons b bs ih =>
    simp only [loop, hb b (by simp) s, ih (fun b hb' => hb b (by simp [hb'])), List.map_cons,
      List.sum_cons, LMAccumulator.add, add_assoc]

theorem lmReduce_eq {im : Image ℝ} {w h : Nat} {f : Nat → Nat → ℝ} (s : im.Shows w h f)
    {p : GaussianParameters2D} (hp : Proper p) {order : List Nat} (ho : Covers (w * h) order) :
    lmReduce im p order = .ok (accOf w h f p) := by
  let J : Nat → Nat → Nat → ℝ := fun x y => lmJ p ((x : ℝ) - p.x0) ((y : ℝ) - p.y0)
  let r : Nat → Nat → ℝ := fun x y => f x y - gaussianAt p x y
  unfold lmReduce
  rw [loop_acc _ (fun k => ⟨r (k % w) (k / w) ^ 2,
    fun i j => J (k % w) (k / w) i * J (k % w) (k / w) j,
    fun i => J (k % w) (k / w) i * r (k % w) (k / w)⟩)]
  · refine congrArg Res.ok ?_
    simp only [LMAccumulator.zero, zero_add]
    unfold accOf
    congr 1
    · exact sum_order ho (fun x y => r x y ^ 2)
    · funext i j; exact sum_order ho (fun x y => J x y i * J x y j)
    · funext i; exact sum_order ho (fun x y => J x y i * r x y)
  · intro i hi t
    have hi' := ho.lt hi
    simp only [lmMapper, s.width, offset_px hi', get_px s hi', Res.ok_bind, lmVal_eq hp]
    rw [← pow_two]

theorem lmMove_proper (p : GaussianParameters2D) (d : Nat → ℝ) : Proper (lmMove p d) := by
  refine ⟨le_max_left _ _, le_max_left _ _, abs_le.2 ⟨le_max_left _ _, max_le (by norm_num) (min_le_left _ _)⟩⟩

/-- What one iteration does. -/
theorem lmStep_eq {im : Image ℝ} {w h : Nat} {f : Nat → Nat → ℝ} (s : im.Shows w h f)
    {p : GaussianParameters2D} (hp : Proper p) (tol lam : ℝ) {o : List Nat × List Nat}
    (h1 : Covers (w * h) o.1) (h2 : Covers (w * h) o.2) :
    lmStep im tol o (p, lam) = .ok (
      open scoped Classical in
      if deltaSq (lmDelta (accOf w h f p) lam) < tol then none
      else if squaredError w h f (lmMove p (lmDelta (accOf w h f p) lam)) < squaredError w h f p then
        some (lmMove p (lmDelta (accOf w h f p) lam), lam / 10)
      else some (p, lam * 10)) := by
  unfold lmStep
  simp only [lmReduce_eq s hp h1, Res.ok_bind]
  split
  · rfl
  · rw [sseReduce_eq s (lmMove_proper _ _) h2, Res.ok_bind]
    split <;> rename_i hh <;> simp only [accOf] at hh ⊢ <;> simp only [hh, if_true, if_false]

/-- The loop, in terms of the pixels. -/
noncomputable def run (w h : Nat) (f : Nat → Nat → ℝ) (tol : ℝ) :
    Nat → GaussianParameters2D × ℝ → GaussianParameters2D
  | 0, s => s.1
  | n + 1, s =>
    open scoped Classical in
    if deltaSq (lmDelta (accOf w h f s.1) s.2) < tol then s.1
    else if squaredError w h f (lmMove s.1 (lmDelta (accOf w h f s.1) s.2)) < squaredError w h f s.1
      then run w h f tol n (lmMove s.1 (lmDelta (accOf w h f s.1) s.2), s.2 / 10)
      else run w h f tol n (s.1, s.2 * 10)

theorem lmLoop_eq {im : Image ℝ} {w h : Nat} {f : Nat → Nat → ℝ} (s : im.Shows w h f) (tol : ℝ)
    (orders : Nat → List Nat × List Nat)
    (ho : ∀ i, Covers (w * h) (orders i).1 ∧ Covers (w * h) (orders i).2) (n k : Nat)
    (st : GaussianParameters2D × ℝ) (hp : Proper st.1) :
    lmLoop im tol orders n k st = .ok (run w h f tol n st) := by
  induction n generalizing k st with
  | zero => rfl
  | succ n ih =>
    obtain ⟨p, lam⟩ := st
    simp only [lmLoop, run]
    rw [lmStep_eq s hp tol lam (ho k).1 (ho k).2, Res.ok_bind]
    split
    · rename_i h1
      split at h1
      · rename_i h2; rw [if_pos h2]
      · split at h1 <;> exact absurd h1 (by simp)
    · rename_i s' h1
      split at h1
      · exact absurd h1 (by simp)
      · rename_i h2
        rw [if_neg h2]
        split at h1
        · rename_i h3
          rw [if_pos h3]
          injection h1 with h1
          subst h1
          exact ih _ _ (lmMove_proper _ _)
        · rename_i h3
          rw [if_neg h3]
          injection h1 with h1
          subst h1
          exact ih _ _ hp

theorem run_proper {w h : Nat} {f : Nat → Nat → ℝ} (tol : ℝ) (n : Nat)
    (st : GaussianParameters2D × ℝ) (hp : Proper st.1) : Proper (run w h f tol n st) := by
  induction n generalizing st with
  | zero => exact hp
  | succ n ih =>
    simp only [run]
    split
    · exact hp
    · split
      · exact ih _ (lmMove_proper _ _)
      · exact ih _ hp

theorem run_le {w h : Nat} {f : Nat → Nat → ℝ} (tol : ℝ) (n : Nat)
    (st : GaussianParameters2D × ℝ) :
    run w h f tol n st = st.1 ∨
      squaredError w h f (run w h f tol n st) < squaredError w h f st.1 := by
  induction n generalizing st with
  | zero => exact .inl rfl
  | succ n ih =>
    simp only [run]
    split
    · exact .inl rfl
    · split
      · rename_i h1
        right
        rcases ih (lmMove st.1 (lmDelta (accOf w h f st.1) st.2), st.2 / 10) with e | e
        · rw [e]; exact h1
        · exact e.trans h1
      · exact ih (st.1, st.2 * 10)

theorem run_succ {w h : Nat} {f : Nat → Nat → ℝ} (tol : ℝ) (n : Nat)
    (st : GaussianParameters2D × ℝ) :
    run w h f tol (n + 1) st = run w h f tol n st ∨
      squaredError w h f (run w h f tol (n + 1) st) < squaredError w h f (run w h f tol n st) := by
  induction n generalizing st with
  | zero => exact run_le tol 1 st
  | succ n ih =>
    rw [run]
    conv => lhs; rhs; rw [run]
    conv => rhs; rhs; arg 4; rw [run]
    split
    · exact .inl rfl
    · split
      · exact ih _
      · exact ih _

/-! ### The starting point -/

theorem maxIndex_spec {im : Image ℝ} {n : Nat} (v : Nat → ℝ) (hn : 0 < n)
    (hg : ∀ i < n, im.get i = .ok (v i)) :
    ∃ m, maxIndex im (List.range n) = .ok m ∧ m < n ∧ (∀ i < n, v i ≤ v m) ∧ ∀ i < m, v i < v m := by
  obtain ⟨k, rfl⟩ : ∃ k, n = k + 1 := ⟨n - 1, by omega⟩
  rw [List.range_eq_range', List.range'_succ]
  simp only [maxIndex]
  have key : ∀ (c a b : Nat), a < b → b + c = k + 1 → (∀ i < b, v i ≤ v a) → (∀ i < a, v i < v a) →
      ∃ m, loop (fun best j => do
        let a ← im.get best
        let b ← im.get j
        .ok (open scoped Classical in if a < b then j else best)) (List.range' b c) a = Res.ok m ∧
        m < k + 1 ∧ (∀ i < k + 1, v i ≤ v m) ∧ ∀ i < m, v i < v m := by
    intro c
    induction c with
    | zero =>
      intro a b hab hb h1 h2
      exact ⟨a, rfl, by omega, fun i hi => h1 i (by omega), h2⟩
    | succ c ih =>
      intro a b hab hb h1 h2
      rw [List.range'_succ]
      simp only [loop, hg a (by omega), hg b (by omega), Res.ok_bind]
      split_ifs with hlt
      · refine ih b (b + 1) (by omega) (by omega) (fun i hi => ?_) (fun i hi => ?_)
        · rcases Nat.lt_or_ge i b with hi' | hi'
          · exact (h1 i hi').trans hlt.le
          · obtain rfl : i = b := by omega
            exact le_rfl
        · exact lt_of_le_of_lt (h1 i hi) hlt
      · refine ih a (b + 1) (by omega) (by omega) (fun i hi => ?_) h2
        rcases Nat.lt_or_ge i b with hi' | hi'
        · exact h1 i hi'
        · obtain rfl : i = b := by omega
          exact not_lt.1 hlt
  have := key k 0 1 (by omega) (by omega) (fun i hi => by
    obtain rfl : i = 0 := by omega
    exact le_rfl) (fun i hi => by omega)
  exact this

theorem moments_loop (body : Moments → Nat → Res Moments) (m : Nat → Moments) (l : List Nat)
    (hb : ∀ b ∈ l, ∀ s : Moments, body s b = .ok ⟨s.z + (m b).z, s.dx2 + (m b).dx2,
      s.dy2 + (m b).dy2, s.dxdy + (m b).dxdy⟩) (s : Moments) :
    loop body l s = .ok ⟨s.z + (l.map fun b => (m b).z).sum, s.dx2 + (l.map fun b => (m b).dx2).sum,
      s.dy2 + (l.map fun b => (m b).dy2).sum, s.dxdy + (l.map fun b => (m b).dxdy).sum⟩ := by
  induction l generalizing s with
  | nil => simp [loop]
  | cons b bs ih =>
    simp only [loop, hb b (by simp) s, ih (fun b hb' => hb b (by simp [hb'])), List.map_cons,
      List.sum_cons, add_assoc]

theorem moments_eq {im : Image ℝ} {w h : Nat} {f : Nat → Nat → ℝ} (s : im.Shows w h f)
    (A x0 y0 : ℝ) {order : List Nat} (ho : Covers (w * h) order) :
    moments im A x0 y0 order = .ok ⟨moment w h f A (fun _ _ => 1),
      moment w h f A (fun x _ => ((x : ℝ) - x0) ^ 2), moment w h f A (fun _ y => ((y : ℝ) - y0) ^ 2),
      moment w h f A (fun x y => ((x : ℝ) - x0) * ((y : ℝ) - y0))⟩ := by
  classical
  let t : (Nat → Nat → ℝ) → Nat → Nat → ℝ := fun g x y =>
    if A / 10 < f x y then g x y * f x y else 0
  unfold moments
  rw [moments_loop _ (fun k => ⟨t (fun _ _ => 1) (k % w) (k / w),
    t (fun x _ => ((x : ℝ) - x0) ^ 2) (k % w) (k / w),
    t (fun _ y => ((y : ℝ) - y0) ^ 2) (k % w) (k / w),
    t (fun x y => ((x : ℝ) - x0) * ((y : ℝ) - y0)) (k % w) (k / w)⟩)]
  · refine congrArg Res.ok ?_
    simp only [zero_add]
    have e : ∀ g : Nat → Nat → ℝ, moment w h f A g =
        (order.map fun i => t g (i % w) (i / w)).sum := by
      intro g
      rw [sum_order ho (t g)]
      unfold moment
      refine Finset.sum_congr rfl fun y _ => Finset.sum_congr rfl fun x _ => ?_
      simp only [t]
    simp only [e]
  · intro i hi q
    have hi' := ho.lt hi
    have hw : w ≠ 0 := by rintro rfl; simp at hi'
    simp only [get_px s hi', Res.ok_bind, umod, udiv, s.width, if_neg hw, t]
    have e : A * 0.1 = A / 10 := by norm_num; ring
    rw [e]
    by_cases hc : A / 10 < f (i % w) (i / w)
    · simp only [gt_iff_lt, if_pos hc, one_mul, pow_two]
    · simp only [gt_iff_lt, if_neg hc, add_zero]

/-- No pixel sum has a negative term. -/
theorem moment_nonneg {w h : Nat} {f : Nat → Nat → ℝ} {A : ℝ} (hA : 0 ≤ A) (g : Nat → Nat → ℝ)
    (hg : ∀ x y, 0 ≤ g x y) : 0 ≤ moment w h f A g := by
  unfold moment
  refine Finset.sum_nonneg fun y _ => Finset.sum_nonneg fun x _ => ?_
  split_ifs with hc
  · exact mul_nonneg (hg x y) (by linarith)
  · exact le_rfl

theorem moment_pos {w h : Nat} {f : Nat → Nat → ℝ} {X Y : Nat} (hX : X < w) (hY : Y < h)
    (hA : 0 < f X Y) : 0 < moment w h f (f X Y) (fun _ _ => 1) := by
  classical
  have hnn : ∀ x y, 0 ≤ (if f X Y / 10 < f x y then 1 * f x y else 0) := by
    intro x y
    split_ifs with hc
    · linarith
    · exact le_rfl
  unfold moment
  refine lt_of_lt_of_le ?_ (Finset.single_le_sum (f := fun y => ∑ x ∈ Finset.range w,
    if f X Y / 10 < f x y then 1 * f x y else 0)
    (fun y _ => Finset.sum_nonneg fun x _ => hnn x y) (Finset.mem_range.2 hY))
  refine lt_of_lt_of_le ?_ (Finset.single_le_sum (f := fun x =>
    if f X Y / 10 < f x Y then 1 * f x Y else 0) (fun x _ => hnn x Y) (Finset.mem_range.2 hX))
  rw [if_pos (by linarith)]
  linarith

theorem moment_zero {w h : Nat} {f : Nat → Nat → ℝ} {A : ℝ} (hA : A ≤ 0)
    (hm : ∀ x y, x < w → y < h → f x y ≤ A) (g : Nat → Nat → ℝ) : moment w h f A g = 0 := by
  unfold moment
  refine Finset.sum_eq_zero fun y hy => Finset.sum_eq_zero fun x hx => if_neg ?_
  have := hm x y (Finset.mem_range.1 hx) (Finset.mem_range.1 hy)
  linarith

/-! ### Derivatives -/

theorem hasDerivAt_gaussian {p : GaussianParameters2D} (hp : Proper p) (d : Nat → ℝ) (x y : ℝ) :
    HasDerivAt (fun t => gaussianAt (along p d t) x y)
      (∑ i ∈ Finset.range 6, lmJ p (x - p.x0) (y - p.y0) i * d i) 0 := by
  have h1 := hp.sx_pos.ne'
  have h2 := hp.sy_pos.ne'
  have h3 := hp.one_sub.ne'
  have hl : ∀ a b : ℝ, HasDerivAt (fun t : ℝ => a + t * b) b 0 := fun a b => by
    simpa using ((hasDerivAt_id (0 : ℝ)).mul_const b).const_add a
  have hA := hl p.amplitude (d 0)
  have hx0 := (hl p.x0 (d 1)).const_sub x
  have hy0 := (hl p.y0 (d 2)).const_sub y
  have hsx := hl p.sigma_x (d 3)
  have hsy := hl p.sigma_y (d 4)
  have hr := hl p.rho (d 5)
  have hu := hx0.div hsx (by simpa using h1)
  have hv := hy0.div hsy (by simpa using h2)
  have hq := (((hu.pow 2).sub (((hr.const_mul 2).mul hu).mul hv)).add (hv.pow 2)).neg
  have hD := ((hr.pow 2).const_sub 1).const_mul 2
  have hQ : HasDerivAt (fun t => -(((x - (p.x0 + t * d 1)) / (p.sigma_x + t * d 3)) ^ 2 -
      2 * (p.rho + t * d 5) * ((x - (p.x0 + t * d 1)) / (p.sigma_x + t * d 3)) *
        ((y - (p.y0 + t * d 2)) / (p.sigma_y + t * d 4)) +
      ((y - (p.y0 + t * d 2)) / (p.sigma_y + t * d 4)) ^ 2) / (2 * (1 - (p.rho + t * d 5) ^ 2)))
      (1 / (1 - p.rho ^ 2) *
        (((x - p.x0) / (p.sigma_x * p.sigma_x) - p.rho * (y - p.y0) / (p.sigma_x * p.sigma_y)) * d 1 +
        ((y - p.y0) / (p.sigma_y * p.sigma_y) - p.rho * (x - p.x0) / (p.sigma_x * p.sigma_y)) * d 2 +
        ((x - p.x0) * (x - p.x0) / (p.sigma_x * p.sigma_x * p.sigma_x) -
          p.rho * (x - p.x0) * (y - p.y0) / (p.sigma_x * p.sigma_x * p.sigma_y)) * d 3 +
        ((y - p.y0) * (y - p.y0) / (p.sigma_y * p.sigma_y * p.sigma_y) -
          p.rho * (x - p.x0) * (y - p.y0) / (p.sigma_x * p.sigma_y * p.sigma_y)) * d 4 +
        ((x - p.x0) * (y - p.y0) / (p.sigma_x * p.sigma_y) - p.rho * (1 / (1 - p.rho ^ 2)) *
          lmZ p (x - p.x0) (y - p.y0)) * d 5)) 0 := by
    refine (hq.div hD (by simpa using h3)).congr_deriv ?_
    simp only [Pi.mul_apply, Pi.sub_apply, Pi.add_apply, Pi.neg_apply, Pi.div_apply, Pi.pow_apply,
      zero_mul, add_zero, Nat.add_one_sub_one, pow_one, Nat.cast_ofNat, lmZ]
    generalize x - p.x0 = X
    generalize y - p.y0 = Y
    field_simp
    ring
  have hF := hA.mul hQ.exp
  refine (hF.congr_deriv ?_)
  have e1 : -0.5 * lmW p * lmZ p (x - p.x0) (y - p.y0) =
      -(((x - p.x0) / p.sigma_x) ^ 2 - 2 * p.rho * ((x - p.x0) / p.sigma_x) *
        ((y - p.y0) / p.sigma_y) + ((y - p.y0) / p.sigma_y) ^ 2) / (2 * (1 - p.rho ^ 2)) := by
    unfold lmW lmZ
    rw [show (1 : ℝ) - p.rho * p.rho = 1 - p.rho ^ 2 by ring]
    generalize 1 - p.rho ^ 2 = r at h3 ⊢
    norm_num
    field_simp
    ring
  simp only [zero_mul, add_zero]
  simp only [Finset.sum_range_succ, Finset.sum_range_zero, lmJ, lmVal, lmExp]
  rw [e1]
  simp only [lmW]
  rw [show (1 : ℝ) - p.rho * p.rho = 1 - p.rho ^ 2 by ring]
  generalize Real.exp _ = E
  ring

/-- The entries of the Jacobian are the partial derivatives. -/
theorem partialAt_eq {p : GaussianParameters2D} (hp : Proper p) (x y : ℝ) {i : Nat} (hi : i < 6) :
    partialAt p x y i = lmJ p (x - p.x0) (y - p.y0) i := by
  unfold partialAt
  rw [(hasDerivAt_gaussian hp (unit i) x y).deriv]
  simp [unit, hi]

theorem hasDerivAt_error {w h : Nat} (f : Nat → Nat → ℝ) {p : GaussianParameters2D} (hp : Proper p)
    (d : Nat → ℝ) :
    HasDerivAt (fun t => squaredError w h f (along p d t))
      (-2 * ∑ i ∈ Finset.range 6, (accOf w h f p).g i * d i) 0 := by
  have h1 : ∀ x y : Nat, HasDerivAt (fun t => (f x y - gaussianAt (along p d t) x y) ^ 2)
      (-2 * ∑ i ∈ Finset.range 6, lmJ p (x - p.x0) (y - p.y0) i * (f x y - gaussianAt p x y) * d i)
      0 := by
    intro x y
    refine (((hasDerivAt_gaussian hp d x y).const_sub (f x y)).pow 2).congr_deriv ?_
    have e : along p d 0 = p := by ext <;> simp [along]
    simp only [e, Nat.add_one_sub_one, pow_one, Nat.cast_ofNat]
    rw [Finset.mul_sum, ← Finset.sum_neg_distrib, Finset.mul_sum]
    refine Finset.sum_congr rfl fun i _ => ?_
    ring
  have h2 := HasDerivAt.fun_sum (u := Finset.range h) fun y _ =>
    HasDerivAt.fun_sum (u := Finset.range w) fun x _ => h1 x y
  refine h2.congr_deriv ?_
  simp only [accOf]
  simp only [Finset.sum_mul, Finset.mul_sum]
  rw [Finset.sum_comm (s := Finset.range 6)]
  refine Finset.sum_congr rfl fun y _ => ?_
  rw [Finset.sum_comm]

/-! ### The step -/

theorem accOf_H {w h : Nat} {f : Nat → Nat → ℝ} {p : GaussianParameters2D} (hp : Proper p) {i j : Nat}
    (hi : i < 6) (hj : j < 6) : (accOf w h f p).H i j = normalMatrix w h p i j := by
  simp only [accOf, normalMatrix, partialAt_eq hp _ _ hi, partialAt_eq hp _ _ hj]

theorem accOf_g {w h : Nat} {f : Nat → Nat → ℝ} {p : GaussianParameters2D} (hp : Proper p) {i : Nat}
    (hi : i < 6) : (accOf w h f p).g i = normalRhs w h f p i := by
  simp only [accOf, normalRhs, partialAt_eq hp _ _ hi]

theorem normalMatrix_diag {w h : Nat} {p : GaussianParameters2D} (i : Nat) :
    0 ≤ normalMatrix w h p i i :=
  Finset.sum_nonneg fun _ _ => Finset.sum_nonneg fun _ _ => mul_self_nonneg _

theorem lmScale_pos (acc : LMAccumulator) (i : Nat) : 0 < lmScale acc i := by
  unfold lmScale
  simp only
  split_ifs with hc
  · exact one_pos
  · exact lt_of_lt_of_le (by norm_num) (not_lt.1 hc)

theorem lmScale_sq {acc : LMAccumulator} {i : Nat} (hn : 0 ≤ acc.H i i) :
    lmScale acc i * lmScale acc i = open scoped Classical in
      if acc.H i i < 1e-24 then 1 else acc.H i i := by
  unfold lmScale
  rw [abs_of_nonneg hn]
  have hiff : Real.sqrt (acc.H i i) < 1e-12 ↔ acc.H i i < 1e-24 := by
    rw [Real.sqrt_lt' (by norm_num)]
    norm_num
  simp only [hiff]
  split_ifs with hc
  · norm_num
  · exact Real.mul_self_sqrt hn

theorem lmDelta_spec {w h : Nat} {f : Nat → Nat → ℝ} {p : GaussianParameters2D} (hp : Proper p)
    (lam : ℝ) :
    SolvesDamped w h f p lam (lmDelta (accOf w h f p) lam) ∨
      ∀ i, lmDelta (accOf w h f p) lam i = 0 := by
  classical
  let acc := accOf w h f p
  let Hd : Nat → Nat → ℝ := fun i j => if i = j then
    acc.H i j / (lmScale acc i * lmScale acc j) + lam else acc.H i j / (lmScale acc i * lmScale acc j)
  let gs : Nat → ℝ := fun i => acc.g i / lmScale acc i
  have e : ∀ i, lmDelta acc lam i = solveLinearSystem 6 Hd gs 1e-12 i / lmScale acc i := by
    intro i
    unfold lmDelta
    simp only [Hd, gs]
  rcases C30_solver 6 Hd gs 1e-12 (by norm_num) with ⟨hs, _⟩ | ⟨hz, _⟩
  · left
    intro i hi
    have hpos : ∀ i, lmScale acc i ≠ 0 := fun i => (lmScale_pos acc i).ne'
    have h1 := hs i hi
    have h2 : ∀ c ∈ Finset.range 6, Hd i c * solveLinearSystem 6 Hd gs 1e-12 c =
        (normalMatrix w h p i c * lmDelta acc lam c +
          if i = c then lam * (lmScale acc i * lmScale acc i) * lmDelta acc lam i else 0) /
            lmScale acc i := by
      intro c hc
      rw [Finset.mem_range] at hc
      rw [← accOf_H (f := f) hp hi hc, e c]
      simp only [Hd, e]
      have a := hpos i
      have b := hpos c
      by_cases hic : i = c
      · subst hic
        simp only [if_true]
        show (acc.H i i / _ + lam) * _ = _
        field_simp
        exact mul_comm _ _
      · simp only [if_neg hic, add_zero]
        show acc.H i c / _ * _ = acc.H i c * _ / _
        field_simp
    rw [Finset.sum_congr rfl h2, ← Finset.sum_div] at h1
    simp only [gs] at h1
    rw [div_left_inj' (hpos i), Finset.sum_add_distrib, Finset.sum_ite_eq,
      if_pos (Finset.mem_range.2 hi)] at h1
    rw [lmScale_sq (by rw [accOf_H hp hi hi]; exact normalMatrix_diag i)] at h1
    simp only [acc] at h1
    rw [accOf_H hp hi hi, accOf_g hp hi] at h1
    exact h1
  · right
    intro i
    rw [e, hz, zero_div]

theorem lmMove_eq (p : GaussianParameters2D) (d : Nat → ℝ) : lmMove p d = limited (along p d 1) := by
  simp [lmMove, limited, along]

theorem deltaSq_eq (d : Nat → ℝ) : deltaSq d = ∑ i ∈ Finset.range 6, d i ^ 2 := by
  simp only [deltaSq, List.range_succ, Finset.sum_range_succ]
  simp [pow_two]

theorem sum_four (a b c d : Finset Nat) (T : Nat → Nat → Nat → Nat → ℝ) :
    ∑ y ∈ a, ∑ x ∈ b, ∑ i ∈ c, ∑ j ∈ d, T y x i j = ∑ i ∈ c, ∑ j ∈ d, ∑ y ∈ a, ∑ x ∈ b, T y x i j := by
  calc _ = ∑ y ∈ a, ∑ i ∈ c, ∑ x ∈ b, ∑ j ∈ d, T y x i j :=
        Finset.sum_congr rfl fun y _ => Finset.sum_comm
    _ = ∑ i ∈ c, ∑ y ∈ a, ∑ x ∈ b, ∑ j ∈ d, T y x i j := Finset.sum_comm
    _ = ∑ i ∈ c, ∑ y ∈ a, ∑ j ∈ d, ∑ x ∈ b, T y x i j :=
        Finset.sum_congr rfl fun i _ => Finset.sum_congr rfl fun y _ => Finset.sum_comm
    _ = _ := Finset.sum_congr rfl fun i _ => Finset.sum_comm

/-- A solution of the damped normal equations is a descent direction. -/
theorem descent {w h : Nat} {f : Nat → Nat → ℝ} {p : GaussianParameters2D} {lam : ℝ} (hl : 0 < lam)
    {d : Nat → ℝ} (hd : SolvesDamped w h f p lam d) (hne : ∃ i < 6, d i ≠ 0) :
    0 < ∑ i ∈ Finset.range 6, normalRhs w h f p i * d i := by
  classical
  let D : Nat → ℝ := fun i => if normalMatrix w h p i i < 1e-24 then 1 else normalMatrix w h p i i
  have hD : ∀ i, 0 < D i := by
    intro i
    simp only [D]
    split_ifs with hc
    · exact one_pos
    · exact lt_of_lt_of_le (by norm_num) (not_lt.1 hc)
  have h1 : ∑ i ∈ Finset.range 6, normalRhs w h f p i * d i =
      ∑ i ∈ Finset.range 6, ∑ j ∈ Finset.range 6, normalMatrix w h p i j * d j * d i +
        ∑ i ∈ Finset.range 6, lam * D i * d i ^ 2 := by
    rw [← Finset.sum_add_distrib]
    refine Finset.sum_congr rfl fun i hi => ?_
    rw [← hd i (Finset.mem_range.1 hi), add_mul, Finset.sum_mul, pow_two]
    simp only [D, mul_assoc]
  have h2 : ∑ i ∈ Finset.range 6, ∑ j ∈ Finset.range 6, normalMatrix w h p i j * d j * d i =
      ∑ y ∈ Finset.range h, ∑ x ∈ Finset.range w,
        (∑ i ∈ Finset.range 6, partialAt p x y i * d i) ^ 2 := by
    have e : ∀ x y : Nat, (∑ i ∈ Finset.range 6, partialAt p x y i * d i) ^ 2 =
        ∑ i ∈ Finset.range 6, ∑ j ∈ Finset.range 6,
          partialAt p x y i * partialAt p x y j * d j * d i := by
      intro x y
      rw [pow_two, Finset.sum_mul_sum]
      refine Finset.sum_congr rfl fun i _ => Finset.sum_congr rfl fun j _ => ?_
      ring
    simp only [e]
    simp only [normalMatrix, Finset.sum_mul]
    exact (sum_four _ _ _ _ _).symm
  rw [h1, h2]
  refine add_pos_of_nonneg_of_pos
    (Finset.sum_nonneg fun _ _ => Finset.sum_nonneg fun _ _ => sq_nonneg _) ?_
  obtain ⟨k, hk, hk0⟩ := hne
  refine Finset.sum_pos' (fun i _ => mul_nonneg (mul_pos hl (hD i)).le (sq_nonneg _))
    ⟨k, Finset.mem_range.2 hk, mul_pos (mul_pos hl (hD k)) (by positivity)⟩

end TinyDIP.Fit
