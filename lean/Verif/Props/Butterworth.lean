import Verif.Lemmas.Samples
import Verif.Model.Butterworth
import Verif.Spec.Butterworth
import Verif.Lemmas.Pixelwise
import Mathlib.Tactic.Linarith
import Mathlib.Tactic.Positivity
import Mathlib.Tactic.NormNum

/-!
# Property C126: the Butterworth fisheye
-/

namespace TinyDIP.Props

open TinyDIP Image Bw

variable {α : Type}

theorem iterYX_sorted (w h : Nat) :
    (iterYX w h).Pairwise fun p q => Before p.1 p.2 q.1 q.2 := by
  unfold iterYX Before
  rw [List.pairwise_flatMap]
  constructor
  · intro y _
    rw [List.pairwise_map]
    exact List.pairwise_lt_range.imp fun h => .inr ⟨rfl, h⟩
  · refine List.pairwise_lt_range.imp fun {a b} hab p hp q hq => ?_
    obtain ⟨x, -, rfl⟩ := List.mem_map.mp hp
    obtain ⟨x', -, rfl⟩ := List.mem_map.mp hq
    exact .inl hab

theorem weight_eq {D0 N d : ℝ} (hD : 0 < D0) (hN : 0 ≤ N) : weight D0 N d = some (factor D0 N d) := by
  rw [weight, if_pos hD, if_neg (by rintro ⟨-, h⟩; linarith), factor, Real.sqrt_eq_rpow]
  norm_num

theorem factor_bounds {D0 N d : ℝ} (hD : 0 < D0) (hd : 0 ≤ d) :
    0 < factor D0 N d ∧ factor D0 N d ≤ 1 := by
  have h0 : 0 ≤ (d / D0) ^ (2 * N) := Real.rpow_nonneg (by positivity) _
  have h1 : 1 ≤ Real.sqrt (1 + (d / D0) ^ (2 * N)) := by
    rw [Real.one_le_sqrt]; linarith
  rw [factor]
  exact ⟨by positivity, by rw [div_le_one (by linarith)]; exact h1⟩

theorem between {n : Nat} {k : ℝ} {x : Nat} (hx : x < n) (h0 : 0 ≤ k) (h1 : k ≤ 1) :
    0 ≤ (n : ℝ) / 2 + k * ((x : ℝ) - (n : ℝ) / 2) ∧ (n : ℝ) / 2 + k * ((x : ℝ) - (n : ℝ) / 2) < n := by
  have hxn : (x : ℝ) + 1 ≤ n := by exact_mod_cast hx
  have hx0 : (0 : ℝ) ≤ x := Nat.cast_nonneg x
  constructor
  · nlinarith
  · nlinarith

theorem target_lt {w h : Nat} {D0 N : ℝ} (hD : 0 < D0) {x y : Nat} (hx : x < w) (hy : y < h) :
    (target w h D0 N x y).1 < w ∧ (target w h D0 N x y).2 < h := by
  have hk := factor_bounds (N := N) hD (Real.sqrt_nonneg (((x : ℝ) - w / 2) ^ 2 + ((y : ℝ) - h / 2) ^ 2))
  simp only [target]
  constructor
  · rw [Nat.floor_lt (between hx hk.1.le hk.2).1]; exact (between hx hk.1.le hk.2).2
  · rw [Nat.floor_lt (between hy hk.1.le hk.2).1]; exact (between hy hk.1.le hk.2).2

theorem polar (dx dy : ℝ) :
    Real.sqrt (dx ^ 2 + dy ^ 2) * Real.cos (Complex.arg ⟨dx, dy⟩) = dx ∧
    Real.sqrt (dx ^ 2 + dy ^ 2) * Real.sin (Complex.arg ⟨dx, dy⟩) = dy := by
  have hn : ‖(⟨dx, dy⟩ : ℂ)‖ = Real.sqrt (dx ^ 2 + dy ^ 2) := Complex.norm_eq_sqrt_sq_add_sq _
  rw [← hn]
  exact ⟨Complex.norm_mul_cos_arg _, Complex.norm_mul_sin_arg _⟩

theorem pixel_ok {im out : Image α} {w h : Nat} {f g : Nat → Nat → α} {D0 N k : ℝ}
    (s : im.Shows w h f) (so : out.Shows w h g) {x y : Nat} (hx : x < w) (hy : y < h)
    (hw : weight D0 N (Real.sqrt (((x : ℝ) - w / 2) ^ 2 + ((y : ℝ) - h / 2) ^ 2)) = some k)
    (h0 : 0 ≤ k) (h1 : k ≤ 1) :
    ∃ o, pixel im D0 N out x y = .ok o ∧
      o.Shows w h (updPx g ⌊(w : ℝ) / 2 + k * ((x : ℝ) - w / 2)⌋₊ ⌊(h : ℝ) / 2 + k * ((y : ℝ) - h / 2)⌋₊
        (f x y)) := by
  have bx := between hx h0 h1
  have by' := between hy h0 h1
  obtain ⟨o, e, sh⟩ := so.set2 ((Nat.floor_lt bx.1).mpr bx.2) ((Nat.floor_lt by'.1).mpr by'.2) (f x y)
  refine ⟨o, ?_, sh⟩
  rw [← e]
  simp only [pixel, s.width, s.height, hw, s.px x y hx hy, Res.ok_bind]
  set d := Real.sqrt (((x : ℝ) - w / 2) ^ 2 + ((y : ℝ) - h / 2) ^ 2) with hdef
  obtain ⟨pc, ps⟩ := polar ((x : ℝ) - w / 2) ((y : ℝ) - h / 2)
  rw [← hdef] at pc ps
  have ex : d * k * Real.cos (Complex.arg ⟨(x : ℝ) - w / 2, (y : ℝ) - h / 2⟩) + (w : ℝ) / 2 =
      (w : ℝ) / 2 + k * ((x : ℝ) - w / 2) := by
    calc _ = (w : ℝ) / 2 + k * (d * Real.cos (Complex.arg ⟨(x : ℝ) - w / 2, (y : ℝ) - h / 2⟩)) := by ring
      _ = _ := by rw [pc]
  have ey : d * k * Real.sin (Complex.arg ⟨(x : ℝ) - w / 2, (y : ℝ) - h / 2⟩) + (h : ℝ) / 2 =
      (h : ℝ) / 2 + k * ((y : ℝ) - h / 2) := by
    calc _ = (h : ℝ) / 2 + k * (d * Real.sin (Complex.arg ⟨(x : ℝ) - w / 2, (y : ℝ) - h / 2⟩)) := by ring
      _ = _ := by rw [ps]
  rw [ex, ey]
  have hw : (w : ℝ) < 2 ^ 64 := by exact_mod_cast s.w_lt
  have hh : (h : ℝ) < 2 ^ 64 := by exact_mod_cast s.h_lt
  rw [toSize, if_pos ⟨by linarith [bx.1], by linarith [bx.2]⟩, Res.ok_bind, toSize,
    if_pos ⟨by linarith [by'.1], by linarith [by'.2]⟩, Res.ok_bind]

theorem pixel_eq {im out : Image α} {w h : Nat} {f g : Nat → Nat → α} {D0 N : ℝ} (hD : 0 < D0) (hN : 0 ≤ N)
    (s : im.Shows w h f) (so : out.Shows w h g) {x y : Nat} (hx : x < w) (hy : y < h) :
    ∃ o, pixel im D0 N out x y = .ok o ∧
      o.Shows w h (updPx g (target w h D0 N x y).1 (target w h D0 N x y).2 (f x y)) := by
  have hk := factor_bounds (N := N) hD (Real.sqrt_nonneg (((x : ℝ) - w / 2) ^ 2 + ((y : ℝ) - h / 2) ^ 2))
  exact pixel_ok s so hx hy (weight_eq hD hN) hk.1.le hk.2

/-- For every positive radius and order the result has the input's size; a pixel that some input pixels are
sent to holds the last of them in row order, every other pixel is the value of a new pixel. All targets lie
inside the image. Full statement: for every `D0`; zero is undefined behaviour, see the violation. -/
theorem C126_butterworth_partial (zero : α) (im : Image α) (w h : Nat) (f : Nat → Nat → α)
    (s : im.Shows w h f) (D0 N : ℝ) (hD : 0 < D0) (hN : 0 ≤ N) :
    ∃ out g, butterworthFisheye zero im D0 N = .ok out ∧ out.Shows w h g ∧
      (∀ x y, x < w → y < h → (target w h D0 N x y).1 < w ∧ (target w h D0 N x y).2 < h) ∧
      (∀ u v, (∀ x y, x < w → y < h → target w h D0 N x y ≠ (u, v)) → g u v = zero) ∧
      (∀ x y u v, x < w → y < h → target w h D0 N x y = (u, v) →
        (∀ x' y', x' < w → y' < h → Before x y x' y' → target w h D0 N x' y' ≠ (u, v)) →
        g u v = f x y) := by
  have key : ∀ (l : List (Nat × Nat)) (o : Image α) (g : Nat → Nat → α), o.Shows w h g →
      (∀ p ∈ l, p.1 < w ∧ p.2 < h) →
      ∃ out, loop (fun out p => pixel im D0 N out p.1 p.2) l o = .ok out ∧
        out.Shows w h (l.foldl (fun g p => updPx g (target w h D0 N p.1 p.2).1
          (target w h D0 N p.1 p.2).2 (f p.1 p.2)) g) := by
    intro l
    induction l with
    | nil => intro o g so _; exact ⟨o, rfl, so⟩
    | cons p l ih =>
      intro o g so hb
      obtain ⟨hx, hy⟩ := hb p (by simp)
      obtain ⟨o', e, so'⟩ := pixel_eq hD hN s so hx hy
      obtain ⟨out, e2, so2⟩ := ih o' _ so' fun q hq => hb q (by simp [hq])
      exact ⟨out, by simp only [loop, e, e2], so2⟩
  have skip : ∀ (l : List (Nat × Nat)) (g : Nat → Nat → α) u v,
      (∀ p ∈ l, target w h D0 N p.1 p.2 ≠ (u, v)) →
      (l.foldl (fun g p => updPx g (target w h D0 N p.1 p.2).1
          (target w h D0 N p.1 p.2).2 (f p.1 p.2)) g) u v = g u v := by
    intro l
    induction l with
    | nil => intro g u v _; rfl
    | cons p l ih =>
      intro g u v hne
      rw [List.foldl_cons, ih _ u v fun q hq => hne q (by simp [hq]), updPx, if_neg]
      rintro ⟨rfl, rfl⟩
      exact hne p (by simp) rfl
  obtain ⟨out, e, so⟩ := key (iterYX w h) _ _ (ofSizes_shows zero s.w_lt s.h_lt s.fits)
    fun p hp => mem_iterYX.mp hp
  refine ⟨out, _, ?_, so, fun x y hx hy => target_lt hD hx hy, ?_, ?_⟩
  · rw [butterworthFisheye, if_neg (by simp [s.dim]), s.width, s.height]
    exact e
  · intro u v hne
    rw [skip _ _ _ _ fun p hp => hne _ _ (mem_iterYX.mp hp).1 (mem_iterYX.mp hp).2]
  · intro x y u v hx hy ht hlast
    obtain ⟨l1, l2, hl⟩ := List.append_of_mem (mem_iterYX.mpr ⟨hx, hy⟩ : (x, y) ∈ iterYX w h)
    have hs := iterYX_sorted w h
    rw [hl, List.pairwise_append, List.pairwise_cons] at hs
    rw [hl, List.foldl_append, List.foldl_cons, skip]
    · simp only [updPx, ht, and_self, if_true]
    · intro p hp
      have hm : p ∈ iterYX w h := by rw [hl]; simp [hp]
      exact hlast p.1 p.2 (mem_iterYX.mp hm).1 (mem_iterYX.mp hm).2 (hs.2.1.1 p hp)

example := C126_butterworth_partial 0 _ 3 2 _ sample2_shows (3 / 2) 2 (by norm_num) (by norm_num)

/-- The map moves no pixel away from the centre, and (for a positive order) it leaves the centre pixel of
a picture with even sides in place. -/
theorem C126_centre (w h : Nat) (D0 N : ℝ) (hD : 0 < D0) :
    (∀ x y, x < w → y < h →
      |((target w h D0 N x y).1 : ℝ) + 1 / 2 - (w : ℝ) / 2| ≤ |(x : ℝ) - (w : ℝ) / 2| + 1 / 2 ∧
      |((target w h D0 N x y).2 : ℝ) + 1 / 2 - (h : ℝ) / 2| ≤ |(y : ℝ) - (h : ℝ) / 2| + 1 / 2) ∧
    (0 < N → ∀ a b, target (2 * a) (2 * b) D0 N a b = (a, b)) := by
  have one : ∀ (n : Nat) (k : ℝ) (x : Nat), x < n → 0 ≤ k → k ≤ 1 →
      |((⌊(n : ℝ) / 2 + k * ((x : ℝ) - n / 2)⌋₊ : Nat) : ℝ) + 1 / 2 - (n : ℝ) / 2| ≤
        |(x : ℝ) - (n : ℝ) / 2| + 1 / 2 := by
    intro n k x hx h0 h1
    have f1 := Nat.floor_le (between hx h0 h1).1
    have f2 := Nat.lt_floor_add_one ((n : ℝ) / 2 + k * ((x : ℝ) - n / 2))
    have ab : |k * ((x : ℝ) - n / 2)| ≤ |(x : ℝ) - (n : ℝ) / 2| := by
      rw [abs_mul, abs_of_nonneg h0]
      exact mul_le_of_le_one_left (abs_nonneg _) h1
    rw [abs_le] at ab ⊢
    constructor <;> linarith [ab.1, ab.2]
  constructor
  · intro x y hx hy
    have hk := factor_bounds (N := N) hD (Real.sqrt_nonneg (((x : ℝ) - w / 2) ^ 2 + ((y : ℝ) - h / 2) ^ 2))
    exact ⟨one w _ x hx hk.1.le hk.2, one h _ y hy hk.1.le hk.2⟩
  · intro hN a b
    have ea : (a : ℝ) - ((2 * a : Nat) : ℝ) / 2 = 0 := by push_cast; ring
    have eb : (b : ℝ) - ((2 * b : Nat) : ℝ) / 2 = 0 := by push_cast; ring
    simp only [target, ea, eb, mul_zero, add_zero]
    simp

/-- A picture that is not two-dimensional is rejected. -/
theorem C126_dimension (zero : α) (im : Image α) (D0 N : ℝ) (hd : im.dim ≠ 2) :
    butterworthFisheye zero im D0 N = .throw .runtime := by
  rw [butterworthFisheye, if_pos hd]

example := C126_dimension 0 sample 1 1 (by decide)

/-- Violation: with `D0 = 0`, `N ≠ 0` and a centre pixel (a picture with even sides) NaN is converted to an index. -/
theorem C126_zero_violation (z : α) (N : ℝ) (hN : N ≠ 0) :
    butterworthFisheye z (Image.ofSizes z [2, 2]) 0 N = .ub := by
  have s := ofSizes_shows z (w := 2) (h := 2) (by decide) (by decide) (by decide)
  have wt : ∀ d : ℝ, d ≠ 0 → ∃ k, weight 0 N d = some k ∧ 0 ≤ k ∧ k ≤ 1 := by
    intro d hd
    rw [weight, if_neg (lt_irrefl _), if_pos rfl, if_neg fun h => hd h.1]
    split_ifs
    · exact ⟨0, rfl, by norm_num, by norm_num⟩
    · exact ⟨1, rfl, by norm_num, by norm_num⟩
  rw [butterworthFisheye, if_neg (by simp [s.dim]), s.width, s.height, pixFor]
  have e : iterYX 2 2 = [(0, 0), (1, 0), (0, 1), (1, 1)] := by decide
  rw [e]
  have step : ∀ (o : Image α) g, o.Shows 2 2 g → ∀ x y, x < 2 → y < 2 → (x ≠ 1 ∨ y ≠ 1) →
      ∃ o' g', pixel (Image.ofSizes z [2, 2]) 0 N o x y = .ok o' ∧ o'.Shows 2 2 g' := by
    intro o g so x y hx hy hxy
    obtain ⟨k, hk, h0, h1⟩ := wt (Real.sqrt (((x : ℝ) - (2 : Nat) / 2) ^ 2 + ((y : ℝ) - (2 : Nat) / 2) ^ 2)) (by
      rw [Real.sqrt_ne_zero (by positivity)]
      obtain rfl | rfl : x = 0 ∨ x = 1 := by omega
      · norm_num; positivity
      · obtain rfl : y = 0 := by omega
        norm_num)
    obtain ⟨o', e', so'⟩ := pixel_ok s so hx hy hk h0 h1
    exact ⟨o', _, e', so'⟩
  obtain ⟨o1, g1, e1, s1⟩ := step _ _ s 0 0 (by decide) (by decide) (by decide)
  obtain ⟨o2, g2, e2, s2⟩ := step _ _ s1 1 0 (by decide) (by decide) (by decide)
  obtain ⟨o3, g3, e3, s3⟩ := step _ _ s2 0 1 (by decide) (by decide) (by decide)
  simp only [loop, e1, e2, e3]
  have e4 : pixel (Image.ofSizes z [2, 2]) 0 N o3 1 1 = .ub := by
    simp only [pixel, s.width, s.height]
    norm_num [weight, hN]
  rw [e4]

example := C126_zero_violation (7 : ℕ) 2 (by norm_num)

example : target 4 4 1 1 3 2 = (2, 2) ∧ target 4 4 1 1 2 2 = (2, 2) := by
  refine ⟨?_, (C126_centre 4 4 1 1 one_pos).2 one_pos 2 2⟩
  have hk := factor_bounds (D0 := 1) (N := 1) one_pos (zero_le_one)
  have hs : Real.sqrt (1 + 1 : ℝ) > 1 := by rw [gt_iff_lt, Real.lt_sqrt zero_le_one]; norm_num
  have hf : factor 1 1 1 < 1 := by
    rw [factor]
    norm_num
    rw [inv_lt_one₀ (by positivity)]
    norm_num at hs
    exact hs
  have ed : Real.sqrt (((3 : Nat) - ((4 : Nat) : ℝ) / 2) ^ 2 + (((2 : Nat) : ℝ) - ((4 : Nat) : ℝ) / 2) ^ 2) = 1 := by
    norm_num
  simp only [target, ed]
  rw [Prod.mk.injEq, Nat.floor_eq_iff (by norm_num; linarith [hk.1]), Nat.floor_eq_iff (by norm_num)]
  norm_num
  exact ⟨hk.1.le, by linarith⟩

end TinyDIP.Props
