import Verif.Spec.Transform
import Verif.Lemmas.Trig
import Verif.Lemmas.Conv
import Verif.Lemmas.Pixelwise
import Mathlib.Algebra.BigOperators.Field

/-! # Fourier and cosine transforms -/

namespace TinyDIP

open Image Finset

theorem forUp_add {R : Type} [AddCommMonoid R] (n : Nat) (g : Nat → R) (body : R → Nat → Res R)
    (h : ∀ k, k < n → ∀ s, body s k = .ok (s + g k)) (s : R) :
    forUp n body s = .ok (s + ∑ k ∈ range n, g k) := by
  obtain ⟨s', e, hs⟩ := forUp_inv (n := n) (body := body)
    (P := fun k t => t = s + ∑ k ∈ range k, g k)
    (by
      rintro k t hk rfl
      exact ⟨_, h k hk _, by rw [sum_range_succ, add_assoc]⟩) s (by simp)
  rw [e, hs]

/-- A nested coordinate loop that sets each pixel of the output. -/
theorem forUp2_fill {α : Type} {w h : Nat} (g : Nat → Nat → α)
    (body : Image α → Nat → Nat → Res (Image α))
    (hstep : ∀ x y, x < w → y < h → ∀ im f, im.Shows w h f →
      ∃ im', body im x y = .ok im' ∧ im'.Shows w h (updPx f x y (g x y)))
    (im : Image α) (f : Nat → Nat → α) (hs : im.Shows w h f) :
    ∃ im', forUp h (fun s y => forUp w (fun s x => body s x y) s) im = .ok im' ∧ im'.Shows w h g := by
  rw [← pixFor_iterYX]
  exact loop_fill (fun p => p) g _ _
    (fun p hp im f hs => hstep p.1 p.2 (mem_iterYX.mp hp).1 (mem_iterYX.mp hp).2 im f hs)
    (fun x y hx hy => ⟨(x, y), mem_iterYX.mpr ⟨hx, hy⟩, rfl⟩) im f hs

/-! ### Fourier -/

theorem dftAngle_eq {w h x y m n : Nat} (hx : x < w) (hm : m < w) (hy : y < h) (hn : n < h)
    (hw : w * w < 2 ^ 64) (hh : h * h < 2 ^ 64) :
    dftAngle w h x y m n = 2 * Real.pi * ((x * m : ℝ) / w + (y * n : ℝ) / h) := by
  unfold dftAngle
  rw [wmul_of_lt (lt_of_le_of_lt (Nat.mul_le_mul hx.le hm.le) hw),
    wmul_of_lt (lt_of_le_of_lt (Nat.mul_le_mul hy.le hn.le) hh)]
  push_cast
  rfl

theorem dft2_shows {im : Image ℝ} {w h : Nat} {f : Nat → Nat → ℝ} (s : im.Shows w h f)
    (hw : w * w < 2 ^ 64) (hh : h * h < 2 ^ 64) :
    ∃ out, dft2 im = .ok out ∧ out.Shows w h (dftVal w h fun x y => (f x y : ℂ)) := by
  unfold dft2
  rw [s.width, s.height]
  have hnorm : dftNorm w h = Real.sqrt (1 / (w * h : ℝ)) := by
    unfold dftNorm; rw [wmul_of_lt s.fits]; push_cast; rfl
  refine forUp2_fill (dftVal w h fun x y => (f x y : ℂ)) _ ?_ _ _
    (ofSizes_shows 0 s.w_lt s.h_lt s.fits)
  intro x y hx hy im' f' s'
  have inner : forUp h (fun s n =>
        forUp w (fun (s : ℝ × ℝ) m => do
          let v ← im.at2u m n
          .ok (s.1 + v * Real.cos (dftAngle w h x y m n),
               s.2 + -v * Real.sin (dftAngle w h x y m n))) s) ((0, 0) : ℝ × ℝ) =
      .ok ((0, 0) + ∑ n ∈ range h, ∑ m ∈ range w,
        (f m n * Real.cos (dftAngle w h x y m n), -f m n * Real.sin (dftAngle w h x y m n))) := by
    refine forUp_add h _ _ ?_ _
    intro n hn t
    refine forUp_add w _ _ ?_ _
    intro m hm t
    rw [s.at2u hm hn]
    rfl
  simp only [inner, Res.ok_bind]
  have hv : (⟨dftNorm w h * ((0, 0) + ∑ n ∈ range h, ∑ m ∈ range w,
        (f m n * Real.cos (dftAngle w h x y m n), -f m n * Real.sin (dftAngle w h x y m n)) : ℝ × ℝ).1,
      dftNorm w h * ((0, 0) + ∑ n ∈ range h, ∑ m ∈ range w,
        (f m n * Real.cos (dftAngle w h x y m n), -f m n * Real.sin (dftAngle w h x y m n)) : ℝ × ℝ).2⟩ : ℂ)
      = dftVal w h (fun x y => (f x y : ℂ)) x y := by
    have ee : ∀ n ∈ range h, ∀ m ∈ range w, (f m n : ℂ) *
        Complex.exp (-(2 * Real.pi * Complex.I * ((x * m : ℝ) / w + (y * n : ℝ) / h))) =
        ⟨f m n * Real.cos (dftAngle w h x y m n), -f m n * Real.sin (dftAngle w h x y m n)⟩ := by
      intro n hn m hm
      rw [mem_range] at hn hm
      rw [dftAngle_eq hx hm hy hn hw hh]
      set θ : ℝ := 2 * Real.pi * ((x * m : ℝ) / w + (y * n : ℝ) / h) with hθ
      have : (-(2 * Real.pi * Complex.I * ((x * m : ℝ) / w + (y * n : ℝ) / h)) : ℂ) = ((-θ : ℝ) : ℂ) * Complex.I := by
        rw [hθ]; push_cast; ring
      rw [this, Complex.exp_mul_I, ← Complex.ofReal_cos, ← Complex.ofReal_sin, Real.cos_neg, Real.sin_neg]
      generalize Real.cos θ = c
      generalize Real.sin θ = d
      apply Complex.ext <;> simp
    unfold dftVal
    rw [sum_congr rfl fun n hn => sum_congr rfl fun m hm => ee n hn m hm, hnorm]
    generalize Real.sqrt (1 / (w * h : ℝ)) = q
    apply Complex.ext
    · simp [Prod.fst_sum]
    · simp [Prod.snd_sum]
  rw [hv]
  exact s'.set2u hx hy _

theorem idft2_shows {im : Image ℂ} {w h : Nat} {f : Nat → Nat → ℂ} (s : im.Shows w h f)
    (hw : w * w < 2 ^ 64) (hh : h * h < 2 ^ 64) :
    ∃ out, idft2 im = .ok out ∧ out.Shows w h (idftVal w h f) := by
  unfold idft2
  rw [s.width, s.height]
  have hnorm : dftNorm w h = Real.sqrt (1 / (w * h : ℝ)) := by
    unfold dftNorm; rw [wmul_of_lt s.fits]; push_cast; rfl
  refine forUp2_fill (idftVal w h f) _ ?_ _ _ (ofSizes_shows 0 s.w_lt s.h_lt s.fits)
  intro x y hx hy im' f' s'
  have inner : forUp h (fun s n =>
        forUp w (fun (s : ℂ) m => do
          let v ← im.at2u m n
          .ok (s + v * ((Real.cos (dftAngle w h x y m n) : ℂ) +
            Complex.I * (Real.sin (dftAngle w h x y m n) : ℂ)))) s) 0 =
      .ok (0 + ∑ n ∈ range h, ∑ m ∈ range w,
        f m n * ((Real.cos (dftAngle w h x y m n) : ℂ) +
            Complex.I * (Real.sin (dftAngle w h x y m n) : ℂ))) := by
    refine forUp_add h _ _ ?_ _
    intro n hn t
    refine forUp_add w _ _ ?_ _
    intro m hm t
    rw [s.at2u hm hn]
    rfl
  simp only [inner, Res.ok_bind, zero_add]
  have hv : (dftNorm w h : ℂ) * ∑ n ∈ range h, ∑ m ∈ range w,
        f m n * ((Real.cos (dftAngle w h x y m n) : ℂ) +
            Complex.I * (Real.sin (dftAngle w h x y m n) : ℂ)) = idftVal w h f x y := by
    unfold idftVal
    rw [hnorm]
    congr 1
    refine sum_congr rfl fun n hn => sum_congr rfl fun m hm => ?_
    rw [mem_range] at hn hm
    rw [dftAngle_eq hx hm hy hn hw hh]
    set θ : ℝ := 2 * Real.pi * ((x * m : ℝ) / w + (y * n : ℝ) / h) with hθ
    have : (2 * Real.pi * Complex.I * ((x * m : ℝ) / w + (y * n : ℝ) / h) : ℂ) = (θ : ℂ) * Complex.I := by
      rw [hθ]; push_cast; ring
    rw [this, Complex.exp_mul_I, ← Complex.ofReal_cos, ← Complex.ofReal_sin, mul_comm Complex.I]
  rw [hv]
  exact s'.set2u hx hy _

theorem idft_dft {w h : Nat} (hw : 0 < w) (hh : 0 < h) (f : Nat → Nat → ℂ) {x y : Nat}
    (hx : x < w) (hy : y < h) : idftVal w h (dftVal w h f) x y = f x y := by
  have hw' : (w : ℂ) ≠ 0 := by exact_mod_cast hw.ne'
  have hh' : (h : ℂ) ≠ 0 := by exact_mod_cast hh.ne'
  have o1 : ∀ a ∈ range h, ∀ a' ∈ range h, (∑ k ∈ range h,
      (1 / (h : ℂ) * Complex.exp (2 * Real.pi * Complex.I * ((a * k : ℝ) / h))) *
      Complex.exp (-(2 * Real.pi * Complex.I * ((k * a' : ℝ) / h)))) = if a = a' then 1 else 0 := by
    intro a ha a' ha'
    have := fourier_ortho hh a a' (mem_range.mp ha) (mem_range.mp ha')
    have e : ∀ k ∈ range h, (1 / (h : ℂ) * Complex.exp (2 * Real.pi * Complex.I * ((a * k : ℝ) / h))) *
      Complex.exp (-(2 * Real.pi * Complex.I * ((k * a' : ℝ) / h))) = 1 / (h : ℂ) *
      (Complex.exp (2 * Real.pi * Complex.I * ((a * k : ℝ) / h)) *
      Complex.exp (-(2 * Real.pi * Complex.I * ((a' * k : ℝ) / h)))) := by
      intro k _
      rw [mul_comm (a' : ℝ)]; ring
    rw [sum_congr rfl e, ← mul_sum, this]
    split <;> simp [hh']
  have o2 : ∀ a ∈ range w, ∀ a' ∈ range w, (∑ k ∈ range w,
      (1 / (w : ℂ) * Complex.exp (2 * Real.pi * Complex.I * ((a * k : ℝ) / w))) *
      Complex.exp (-(2 * Real.pi * Complex.I * ((k * a' : ℝ) / w)))) = if a = a' then 1 else 0 := by
    intro a ha a' ha'
    have := fourier_ortho hw a a' (mem_range.mp ha) (mem_range.mp ha')
    have e : ∀ k ∈ range w, (1 / (w : ℂ) * Complex.exp (2 * Real.pi * Complex.I * ((a * k : ℝ) / w))) *
      Complex.exp (-(2 * Real.pi * Complex.I * ((k * a' : ℝ) / w))) = 1 / (w : ℂ) *
      (Complex.exp (2 * Real.pi * Complex.I * ((a * k : ℝ) / w)) *
      Complex.exp (-(2 * Real.pi * Complex.I * ((a' * k : ℝ) / w)))) := by
      intro k _
      rw [mul_comm (a' : ℝ)]; ring
    rw [sum_congr rfl e, ← mul_sum, this]
    split <;> simp [hw']
  have key := invert_of_ortho (range h ×ˢ range w) _ _ (ortho_prod o1 o2) (fun p => f p.2 p.1)
    (x := (y, x)) (mem_product.mpr ⟨mem_range.mpr hy, mem_range.mpr hx⟩)
  simp only at key
  rw [← key]
  unfold idftVal dftVal
  rw [sum_product, mul_sum]
  refine sum_congr rfl fun n _ => ?_
  rw [mul_sum]
  refine sum_congr rfl fun m _ => ?_
  rw [sum_product]
  have hsq : (Real.sqrt (1 / (w * h : ℝ)) : ℂ) * (Real.sqrt (1 / (w * h : ℝ)) : ℂ) = 1 / h * (1 / w) := by
    rw [← Complex.ofReal_mul, Real.mul_self_sqrt (by positivity)]
    push_cast
    field_simp
  have a1 : ∀ S : ℂ, (Real.sqrt (1 / (w * h : ℝ)) : ℂ) * ((Real.sqrt (1 / (w * h : ℝ)) : ℂ) * S *
      Complex.exp (2 * Real.pi * Complex.I * ((x * m : ℝ) / w + (y * n : ℝ) / h))) =
      (1 / (h : ℂ) * Complex.exp (2 * Real.pi * Complex.I * ((y * n : ℝ) / h)) *
        (1 / (w : ℂ) * Complex.exp (2 * Real.pi * Complex.I * ((x * m : ℝ) / w)))) * S := by
    intro S
    have : Complex.exp (2 * Real.pi * Complex.I * ((x * m : ℝ) / w + (y * n : ℝ) / h)) =
        Complex.exp (2 * Real.pi * Complex.I * ((y * n : ℝ) / h)) *
        Complex.exp (2 * Real.pi * Complex.I * ((x * m : ℝ) / w)) := by
      rw [← Complex.exp_add]; congr 1; ring
    rw [this]
    linear_combination (S * Complex.exp (2 * Real.pi * Complex.I * ((y * n : ℝ) / h)) *
        Complex.exp (2 * Real.pi * Complex.I * ((x * m : ℝ) / w))) * hsq
  rw [a1]
  congr 1
  refine sum_congr rfl fun n' _ => sum_congr rfl fun m' _ => ?_
  rw [← Complex.exp_add, mul_comm]
  congr 2
  ring

/-! ### Cosine -/

theorem vget_some {α : Type} {l : List α} {i : Nat} {a : α} (h : l[i]? = some a) : vget l i = .ok a := by
  rw [vget, h]

theorem dct3OnePlaneOrd_shows {l : List (Image ℝ)} {w h : Nat} {g : Nat → Nat → Nat → ℝ}
    (s : StackShows l w h g) (order : List (Nat × Nat)) (ho : order.Perm (iterYX w h)) {z : Nat}
    (hz : z < l.length) :
    ∃ out, dct3OnePlaneOrd order l z = .ok out ∧ out.Shows w h (dctVal w h l.length g z) := by
  obtain ⟨im0, e0, s0⟩ := s 0 (by omega)
  obtain ⟨imz, ez, sz⟩ := s z hz
  unfold dct3OnePlaneOrd
  simp only [vget_some e0, vget_some ez, Res.ok_bind, s0.width, s0.height, sz.width, sz.height]
  refine pixFor_fill order (fun x _ => x) (fun _ y => y) _ _ (ofSizes_shows 0 sz.w_lt sz.h_lt sz.fits)
    ?_ (fun a b ha hb => ⟨a, b, ho.mem_iff.mpr (mem_iterYX.mpr ⟨ha, hb⟩), rfl, rfl⟩)
  intro x y hxy im f hs
  have hb := mem_iterYX.mp (ho.mem_iff.mp hxy)
  have inner : forUp l.length (fun sum inner_z => do
      let plane ← vget l inner_z
      forUp plane.height (fun sum inner_y =>
        forUp plane.width (fun sum inner_x => do
          let v ← plane.at2 inner_x inner_y
          .ok (sum + v * Real.cos (dctAngle w inner_x x) * Real.cos (dctAngle h inner_y y) *
            Real.cos (dctAngle l.length inner_z z))) sum) sum) (0 : ℝ) =
      .ok (0 + ∑ z' ∈ range l.length, ∑ y' ∈ range h, ∑ x' ∈ range w,
        g z' x' y' * cosB w x' x * cosB h y' y * cosB l.length z' z) := by
    refine forUp_add _ _ _ ?_ _
    intro z' hz' t
    obtain ⟨p, ep, sp⟩ := s z' hz'
    simp only [vget_some ep, Res.ok_bind, sp.width, sp.height]
    refine forUp_add _ _ _ ?_ _
    intro y' hy' t
    refine forUp_add _ _ _ ?_ _
    intro x' hx' t
    rw [sp.px x' y' hx' hy']
    rfl
  simp only [inner, Res.ok_bind, zero_add]
  exact hs.set2 hb.1 hb.2 _

theorem idct3OnePlaneOrd_shows {l : List (Image ℝ)} {w h : Nat} {g : Nat → Nat → Nat → ℝ}
    (s : StackShows l w h g) (order : List (Nat × Nat)) (ho : order.Perm (iterYX w h)) {z : Nat}
    (hz : z < l.length) :
    ∃ out, idct3OnePlaneOrd order l z = .ok out ∧ out.Shows w h (idctVal w h l.length g z) := by
  obtain ⟨im0, e0, s0⟩ := s 0 (by omega)
  obtain ⟨imz, ez, sz⟩ := s z hz
  unfold idct3OnePlaneOrd
  simp only [vget_some e0, vget_some ez, Res.ok_bind, s0.width, s0.height, sz.width, sz.height]
  refine pixFor_fill order (fun x _ => x) (fun _ y => y) _ _ (ofSizes_shows 0 sz.w_lt sz.h_lt sz.fits)
    ?_ (fun a b ha hb => ⟨a, b, ho.mem_iff.mpr (mem_iterYX.mpr ⟨ha, hb⟩), rfl, rfl⟩)
  intro x y hxy im f hs
  have hb := mem_iterYX.mp (ho.mem_iff.mp hxy)
  have inner : forUp l.length (fun sum inner_z => do
      let plane ← vget l inner_z
      forUp plane.height (fun sum inner_y =>
        forUp plane.width (fun sum inner_x => do
          let v ← plane.at2 inner_x inner_y
          .ok (sum + dctAlpha inner_x * dctAlpha inner_y * dctAlpha inner_z * v *
            Real.cos (dctAngle w x inner_x) * Real.cos (dctAngle h y inner_y) *
            Real.cos (dctAngle l.length z inner_z))) sum) sum) (0 : ℝ) =
      .ok (0 + ∑ z' ∈ range l.length, ∑ y' ∈ range h, ∑ x' ∈ range w,
        dctAlpha x' * dctAlpha y' * dctAlpha z' *
        g z' x' y' * cosB w x x' * cosB h y y' * cosB l.length z z') := by
    refine forUp_add _ _ _ ?_ _
    intro z' hz' t
    obtain ⟨p, ep, sp⟩ := s z' hz'
    simp only [vget_some ep, Res.ok_bind, sp.width, sp.height]
    refine forUp_add _ _ _ ?_ _
    intro y' hy' t
    refine forUp_add _ _ _ ?_ _
    intro x' hx' t
    rw [sp.px x' y' hx' hy']
    rfl
  simp only [inner, Res.ok_bind, zero_add]
  exact hs.set2 hb.1 hb.2 _

theorem dctAlpha_sq (k : Nat) : dctAlpha k * dctAlpha k = if k = 0 then (1 : ℝ) / 2 else 1 := by
  unfold dctAlpha
  split
  · have : Real.sqrt 2 * Real.sqrt 2 = 2 := Real.mul_self_sqrt (by norm_num)
    linear_combination this / 4
  · norm_num

theorem dct_ortho {N : Nat} (hN : 0 < N) : ∀ x ∈ range N, ∀ x' ∈ range N,
    (∑ k ∈ range N, (dctAlpha k * cosB N x k) * (2 / N * dctAlpha k * cosB N x' k)) =
      if x = x' then 1 else 0 := by
  intro x hx x' hx'
  have hN' : (N : ℝ) ≠ 0 := by exact_mod_cast hN.ne'
  have := cosine_ortho x x' (mem_range.mp hx) (mem_range.mp hx')
  have e : ∀ k ∈ range N, (dctAlpha k * cosB N x k) * (2 / N * dctAlpha k * cosB N x' k) =
      1 / N * ((if k = 0 then (1 : ℝ) / 2 else 1) * (2 *
      Real.cos (Real.pi / (2 * N) * (2 * x + 1) * k) * Real.cos (Real.pi / (2 * N) * (2 * x' + 1) * k))) := by
    intro k _
    rw [← dctAlpha_sq]
    unfold cosB
    ring
  rw [sum_congr rfl e, ← mul_sum, this]
  split <;> simp [hN']

theorem dct_ortho' {N : Nat} (hN : 0 < N) : ∀ k ∈ range N, ∀ k' ∈ range N,
    (∑ x ∈ range N, (2 / N * dctAlpha k * cosB N x k) * (dctAlpha k' * cosB N x k')) =
      if k = k' then 1 else 0 :=
  ortho_swap N (fun x k => dctAlpha k * cosB N x k) (fun k x => 2 / N * dctAlpha k * cosB N x k)
    (dct_ortho hN)

theorem idct_dct {w h d : Nat} (hw : 0 < w) (hh : 0 < h) (hd : 0 < d) (g : Nat → Nat → Nat → ℝ)
    {x y z : Nat} (hx : x < w) (hy : y < h) (hz : z < d) :
    idctVal w h d (dctVal w h d g) z x y = g z x y := by
  have hw' : (w : ℝ) ≠ 0 := by exact_mod_cast hw.ne'
  have hh' : (h : ℝ) ≠ 0 := by exact_mod_cast hh.ne'
  have hd' : (d : ℝ) ≠ 0 := by exact_mod_cast hd.ne'
  have key := invert_of_ortho (range d ×ˢ (range h ×ˢ range w)) _ _
    (ortho_prod (dct_ortho hd) (ortho_prod (dct_ortho hh) (dct_ortho hw)))
    (fun p => g p.1 p.2.2 p.2.1) (x := (z, y, x))
    (by simp [hx, hy, hz])
  simp only at key
  rw [← key]
  unfold idctVal dctVal
  simp only [sum_product]
  refine sum_congr rfl fun z' _ => sum_congr rfl fun y' _ => sum_congr rfl fun x' _ => ?_
  simp only [mul_sum, sum_mul, sum_div]
  refine sum_congr rfl fun a _ => sum_congr rfl fun b _ => sum_congr rfl fun c _ => ?_
  field_simp
  ring

theorem dct_idct_aux (az ay ax A c1 c2 c3 W H D : ℝ) (hW : W ≠ 0) (hH : H ≠ 0) (hD : D ≠ 0) :
    8 * az * ay * ax * (A * c1 * c2 * c3) / (W * H * D) =
      2 / D * az * c3 * (2 / H * ay * c2 * (2 / W * ax * c1)) * A := by
  field_simp
  ring

theorem dct_idct {w h d : Nat} (hw : 0 < w) (hh : 0 < h) (hd : 0 < d) (g : Nat → Nat → Nat → ℝ)
    {x y z : Nat} (hx : x < w) (hy : y < h) (hz : z < d) :
    dctVal w h d (idctVal w h d g) z x y = g z x y := by
  have hw' : (w : ℝ) ≠ 0 := by exact_mod_cast hw.ne'
  have hh' : (h : ℝ) ≠ 0 := by exact_mod_cast hh.ne'
  have hd' : (d : ℝ) ≠ 0 := by exact_mod_cast hd.ne'
  have key := invert_of_ortho (range d ×ˢ (range h ×ˢ range w)) _ _
    (ortho_prod (dct_ortho' hd) (ortho_prod (dct_ortho' hh) (dct_ortho' hw)))
    (fun p => g p.1 p.2.2 p.2.1) (x := (z, y, x))
    (by simp [hx, hy, hz])
  refine Eq.trans ?_ key
  clear key
  simp only [sum_product]
  unfold dctVal
  rw [mul_sum, sum_div]
  refine sum_congr rfl fun z' _ => ?_
  rw [mul_sum, sum_div]
  refine sum_congr rfl fun y' _ => ?_
  rw [mul_sum, sum_div]
  refine sum_congr rfl fun x' _ => ?_
  rw [dct_idct_aux _ _ _ _ _ _ _ _ _ _ hw' hh' hd']
  refine congrArg _ ?_
  unfold idctVal
  refine sum_congr rfl fun a _ => sum_congr rfl fun b _ => sum_congr rfl fun c _ => ?_
  ring

theorem stack_loop {l : List (Image ℝ)} {w h : Nat} {v : Nat → Nat → Nat → ℝ}
    (op : Nat → Res (Image ℝ))
    (hop : ∀ z, z < l.length → ∃ out, op z = .ok out ∧ out.Shows w h (v z)) :
    ∃ out, forUp l.length (fun output i => do .ok (output ++ [← op i])) [] = .ok out ∧
      out.length = l.length ∧ StackShows out w h v := by
  obtain ⟨out, e, h1, h2⟩ := forUp_inv (n := l.length)
    (body := fun (output : List (Image ℝ)) i => do .ok (output ++ [← op i]))
    (P := fun k out => out.length = k ∧ StackShows out w h v)
    (by
      rintro k out hk ⟨hl, hs⟩
      obtain ⟨o, eo, so⟩ := hop k hk
      refine ⟨out ++ [o], by simp only [eo, Res.ok_bind], by simp [hl], ?_⟩
      intro z hz
      rw [List.length_append, List.length_singleton] at hz
      by_cases hzk : z < out.length
      · obtain ⟨i, ei, si⟩ := hs z hzk
        exact ⟨i, by rw [List.getElem?_append_left hzk, ei], si⟩
      · have : z = out.length := by omega
        subst this
        refine ⟨o, by simp, ?_⟩
        rw [hl]; exact so)
    [] ⟨rfl, by intro z hz; simp at hz⟩
  exact ⟨out, e, h1, h2⟩

theorem stack_one {im : Image ℝ} {w h : Nat} {f : Nat → Nat → ℝ} (s : im.Shows w h f) :
    StackShows [im] w h (fun _ => f) := by
  intro z hz
  have : z = 0 := by simpa using hz
  subst this
  exact ⟨im, rfl, s⟩

theorem dct3OnePlane_shows {l : List (Image ℝ)} {w h : Nat} {g : Nat → Nat → Nat → ℝ}
    (s : StackShows l w h g) {z : Nat} (hz : z < l.length) :
    ∃ out, dct3OnePlane l z = .ok out ∧ out.Shows w h (dctVal w h l.length g z) := by
  obtain ⟨imz, ez, sz⟩ := s z hz
  unfold dct3OnePlane
  rw [vget_some ez, Res.ok_bind, sz.width, sz.height]
  exact dct3OnePlaneOrd_shows s _ (.refl _) hz

theorem idct3OnePlane_shows {l : List (Image ℝ)} {w h : Nat} {g : Nat → Nat → Nat → ℝ}
    (s : StackShows l w h g) {z : Nat} (hz : z < l.length) :
    ∃ out, idct3OnePlane l z = .ok out ∧ out.Shows w h (idctVal w h l.length g z) := by
  obtain ⟨imz, ez, sz⟩ := s z hz
  unfold idct3OnePlane
  rw [vget_some ez, Res.ok_bind, sz.width, sz.height]
  exact idct3OnePlaneOrd_shows s _ (.refl _) hz

theorem cast_id {im : Image ℝ} {w h : Nat} {f : Nat → Nat → ℝ} (s : im.Shows w h f) (hw : 0 < w)
    (hh : 0 < h) : im.cast id = .ok im := by
  have hlen := s.len
  have hpos : 0 < w * h := Nat.mul_pos hw hh
  rw [Image.cast, List.map_id, Image.ofData]
  have : im.data.isEmpty = false := by
    cases hd : im.data with
    | nil => rw [hd] at hlen; simp at hlen; omega
    | cons _ _ => rfl
  rw [this, prodW_of_lt s.wf.fits, s.wf.len]
  simp

end TinyDIP
