import Verif.Lemmas.Samples
import Verif.Model.Arith
import Verif.Props.Pixelwise
import Mathlib.Algebra.Field.Defs
import Mathlib.Algebra.GroupWithZero.Basic

/-!
# Properties C110 (arithmetic between images) and C111 (operations applied plane by plane)
-/

namespace TinyDIP.Props

open TinyDIP Image Arith

variable {α β γ C D : Type}

/-! ## C110

Full statement: images of different shape are rejected by every operation. Only `subtract` and the
two-image `pixelwise_multiplies` look at the shape: see the violations. -/

/-- `subtract` rejects images of different shape; otherwise every pixel is the difference of the pixels
at its position. -/
theorem C110_subtract (minus : α → α → α) (a b : Image α) (wa : a.WF) (wb : b.WF) :
    (a.size ≠ b.size → subtract minus a b = .throw .runtime) ∧
    (a.size = b.size → 0 < a.size.prod → ∃ out, subtract minus a b = .ok out ∧ out.WF ∧
      out.size = a.size ∧ ∀ idx x y, a.at' idx = .ok x → b.at' idx = .ok y →
        out.at' idx = .ok (minus x y)) := by
  constructor
  · intro h; simp [subtract, checkSizeSame, h]
  · intro h h0
    refine ⟨_, ?_, zip_wf wa wb h minus, rfl, fun _ _ _ h1 h2 => zip_at wa wb h minus h1 h2⟩
    simp only [subtract, checkSizeSame, h, ne_eq, not_true, if_false, Res.ok_bind]
    rw [pixelwiseTransform2_ok _ wa wb h h0, h]

example : subtract (· - ·) (picture 3 2 fun x y => (x : Int) + y) (picture 2 3 fun x y => (x : Int) * y)
    = .throw .runtime :=
  (C110_subtract (· - ·) _ _ (picture_wf ..) (picture_wf ..)).1 (by decide)

example := (C110_subtract (· - ·) (picture 3 2 fun x y => (x : Int) + y) (picture 3 2 fun x y => (x : Int) * y)
  (picture_wf ..) (picture_wf ..)).2 rfl (by decide)

/-- The same for pixels with three channels, channel by channel. -/
theorem C110_subtract_channels (minus : C → C → C) (a b : Image (Px3 C)) (wa : a.WF) (wb : b.WF) :
    (a.size ≠ b.size → subtractPx3 minus a b = .throw .runtime) ∧
    (a.size = b.size → 0 < a.size.prod → ∃ out, subtractPx3 minus a b = .ok out ∧ out.WF ∧
      out.size = a.size ∧ ∀ idx x y, a.at' idx = .ok x → b.at' idx = .ok y →
        out.at' idx = .ok ⟨minus x.c0 y.c0, minus x.c1 y.c1, minus x.c2 y.c2⟩) :=
  C110_subtract (Px3.map2 minus) a b wa wb

example := (C110_subtract_channels (· - ·) (picture 3 2 fun x y => (⟨x, y, 1⟩ : Px3 Int))
  (picture 3 2 fun x y => ⟨y, 4, x⟩) (picture_wf ..) (picture_wf ..)).2 rfl (by decide)

/-- Adding back what was subtracted restores the image; an image minus itself is zero everywhere. -/
theorem C110_subtract_add [AddCommGroup α] (a b : Image α) (wa : a.WF) (wb : b.WF)
    (h : a.size = b.size) (h0 : 0 < a.size.prod) :
    (do let d ← subtract (· - ·) a b; add (· + ·) [d, b]) = .ok a ∧
    ∃ z, subtract (· - ·) a a = .ok z ∧ z.size = a.size ∧
      ∀ idx x, a.at' idx = .ok x → z.at' idx = .ok 0 := by
  constructor
  · obtain ⟨d, e, wd, sd, pd⟩ := (C110_subtract (· - ·) a b wa wb).2 h h0
    rw [e, Res.ok_bind]
    have hdb : d.size = b.size := by rw [sd, h]
    show (add (· + ·) [b] >>= fun r => pixelwiseTransform2 (· + ·) d r) = _
    rw [add, Res.ok_bind, pixelwiseTransform2_ok _ wd wb hdb (by rw [sd]; exact h0)]
    congr 1
    refine ((zip_wf wd wb hdb (· + ·)).ext_data wa (by rw [← sd]) ?_)
    intro idx v hv
    have hb0 := inBounds_of_at'_ok hv
    have hb : InBounds a.size idx := sd ▸ hb0
    obtain ⟨x, hx⟩ : ∃ x, a.at' idx = .ok x := ⟨_, wa.at' hb⟩
    obtain ⟨y, hy⟩ : ∃ y, b.at' idx = .ok y := ⟨_, wb.at' (h ▸ hb)⟩
    have := zip_at wd wb hdb (· + ·) (pd idx x y hx hy) hy
    rw [this, sub_add_cancel] at hv
    rw [hx, hv]
  · obtain ⟨z, e, wz, sz, pz⟩ := (C110_subtract (· - ·) a a wa wa).2 rfl h0
    exact ⟨z, e, sz, fun idx x hx => by rw [pz idx x x hx hx, sub_self]⟩

example := C110_subtract_add (picture 3 2 fun x y => (x : Int) + y) (picture 3 2 fun x y => (x : Int) * y)
  (picture_wf ..) (picture_wf ..) rfl (by decide)

theorem transformVec2_ok (f : Image α → Image α → Res (Image α)) (xs ys zs : List (Image α))
    (hl : xs.length = ys.length) :
    transformVec2 f xs ys = .ok zs ↔ zs.length = xs.length ∧
      ∀ (i : Nat) x y z, xs[i]? = some x → ys[i]? = some y → zs[i]? = some z → f x y = .ok z := by
  induction xs generalizing ys zs with
  | nil =>
    constructor
    · intro h; injection h with h; subst h; simp
    · rintro ⟨h, -⟩; rw [List.length_eq_zero_iff.mp h]; rfl
  | cons a as ih =>
    cases ys with
    | nil => simp at hl
    | cons b bs =>
      have hl' : as.length = bs.length := by simpa using hl
      constructor
      · intro h
        rw [transformVec2] at h
        cases ha : f a b with
        | ok r =>
          rw [ha, Res.ok_bind] at h
          cases hr : transformVec2 f as bs with
          | ok rs =>
            rw [hr, Res.ok_bind] at h
            injection h with h
            subst h
            obtain ⟨h1, h2⟩ := (ih bs rs hl').mp hr
            refine ⟨by simp [h1], fun i x y z hx hy hz => ?_⟩
            cases i with
            | zero =>
              simp only [List.getElem?_cons_zero, Option.some.injEq] at hx hy hz
              subst hx; subst hy; subst hz; exact ha
            | succ i =>
              simp only [List.getElem?_cons_succ] at hx hy hz
              exact h2 i x y z hx hy hz
          | throw e => rw [hr, Res.throw_bind] at h; cases h
          | ub => rw [hr, Res.ub_bind] at h; cases h
        | throw e => rw [ha, Res.throw_bind] at h; cases h
        | ub => rw [ha, Res.ub_bind] at h; cases h
      · rintro ⟨h1, h2⟩
        cases zs with
        | nil => simp at h1
        | cons z zs =>
          have e1 := h2 0 a b z rfl rfl rfl
          have e2 := (ih bs zs hl').mpr ⟨by simpa using h1, fun i x y w hx hy hw =>
            h2 (i + 1) x y w (by simpa using hx) (by simpa using hy) (by simpa using hw)⟩
          rw [transformVec2, e1, Res.ok_bind, e2, Res.ok_bind]

/-- `subtract` of two vectors: different lengths are rejected; otherwise the result is the vector of
the differences of the images at equal positions. -/
theorem C110_subtract_vectors (minus : α → α → α) (xs ys zs : List (Image α)) :
    (xs.length ≠ ys.length → subtractVec minus xs ys = .throw .runtime) ∧
    (xs.length = ys.length → (subtractVec minus xs ys = .ok zs ↔ zs.length = xs.length ∧
      ∀ (i : Nat) x y z, xs[i]? = some x → ys[i]? = some y → zs[i]? = some z →
        subtract minus x y = .ok z)) := by
  constructor
  · intro h; rw [subtractVec, if_pos h]
  · intro h; rw [subtractVec, if_neg (by simpa using h)]; exact transformVec2_ok _ xs ys zs h

/-- The product of two images: different shapes are rejected; otherwise the pixelwise product. -/
theorem C110_multiply_two (times : α → α → α) (a b : Image α) (wa : a.WF) (wb : b.WF) :
    (a.size ≠ b.size → multiplyAll times [a, b] = .throw .runtime) ∧
    (a.size = b.size → 0 < a.size.prod → ∃ out, multiplyAll times [a, b] = .ok out ∧ out.WF ∧
      out.size = a.size ∧ ∀ idx x y, a.at' idx = .ok x → b.at' idx = .ok y →
        out.at' idx = .ok (times x y)) := by
  constructor
  · intro h; rw [multiplyAll, pixelwiseMultiplies, if_pos h]
  · intro h h0
    refine ⟨_, ?_, zip_wf wa wb h times, rfl, fun _ _ _ h1 h2 => zip_at wa wb h times h1 h2⟩
    rw [multiplyAll, pixelwiseMultiplies, if_neg (by simpa using h), pixelwiseTransform2_ok _ wa wb h h0]

example := (C110_multiply_two (· * ·) (picture 3 2 fun x y => (x : Int) + y) (picture 3 2 fun x y => (x : Int) - y)
  (picture_wf ..) (picture_wf ..)).2 rfl (by decide)

/-- The product of two or more images of one shape: every pixel is the product of the pixels at that
position. Missing: rejection of different shapes when there are more than two images. -/
theorem C110_multiply_all_partial [CommMonoid α] (ims : List (Image α)) (hne : 2 ≤ ims.length)
    (sz : List Nat) (hw : ∀ im ∈ ims, im.WF ∧ im.size = sz) (h0 : 0 < sz.prod) :
    ∃ out, multiplyAll (· * ·) ims = .ok out ∧ out.WF ∧ out.size = sz ∧
      ∀ idx vs, List.Forall₂ (fun (im : Image α) v => im.at' idx = .ok v) ims vs →
        out.at' idx = .ok vs.prod := by
  induction ims with
  | nil => simp at hne
  | cons i rest ih =>
    obtain ⟨wi, hi⟩ := hw i (by simp)
    match rest, ih, hne, hw with
    | [j], _, _, hw =>
      obtain ⟨wj, hj⟩ := hw j (by simp)
      obtain ⟨o, e, wo, so, po⟩ := (C110_multiply_two (· * ·) i j wi wj).2 (by rw [hi, hj])
        (by rw [hi]; exact h0)
      refine ⟨o, e, wo, by rw [so, hi], ?_⟩
      intro idx vs h
      cases h with
      | cons h1 h2 =>
        cases h2 with
        | cons h2 h3 =>
          cases h3
          rw [po idx _ _ h1 h2]; simp
    | j :: k :: rest, ih, _, hw =>
      obtain ⟨r, e, wr, hr, hp⟩ := ih (by simp) (fun im him => hw im (by simp [him]))
      have hs : i.size = r.size := by rw [hi, hr]
      refine ⟨_, ?_, zip_wf wi wr hs (· * ·), hi, ?_⟩
      · rw [multiplyAll, e, Res.ok_bind, pixelwiseTransform2_ok _ wi wr hs (by rw [hi]; exact h0)]
      · intro idx vs h
        cases h with
        | cons h1 h2 =>
          rw [List.prod_cons]
          exact zip_at wi wr hs (· * ·) h1 (hp idx _ h2)

example := C110_multiply_all_partial [picture 3 2 fun x y => (x : Int) + y, picture 3 2 fun x y => (x : Int) - y,
    picture 3 2 fun x y => 5 * (x : Int) * y] (by simp) [3, 2]
  (by simp only [List.mem_cons, List.not_mem_nil, or_false]
      rintro im (rfl | rfl | rfl) <;> exact ⟨picture_wf .., rfl⟩) (by decide)

/-- Violations: with three images a smaller one is read outside its pixels, and a different shape is
accepted. -/
theorem C110_multiply_shape_violation :
    multiplyAll (· * ·) [(⟨[2, 1], [1, 2]⟩ : Image Nat), ⟨[1, 1], [5]⟩, ⟨[1, 1], [7]⟩] = .ub ∧
    multiplyAll (· * ·) [(⟨[2, 1], [1, 2]⟩ : Image Nat), ⟨[1, 2], [5, 6]⟩, ⟨[1, 2], [7, 8]⟩]
      = .ok ⟨[2, 1], [35, 96]⟩ := by decide

/-- Dividing images of one shape divides pixel by pixel, and multiplying by a divisor without zeros
restores the image. Missing: rejection of different shapes. -/
theorem C110_divide_partial [Field α] (a b : Image α) (wa : a.WF) (wb : b.WF) (h : a.size = b.size)
    (h0 : 0 < a.size.prod) :
    (∃ out, divides (· / ·) a b = .ok out ∧ out.WF ∧ out.size = a.size ∧
      ∀ idx x y, a.at' idx = .ok x → b.at' idx = .ok y → out.at' idx = .ok (x / y)) ∧
    ((∀ idx, b.at' idx ≠ .ok 0) →
      (do let q ← divides (· / ·) a b; multiplyAll (· * ·) [q, b]) = .ok a) := by
  have hd : ∃ out, divides (· / ·) a b = .ok out ∧ out.WF ∧ out.size = a.size ∧
      ∀ idx x y, a.at' idx = .ok x → b.at' idx = .ok y → out.at' idx = .ok (x / y) :=
    C09_transform2_partial (· / ·) a b wa wb h h0
  refine ⟨hd, fun hz => ?_⟩
  obtain ⟨q, e, wq, sq, pq⟩ := hd
  rw [e, Res.ok_bind]
  have hqb : q.size = b.size := by rw [sq, h]
  obtain ⟨o, eo, wo, so, po⟩ := (C110_multiply_two (· * ·) q b wq wb).2 hqb (by rw [sq]; exact h0)
  rw [eo]
  congr 1
  refine wo.ext_data wa (by rw [so, sq]) ?_
  intro idx v hv
  have hb : InBounds a.size idx := by rw [← sq, ← so]; exact inBounds_of_at'_ok hv
  obtain ⟨x, hx⟩ : ∃ x, a.at' idx = .ok x := ⟨_, wa.at' hb⟩
  obtain ⟨y, hy⟩ : ∃ y, b.at' idx = .ok y := ⟨_, wb.at' (h ▸ hb)⟩
  have hy0 : y ≠ 0 := fun h => hz idx (by rw [hy, h])
  rw [po idx _ _ (pq idx x y hx hy) hy, div_mul_cancel₀ x hy0] at hv
  rw [hx, hv]

-- A divisor without zeros.
example : (do let q ← divides (· / ·) (picture 2 1 fun x _ => (x : Rat) + 5) (picture 2 1 fun _ _ => (4 : Rat))
              multiplyAll (· * ·) [q, picture 2 1 fun _ _ => (4 : Rat)])
    = .ok (picture 2 1 fun x _ => (x : Rat) + 5) :=
  (C110_divide_partial (picture 2 1 fun x _ => (x : Rat) + 5) (picture 2 1 fun _ _ => (4 : Rat))
    (picture_wf ..) (picture_wf ..) rfl (by decide)).2 fun idx h => by
    obtain ⟨_, _, _, _, _, e⟩ := picture_at h
    exact absurd e (by decide)

/-- Dividing by a scalar is the transform by that division. -/
theorem C110_divide_scalar (op : α → α → α) (im : Image α) (wf : im.WF) (h0 : 0 < im.size.prod) (t : α) :
    dividesScalar op im t = pixelwiseTransform (fun a => op a t) im := by
  rw [dividesScalar, ofData_ok wf.len wf.fits h0, Res.ok_bind, pixelwiseTransform_ok _ wf h0, divides]
  have wf2 : (⟨im.size, List.replicate im.size.prod t⟩ : Image α).WF := ⟨by simp, wf.fits, wf.sizes⟩
  have hset : (⟨im.size, im.data⟩ : Image α).setAllValue t
      = ⟨im.size, List.replicate im.size.prod t⟩ := by
    simp [setAllValue, ← wf.len]
  rw [hset, pixelwiseTransform2_ok op wf wf2 rfl h0]
  congr 2
  apply List.ext_getElem
  · simp [wf.len]
  · intro i h1 h2; simp

example := C110_divide_scalar (· / ·) (picture 3 2 fun x y => (x : Int) + y) (picture_wf ..) (by decide) 4

/-- `divides` of vectors of equal length divides image by image. Missing: rejection of different
lengths. -/
theorem C110_divide_vectors_partial (op : α → α → α) (xs ys zs : List (Image α))
    (h : xs.length = ys.length) :
    dividesVec op xs ys = .ok zs ↔ zs.length = xs.length ∧
      ∀ (i : Nat) x y z, xs[i]? = some x → ys[i]? = some y → zs[i]? = some z → divides op x y = .ok z :=
  transformVec2_ok _ xs ys zs h

example (zs : List (Image Int)) := C110_divide_vectors_partial (· / ·) [picture 3 2 fun x y => (x : Int) + y]
  [picture 3 2 fun _ y => (y : Int) + 1] zs rfl

/-- Violations: `divides` (and `modulus`) reads outside a smaller divisor, accepts other shapes, and
reads outside a shorter vector of divisors. -/
theorem C110_divide_shape_violation :
    divides (· / ·) (⟨[2, 1], [10, 20]⟩ : Image Nat) ⟨[1, 1], [5]⟩ = .ub ∧
    divides (· / ·) (⟨[2, 1], [10, 20]⟩ : Image Nat) ⟨[1, 2], [5, 4]⟩ = .ok ⟨[2, 1], [2, 5]⟩ ∧
    dividesVec (· / ·) [(⟨[1, 1], [10]⟩ : Image Nat)] [] = .ub := by decide

/-- Negating negates every pixel, twice restores the image, and an image plus its negative is zero. -/
theorem C110_negate [AddCommGroup α] (a : Image α) (wa : a.WF) (h0 : 0 < a.size.prod) :
    ∃ n, negate (- ·) a = .ok n ∧ n.WF ∧ n.size = a.size ∧
      (∀ idx x, a.at' idx = .ok x → n.at' idx = .ok (-x)) ∧ negate (- ·) n = .ok a ∧
      ∃ z, add (· + ·) [a, n] = .ok z ∧ ∀ idx x, a.at' idx = .ok x → z.at' idx = .ok 0 := by
  have wn : (⟨a.size, a.data.map (- ·)⟩ : Image α).WF := wa.map _
  refine ⟨⟨a.size, a.data.map (- ·)⟩, pixelwiseTransform_ok _ wa h0, wn, rfl,
    fun idx x h => wa.map_at _ h, ?_, ?_⟩
  · rw [negate, pixelwiseTransform_ok _ wn h0]
    simp
  · refine ⟨⟨a.size, List.zipWith (· + ·) a.data (a.data.map (- ·))⟩, ?_, fun idx x h => ?_⟩
    · rw [add, add, Res.ok_bind, pixelwiseTransform2_ok _ wa wn rfl h0]
    · exact (zip_at wa wn rfl (· + ·) h (wa.map_at _ h)).trans (by rw [add_neg_cancel])

example := C110_negate (picture 3 2 fun x y => (x : Int) + y) (picture_wf ..) (by decide)

/-- `difference` of images of one shape: the distance of the values, channel by channel; it does not
depend on the order of the images and is zero exactly where they agree. Missing: rejection of
different shapes, and `MultiChannel` pixels. -/
theorem C110_difference_partial [CommRing C] [LinearOrder C] [IsStrictOrderedRing C]
    (a b : Image (Px3 C)) (wa : a.WF) (wb : b.WF) (h : a.size = b.size) (h0 : 0 < a.size.prod) :
    ∃ out, differencePx3 a b = .ok out ∧ differencePx3 b a = .ok out ∧ out.WF ∧ out.size = a.size ∧
      (∀ idx x y, a.at' idx = .ok x → b.at' idx = .ok y →
        out.at' idx = .ok ⟨|x.c0 - y.c0|, |x.c1 - y.c1|, |x.c2 - y.c2|⟩) ∧
      ((∀ idx x, out.at' idx = .ok x → x = ⟨0, 0, 0⟩) ↔ a = b) := by
  have hp : ∀ idx x y, a.at' idx = .ok x → b.at' idx = .ok y →
      (⟨a.size, List.zipWith (Px3.map2 absDiff) a.data b.data⟩ : Image (Px3 C)).at' idx
        = .ok ⟨|x.c0 - y.c0|, |x.c1 - y.c1|, |x.c2 - y.c2|⟩ := by
    intro idx x y hx hy
    rw [zip_at wa wb h _ hx hy, Px3.map2, absDiff_eq, absDiff_eq, absDiff_eq]
  have wz := zip_wf wa wb h (Px3.map2 (absDiff (α := C)))
  refine ⟨_, pixelwiseTransform2_ok _ wa wb h h0, ?_, wz, rfl, hp, ?_⟩
  · rw [differencePx3, pixelwiseTransform2_ok _ wb wa h.symm (h ▸ h0), h]
    congr 2
    rw [List.zipWith_comm]
    congr 1
    funext x y
    simp only [Px3.map2, absDiff_eq, abs_sub_comm]
  · constructor
    · intro hz
      refine wa.ext_data wb h ?_
      intro idx x hx
      have hb : InBounds a.size idx := inBounds_of_at'_ok hx
      obtain ⟨y, hy⟩ : ∃ y, b.at' idx = .ok y := ⟨_, wb.at' (h ▸ hb)⟩
      have := hz idx _ (hp idx x y hx hy)
      injection this with h1 h2 h3
      rw [abs_eq_zero, sub_eq_zero] at h1 h2 h3
      rw [hy]
      cases x; cases y; simp_all
    · rintro rfl
      intro idx x hx
      have hb := inBounds_of_at'_ok hx
      obtain ⟨y, hy⟩ : ∃ y, a.at' idx = .ok y := ⟨_, wa.at' hb⟩
      have := hp idx y y hy hy
      rw [this] at hx
      injection hx with hx
      rw [← hx]; simp

example := C110_difference_partial (picture 3 2 fun x y => (⟨x, y, 1⟩ : Px3 Int)) (picture 3 2 fun x y => ⟨y, 4, x⟩)
  (picture_wf ..) (picture_wf ..) rfl (by decide)

/-- For `MultiChannel` pixels with three channels every channel is the absolute difference, whatever was in
memory. -/
theorem C110_difference_three (junk : List Int) (hj : junk.length = 3) (p q : List Int) (hp : p.length = 3)
    (hq : q.length = 3) :
    ∃ r, differencePixelMulti junk p q = .ok r ∧ r.length = 3 ∧
      ∀ (k : Nat) (a b : Int), p[k]? = some a → q[k]? = some b → r[k]? = some |a - b| := by
  match p, q, junk, hp, hq, hj with
  | [a, b, c], [d, e, f], [_, _, _], _, _, _ =>
    have h : ∀ x y : Int, absDiff x y = |x - y| := by
      intro x y
      unfold absDiff
      split <;> [rw [abs_of_pos (by omega)]; rw [abs_of_nonpos (by omega)]] <;> omega
    refine ⟨[|a - d|, |b - e|, |c - f|], ?_, rfl, ?_⟩
    · rw [← h, ← h, ← h]; rfl
    · intro k x y hx hy
      match k with
      | 0 => simp_all
      | 1 => simp_all
      | 2 => simp_all
      | k + 3 => simp at hx

example := C110_difference_three [9, 9, 9] rfl [1, 20, 3] [5, 2, 3] rfl rfl

/-- Violations: for `MultiChannel` pixels with two channels `difference` reads and writes outside the
pixel, and with four channels the last one is never computed: it is whatever was in memory. -/
theorem C110_difference_channels_violation (junk : List Int) (p q : List Int) (hp : p.length = 2)
    (hq : q.length = 2) (hj : junk.length = 2) :
    differencePixelMulti junk p q = .ub ∧
    ∀ t u v w : Int, differencePixelMulti [t, u, v, w] [5, 6, 7, 8] [5, 6, 7, 1] = .ok [0, 0, 0, w] := by
  constructor
  · match p, q, junk, hp, hq, hj with
    | [a, b], [c, d], [e, f], _, _, _ => rfl
  · intro t u v w; rfl

example : sample.WF ∧ 0 < sample.size.prod := ⟨sample_wf, by decide⟩

/-! ## C111 -/

theorem applyEach_ok (zero : C) (zero' : D) (op : Image C → Res (Image D)) (im : Image (Px3 C))
    (wf : im.WF) (h0 : 0 < im.size.prod) :
    applyEach zero zero' op im = (do
      let a ← op ⟨im.size, im.data.map Px3.c0⟩
      let b ← op ⟨im.size, im.data.map Px3.c1⟩
      let c ← op ⟨im.size, im.data.map Px3.c2⟩
      constructPx3 zero' a b c) := by
  have hr : (List.range im.count).Perm (List.range im.data.length) := by rw [wf.count]
  rw [applyEach, getPlane, getPlane, getPlane, getPlaneOrd_ok zero im wf h0 0 Px3.c0 (fun _ => rfl) _ hr,
    getPlaneOrd_ok zero im wf h0 1 Px3.c1 (fun _ => rfl) _ hr,
    getPlaneOrd_ok zero im wf h0 2 Px3.c2 (fun _ => rfl) _ hr]
  rfl

/-- Each plane of the result is the operation applied to the corresponding plane of the input. -/
theorem C111_planes (zero : C) (zero' : D) (op : Image C → Res (Image D)) (im : Image (Px3 C))
    (a b c : Image D) (wa : a.WF) (wb : b.WF) (wc : c.WF)
    (hab : a.size = b.size) (hbc : b.size = c.size) (ha0 : 0 < a.size.prod)
    (ha : (getPlane zero im 0 >>= op) = .ok a) (hb : (getPlane zero im 1 >>= op) = .ok b)
    (hc : (getPlane zero im 2 >>= op) = .ok c) :
    ∃ out, applyEach zero zero' op im = .ok out ∧ out.WF ∧ out.size = a.size ∧
      ∀ k, k < 3 → getPlane zero' out k = (getPlane zero im k >>= op) := by
  obtain ⟨out, e, wo, p0, p1, p2⟩ := (C73_merge_split zero' a b c wa wb wc ha0).2 hab hbc
  have h1 : applyEach zero zero' op im = .ok out := by
    simp only [applyEach, ha, hb, hc, Res.ok_bind, e]
  have hs : out.size = a.size := by
    have : constructPx3 zero' a b c = .ok out := e
    rw [constructPx3, constructPx3Ord, checkSizeSame, if_neg (by simpa using hab), Res.ok_bind,
      checkSizeSame, if_neg (by simpa using hbc), Res.ok_bind] at this
    obtain ⟨d, h1⟩ : ∃ d, ofData d a.size = .ok out := by
      revert this
      generalize loop _ _ _ = r
      intro this
      cases r with
      | ok d => exact ⟨d, this⟩
      | throw e => cases this
      | ub => cases this
    rw [ofData] at h1
    split at h1
    · cases h1
    · split at h1
      · cases h1
      · injection h1 with h1; rw [← h1]
  refine ⟨out, h1, wo, hs, fun k hk => ?_⟩
  have hk' : k = 0 ∨ k = 1 ∨ k = 2 := by omega
  rcases hk' with rfl | rfl | rfl
  · rw [p0, ha]
  · rw [p1, hb]
  · rw [p2, hc]

example := C111_planes (0 : Int) 0 (pixelwiseTransform (· + 1)) (picture 2 1 fun x y => (⟨x, y, 7⟩ : Px3 Int))
  (picture 2 1 fun x _ => (x : Int) + 1) (picture 2 1 fun _ y => (y : Int) + 1) (picture 2 1 fun _ _ => 8)
  (picture_wf ..) (picture_wf ..) (picture_wf ..) rfl rfl (by decide) rfl rfl rfl

/-- If the operation fails on one of the planes, or the resulting planes differ in size, there is no
result. -/
theorem C111_rejected (zero : C) (zero' : D) (op : Image C → Res (Image D)) (im : Image (Px3 C)) :
    (∀ k, k < 3 → (∀ p, (getPlane zero im k >>= op) ≠ .ok p) →
      ∀ out, applyEach zero zero' op im ≠ .ok out) ∧
    (∀ a b c, (getPlane zero im 0 >>= op) = .ok a → (getPlane zero im 1 >>= op) = .ok b →
      (getPlane zero im 2 >>= op) = .ok c → (a.size ≠ b.size ∨ b.size ≠ c.size) →
      applyEach zero zero' op im = .throw .runtime) := by
  constructor
  · intro k hk hf out h
    rw [applyEach] at h
    cases h0 : (getPlane zero im 0 >>= op) with
    | throw e => rw [h0] at h; cases h
    | ub => rw [h0] at h; cases h
    | ok a =>
      rw [h0, Res.ok_bind] at h
      cases h1 : (getPlane zero im 1 >>= op) with
      | throw e => rw [h1] at h; cases h
      | ub => rw [h1] at h; cases h
      | ok b =>
        rw [h1, Res.ok_bind] at h
        cases h2 : (getPlane zero im 2 >>= op) with
        | throw e => rw [h2] at h; cases h
        | ub => rw [h2] at h; cases h
        | ok c =>
          have hk' : k = 0 ∨ k = 1 ∨ k = 2 := by omega
          rcases hk' with rfl | rfl | rfl
          · exact hf a h0
          · exact hf b h1
          · exact hf c h2
  · intro a b c ha hb hc hne
    rw [applyEach, ha, Res.ok_bind, hb, Res.ok_bind, hc, Res.ok_bind]
    by_cases h1 : a.size = b.size
    · have h2 : b.size ≠ c.size := hne.resolve_left (by simpa using h1)
      simp [constructPx3, constructPx3Ord, checkSizeSame, h1, h2]
    · simp [constructPx3, constructPx3Ord, checkSizeSame, h1]

theorem applyEach_transform (zero : C) (zero' : D) (f : C → D) (im : Image (Px3 C)) (wf : im.WF)
    (h0 : 0 < im.size.prod) :
    applyEach zero zero' (pixelwiseTransform f) im =
      .ok ⟨im.size, im.data.map fun p => ⟨f p.c0, f p.c1, f p.c2⟩⟩ := by
  rw [applyEach_ok zero zero' _ im wf h0, pixelwiseTransform_ok f (wf.map Px3.c0) h0, Res.ok_bind,
    pixelwiseTransform_ok f (wf.map Px3.c1) h0, Res.ok_bind, pixelwiseTransform_ok f (wf.map Px3.c2) h0,
    Res.ok_bind]
  have := constructPx3Ord_ok zero' im.size (im.data.map fun p => (⟨f p.c0, f p.c1, f p.c2⟩ : Px3 D))
    (by simpa using wf.len) wf.fits h0 (List.range im.count) (by rw [wf.count]; simp)
  simp only [List.map_map] at this ⊢
  exact this

/-- An operation that works pixel by pixel acts on every channel of every pixel; the size is kept. -/
theorem C111_pointwise (zero : C) (zero' : D) (f : C → D) (im : Image (Px3 C)) (wf : im.WF)
    (h0 : 0 < im.size.prod) :
    ∃ out, applyEach zero zero' (pixelwiseTransform f) im = .ok out ∧ out.WF ∧ out.size = im.size ∧
      ∀ idx p, im.at' idx = .ok p → out.at' idx = .ok ⟨f p.c0, f p.c1, f p.c2⟩ :=
  ⟨_, applyEach_transform zero zero' f im wf h0, wf.map _, rfl, fun _ _ h => wf.map_at _ h⟩

example := C111_pointwise (0 : Int) 0 (· + 1) (picture 3 2 fun x y => (⟨x, y, 7⟩ : Px3 Int)) (picture_wf ..) (by decide)

/-- Multiplying an image with three channels by a scalar multiplies every channel of every pixel. -/
theorem C111_multiplies (times : C → β → D) (zc : C) (zb : β) (zd : D) (im : Image (Px3 C)) (wf : im.WF)
    (h0 : 0 < im.size.prod) (t : β) :
    ∃ out, multipliesPx3 times zc zb zd im t = .ok out ∧ out.WF ∧ out.size = im.size ∧
      ∀ idx p, im.at' idx = .ok p → out.at' idx = .ok ⟨times p.c0 t, times p.c1 t, times p.c2 t⟩ := by
  obtain ⟨out, e, r⟩ := C111_pointwise zc zd (fun a => times a t) im wf h0
  refine ⟨out, ?_, r⟩
  rw [multipliesPx3, ← e, applyEach_ok _ _ _ im wf h0, applyEach_ok _ _ _ im wf h0,
    C09_multiplies_scalar times zb t _ (wf.map Px3.c0) h0,
    C09_multiplies_scalar times zb t _ (wf.map Px3.c1) h0,
    C09_multiplies_scalar times zb t _ (wf.map Px3.c2) h0]

example := C111_multiplies (· * ·) 0 0 0 (picture 3 2 fun x y => (⟨x, y, 7⟩ : Px3 Int)) (picture_wf ..) (by decide) 5

/-- Applying one operation after the other plane by plane is applying their composition plane by
plane. -/
theorem C111_compose {E : Type} (zc : C) (zd : D) (ze : E) (op : Image C → Res (Image D))
    (op' : Image D → Res (Image E)) (im : Image (Px3 C))
    (a b c : Image D) (wa : a.WF) (wb : b.WF) (wc : c.WF) (hab : a.size = b.size) (hbc : b.size = c.size)
    (ha0 : 0 < a.size.prod) (ha : (getPlane zc im 0 >>= op) = .ok a)
    (hb : (getPlane zc im 1 >>= op) = .ok b) (hc : (getPlane zc im 2 >>= op) = .ok c) :
    (applyEach zc zd op im >>= applyEach zd ze op') = applyEach zc ze (fun p => op p >>= op') im := by
  obtain ⟨out, e, wo, so, po⟩ := C111_planes zc zd op im a b c wa wb wc hab hbc ha0 ha hb hc
  rw [e, Res.ok_bind, applyEach, applyEach, po 0 (by omega), po 1 (by omega), po 2 (by omega)]
  simp only [bind_assoc]

example := C111_compose (0 : Int) 0 0 (pixelwiseTransform (· + 1)) (pixelwiseTransform (2 * ·))
  (picture 2 1 fun x y => (⟨x, y, 7⟩ : Px3 Int))
  (picture 2 1 fun x _ => (x : Int) + 1) (picture 2 1 fun _ y => (y : Int) + 1) (picture 2 1 fun _ _ => 8)
  (picture_wf ..) (picture_wf ..) (picture_wf ..) rfl rfl (by decide) rfl rfl rfl

/-- Two images: each plane of the result is the operation applied to the two corresponding planes. -/
theorem C111_two_images (zero : C) (zero' : D) (op : Image C → Image C → Res (Image D))
    (im im' : Image (Px3 C))
    (p : Nat → Image C) (q : Nat → Image C) (o : Nat → Image D)
    (hp : ∀ k, k < 3 → getPlane zero im k = .ok (p k)) (hq : ∀ k, k < 3 → getPlane zero im' k = .ok (q k))
    (ho : ∀ k, k < 3 → op (p k) (q k) = .ok (o k)) (wo : ∀ k, k < 3 → (o k).WF)
    (hs : ∀ k, k < 3 → (o k).size = (o 0).size) (ho0 : 0 < (o 0).size.prod) :
    ∃ out, applyEach2 zero zero' op im im' = .ok out ∧ out.WF ∧
      ∀ k, k < 3 → getPlane zero' out k = .ok (o k) := by
  obtain ⟨out, e, wout, p0, p1, p2⟩ := (C73_merge_split zero' (o 0) (o 1) (o 2) (wo 0 (by omega))
    (wo 1 (by omega)) (wo 2 (by omega)) ho0).2 (hs 1 (by omega)).symm
    ((hs 1 (by omega)).trans (hs 2 (by omega)).symm)
  refine ⟨out, ?_, wout, fun k hk => ?_⟩
  · rw [applyEach2]
    simp only [hp 0 (by omega), hp 1 (by omega), hp 2 (by omega), hq 0 (by omega), hq 1 (by omega),
      hq 2 (by omega), Res.ok_bind, ho 0 (by omega), ho 1 (by omega), ho 2 (by omega), e]
  · have hk' : k = 0 ∨ k = 1 ∨ k = 2 := by omega
    rcases hk' with rfl | rfl | rfl
    · exact p0
    · exact p1
    · exact p2

-- Two colour pictures combined plane by plane with `subtract`.
example := C111_two_images (0 : Int) 0 (subtract (· - ·)) (picture 2 1 fun x y => (⟨x, y, 7⟩ : Px3 Int))
  (picture 2 1 fun x y => ⟨y, x, 3⟩)
  (fun k => picture 2 1 fun x y => if k = 0 then (x : Int) else if k = 1 then y else 7)
  (fun k => picture 2 1 fun x y => if k = 0 then (y : Int) else if k = 1 then x else 3)
  (fun k => picture 2 1 fun x y => if k = 0 then (x : Int) - y else if k = 1 then (y : Int) - x else 4)
  (by intro k hk; obtain rfl | rfl | rfl : k = 0 ∨ k = 1 ∨ k = 2 := by omega
      all_goals rfl)
  (by intro k hk; obtain rfl | rfl | rfl : k = 0 ∨ k = 1 ∨ k = 2 := by omega
      all_goals rfl)
  (by intro k hk; obtain rfl | rfl | rfl : k = 0 ∨ k = 1 ∨ k = 2 := by omega
      all_goals rfl)
  (fun _ _ => picture_wf ..) (fun _ _ => rfl) (by decide)

/-! ### `MultiChannel` images -/

/-- `im` is the image of sizes `sz` whose planes are `ps`. -/
def HasPlanes (im : Image (List C)) (sz : List Nat) (ps : List (Image C)) : Prop :=
  im.WF ∧ im.size = sz ∧ ∀ (i : Nat) p, im.data[i]? = some p →
    p.map some = ps.map fun pl => pl.data[i]?

theorem HasPlanes.len {im : Image (List C)} {sz ps} (h : HasPlanes im sz ps) :
    ∀ p ∈ im.data, p.length = ps.length := by
  intro p hp
  obtain ⟨i, hi, rfl⟩ := List.getElem_of_mem hp
  have := congrArg List.length (h.2.2 i _ (List.getElem?_eq_getElem hi))
  simpa using this

theorem HasPlanes.plane {im : Image (List C)} {sz : List Nat} {ps : List (Image C)}
    (h : HasPlanes im sz ps) (hw : ∀ p ∈ ps, p.WF ∧ p.size = sz) (h0 : 0 < sz.prod) (k : Nat)
    (hk : k < ps.length) : getPlaneMulti ps.length im k = .ok ps[k] := by
  obtain ⟨wk, sk⟩ := hw _ (List.getElem_mem hk)
  have hd : ps[k].data.length = im.data.length := by rw [wk.len, h.1.len, sk, h.2.1]
  rw [getPlaneMulti_ok ps.length im h.1 (by rw [h.2.1]; exact h0) h.len k hk ps[k].data hd]
  · congr 1
    have : im.size = ps[k].size := by rw [sk, h.2.1]
    rw [this]
  · intro i hi
    have := congrArg (fun l => l[k]?) (h.2.2 i _ (List.getElem?_eq_getElem hi))
    simp only [List.getElem?_map, List.getElem?_eq_getElem hk, Option.map_some] at this
    rw [List.getElem?_eq_getElem (by omega : i < ps[k].data.length)] at this
    cases hx : im.data[i][k]? with
    | none => rw [hx] at this; cases this
    | some v =>
      rw [hx, Option.map_some] at this
      injection this

theorem HasPlanes.addChannel {im : Image (List C)} {sz : List Nat} {ps : List (Image C)}
    (h : HasPlanes im sz ps) (p : Image C) (wp : p.WF) (sp : p.size = sz) (h0 : 0 < sz.prod) :
    ∃ out, TinyDIP.addChannel im p = .ok out ∧ HasPlanes out sz (ps ++ [p]) := by
  have hs : im.size = p.size := by rw [h.2.1, sp]
  have hl : im.data.length = p.data.length := by rw [h.1.len, wp.len, hs]
  refine ⟨_, addChannel_ok im p h.1 wp hs (by rw [h.2.1]; exact h0), ?_, h.2.1, ?_⟩
  · exact ⟨by simp [hl, wp.len, hs], h.1.fits, h.1.sizes⟩
  · intro i v hv
    rw [List.getElem?_zipWith] at hv
    cases hi : im.data[i]? with
    | none => rw [hi] at hv; simp at hv
    | some q =>
      cases hj : p.data[i]? with
      | none => rw [hi, hj] at hv; simp at hv
      | some w =>
        rw [hi, hj] at hv
        simp only [Option.some.injEq] at hv
        subst hv
        rw [List.map_append, List.map_append, h.2.2 i q hi]
        simp [hj]

theorem addChannels_ok {sz : List Nat} (h0 : 0 < sz.prod) (rest : List (Image C))
    (hw : ∀ p ∈ rest, p.WF ∧ p.size = sz) (im : Image (List C)) (ps : List (Image C))
    (h : HasPlanes im sz ps) :
    ∃ out, addChannels im rest = .ok out ∧ HasPlanes out sz (ps ++ rest) := by
  induction rest generalizing im ps with
  | nil => exact ⟨im, rfl, by simpa using h⟩
  | cons p rest ih =>
    obtain ⟨m, e, hm⟩ := h.addChannel p (hw p (by simp)).1 (hw p (by simp)).2 h0
    obtain ⟨out, e', ho⟩ := ih (fun q hq => hw q (by simp [hq])) m (ps ++ [p]) hm
    refine ⟨out, ?_, by simpa using ho⟩
    rw [addChannels, e, Res.ok_bind, e']

/-- `constructMultiChannel` of any number of planes of one size, whatever the OpenMP order: reading
plane `k` back returns the `k`-th plane. -/
theorem C111_construct (zero : C) (ps : List (Image C)) (hne : ps ≠ []) (sz : List Nat)
    (hw : ∀ p ∈ ps, p.WF ∧ p.size = sz) (h0 : 0 < sz.prod) (order : List Nat)
    (ho : order.Perm (List.range sz.prod)) :
    ∃ out, constructMulti zero order ps = .ok out ∧ out.WF ∧ out.size = sz ∧
      ∀ k (hk : k < ps.length), getPlaneMulti ps.length out k = .ok ps[k] := by
  suffices H : ∃ out, constructMulti zero order ps = .ok out ∧ HasPlanes out sz ps by
    obtain ⟨out, e, h⟩ := H
    exact ⟨out, e, h.1, h.2.1, fun k hk => h.plane hw h0 k hk⟩
  match ps, hne, hw with
  | [a], _, hw =>
    obtain ⟨wa, sa⟩ := hw a (by simp)
    refine ⟨⟨a.size, a.data.map fun v => [v]⟩, ?_, wa.map _, sa, ?_⟩
    · rw [constructMulti, constructMulti1, wa.count,
        forUp_collect _ (a.data.map fun v => [v]) _ (by simp), Res.ok_bind, List.nil_append,
        ofData_ok (by simpa using wa.len) wa.fits (by rw [sa]; exact h0)]
      intro i hi out
      rw [vget_eq_ok hi, Res.ok_bind]
      simp
    · intro i p hp
      rw [List.getElem?_map] at hp
      cases hi : a.data[i]? with
      | none => rw [hi] at hp; cases hp
      | some v => rw [hi] at hp; injection hp with hp; subst hp; simp [hi]
  | [a, b], _, hw =>
    obtain ⟨wa, sa⟩ := hw a (by simp)
    obtain ⟨wb, sb⟩ := hw b (by simp)
    have hab : a.data.length = b.data.length := by rw [wa.len, wb.len, sa, sb]
    have hla : a.data.length = sz.prod := by rw [wa.len, sa]
    refine ⟨⟨a.size, List.zipWith (fun x y => [x, y]) a.data b.data⟩, ?_, zip_wf wa wb (by rw [sa, sb]) _,
      sa, ?_⟩
    · rw [constructMulti, constructMulti2, checkSizeSame, if_neg (by simp [sa, sb]), Res.ok_bind, wa.count,
        loop_listMap (List.zip a.data b.data) rfl (fun p : C × C => [p.1, p.2]) _ order _ _
          (by simp [hab]) (by simpa [hab, ← hla] using ho), Res.ok_bind,
        ofData_ok (by simp [← hab, wa.len]) wa.fits (by rw [sa]; exact h0)]
      · congr 2
        rw [List.zip, List.map_zipWith]
      · intro i hi v hv d hd
        have hlt : i < d.length := by rw [hd]; exact (List.getElem?_eq_some_iff.mp hv).1
        have hla' : i < a.data.length := by rw [hd] at hlt; simp at hlt; omega
        have hlb' : i < b.data.length := by omega
        rw [List.getElem?_eq_getElem (by simpa using ⟨hla', hlb'⟩)] at hv
        injection hv with hv
        subst hv
        rw [vget_eq_ok hla', Res.ok_bind, vget_eq_ok hlb', Res.ok_bind, vset, if_pos hlt]
        simp
    · intro i p hp
      rw [List.getElem?_zipWith] at hp
      cases hi : a.data[i]? with
      | none => rw [hi] at hp; simp at hp
      | some x =>
        cases hj : b.data[i]? with
        | none => rw [hi, hj] at hp; simp at hp
        | some y =>
          rw [hi, hj] at hp; simp only [Option.some.injEq] at hp; subst hp; simp [hi, hj]
  | a :: b :: c :: rest, _, hw =>
    obtain ⟨wa, sa⟩ := hw a (by simp)
    obtain ⟨wb, sb⟩ := hw b (by simp)
    obtain ⟨wc, sc⟩ := hw c (by simp)
    have hab : a.data.length = b.data.length := by rw [wa.len, wb.len, sa, sb]
    have hbc : b.data.length = c.data.length := by rw [wb.len, wc.len, sb, sc]
    have hla : a.data.length = sz.prod := by rw [wa.len, sa]
    obtain ⟨P, e0, e1, e2⟩ := exists_px3 a.data b.data c.data hab hbc
    have hP : P.length = a.data.length := by rw [← e0, List.length_map]
    have hm : constructMulti3 zero order a b c = .ok ⟨a.size, P.map fun p => [p.c0, p.c1, p.c2]⟩ := by
      rw [constructMulti3, checkSizeSame, if_neg (by simp [sa, sb]), Res.ok_bind, checkSizeSame,
        if_neg (by simp [sb, sc]), Res.ok_bind, wa.count,
        loop_listMap P rfl (fun p : Px3 C => [p.c0, p.c1, p.c2]) _ order _ _
          (by simp [hP]) (by rw [hP, hla]; exact ho), Res.ok_bind,
        ofData_ok (by simp [hP, wa.len]) wa.fits (by rw [sa]; exact h0)]
      intro i hi v hv d hd
      have hlt : i < d.length := by rw [hd]; exact (List.getElem?_eq_some_iff.mp hv).1
      rw [← e0, ← e1, ← e2]
      simp only [vget, List.getElem?_map, hv, Option.map_some, Res.ok_bind]
      rw [vset, if_pos hlt]
    have h3 : HasPlanes (⟨a.size, P.map fun p => [p.c0, p.c1, p.c2]⟩ : Image (List C)) sz [a, b, c] := by
      refine ⟨⟨by simp [hP, wa.len], wa.fits, wa.sizes⟩, sa, ?_⟩
      intro i p hp
      rw [List.getElem?_map] at hp
      cases hi : P[i]? with
      | none => rw [hi] at hp; cases hp
      | some v =>
        rw [hi] at hp; injection hp with hp; subst hp
        simp [← e0, ← e1, ← e2, hi]
    obtain ⟨out, e, ho'⟩ := addChannels_ok h0 rest (fun p hp => hw p (by simp [hp])) _ _ h3
    exact ⟨out, by rw [constructMulti, hm, Res.ok_bind, e], by simpa using ho'⟩

-- Four planes, put together in the reverse order of the pixels.
example := C111_construct (0 : Int) ((List.range 4).map fun k => picture 3 2 fun x y => (x : Int) + k * y) (by decide)
  [3, 2]
  (by intro p hp; rw [List.mem_map] at hp; obtain ⟨k, -, rfl⟩ := hp; exact ⟨picture_wf .., rfl⟩) (by decide) _
  (List.reverse_perm _)

theorem collect_ok (rs : List (Res α)) (vs : List α) (h : rs = vs.map .ok) : collect rs = .ok vs := by
  subst h
  induction vs with
  | nil => rfl
  | cons v vs ih => rw [List.map_cons, collect, Res.ok_bind, ih, Res.ok_bind]

/-- `apply_each` of a `MultiChannel` image with any number of channels: each plane of the result is the
operation applied to the corresponding plane. -/
theorem C111_multi (zero : D) (n : Nat) (hn : 0 < n) (op : Image C → Res (Image D)) (im : Image (List C))
    (os : List (Image D)) (hl : os.length = n) (sz : List Nat) (hw : ∀ p ∈ os, p.WF ∧ p.size = sz)
    (h0 : 0 < sz.prod) (hop : ∀ k (hk : k < os.length), (getPlaneMulti n im k >>= op) = .ok os[k])
    (order : List Nat) (ho : order.Perm (List.range sz.prod)) :
    ∃ out, applyEachMulti zero order n op im = .ok out ∧ out.WF ∧ out.size = sz ∧
      ∀ k, k < n → getPlaneMulti n out k = (getPlaneMulti n im k >>= op) := by
  obtain ⟨out, e, wo, so, po⟩ := C111_construct zero os (by rintro rfl; simp at hl; omega) sz hw h0 order ho
  refine ⟨out, ?_, wo, so, fun k hk => ?_⟩
  · rw [applyEachMulti, collect_ok _ os, Res.ok_bind, e]
    refine List.ext_getElem (by simp [hl]) fun k h1 h2 => ?_
    rw [List.getElem_map, List.getElem_map, List.getElem_range]
    exact hop k (by simpa using h2)
  · have := po k (by omega)
    rw [hop k (by omega), ← this, hl]

example := C111_multi (0 : Int) 2 (by decide) (pixelwiseTransform (· + 1)) (picture 2 1 fun x y => [(x : Int), y + 5])
  [picture 2 1 fun x _ => (x : Int) + 1, picture 2 1 fun _ y => (y : Int) + 6] rfl [2, 1]
  (by simp only [List.mem_cons, List.not_mem_nil, or_false]
      rintro p (rfl | rfl) <;> exact ⟨picture_wf .., rfl⟩) (by decide)
  (by intro k hk
      simp only [List.length_cons, List.length_nil] at hk
      obtain rfl | rfl : k = 0 ∨ k = 1 := by omega
      all_goals rfl) _ (List.reverse_perm _)

/-- `apply_each_single_output(3, image, op)` returns the results for the three planes in order. -/
theorem C111_single (zero : C) (op : Image C → Res D) (im : Image (Px3 C)) (a b c : D)
    (ha : (getPlane zero im 0 >>= op) = .ok a) (hb : (getPlane zero im 1 >>= op) = .ok b)
    (hc : (getPlane zero im 2 >>= op) = .ok c) :
    applyEachSingle zero 3 op im = .ok [a, b, c] := by
  have e : ∀ k v, (getPlane zero im k >>= op) = .ok v → ∀ out : List D,
      (do let p ← getPlane zero im k
          let v ← op p
          Res.ok (out ++ [v])) = .ok (out ++ [v]) := by
    intro k v h out
    rw [← bind_assoc, h, Res.ok_bind]
  have e0 := e 0 a ha []
  have e1 := e 1 b hb ([] ++ [a])
  have e2 := e 2 c hc ([] ++ [a] ++ [b])
  rw [applyEachSingle, forUp, show List.range 3 = [0, 1, 2] from rfl]
  simp only [loop, e0, e1, e2]
  rfl

example : applyEachSingle 0 3 (fun p => .ok p.data.sum) (picture 2 2 fun x y => (⟨x, 10 * y, 7⟩ : Px3 Int))
    = .ok [2, 20, 28] :=
  C111_single _ _ _ _ _ _ rfl rfl rfl

/-- Violation: more than three channels of a three-channel pixel can be asked for; they are read outside
the pixel. -/
theorem C111_single_violation : applyEachSingle (0 : BitVec 8) 4 (fun p => .ok p.size)
    (⟨[1, 1], [⟨1, 2, 3⟩]⟩ : Image RGB) = .ub := by decide

/-- `apply_each_pixel` with any policy and `apply_each_pixel_openmp`, whatever the order in which the
pixels are processed: every pixel is transformed. -/
theorem C111_each_pixel (zero : β) (f : α → β) (im : Image α) (wf : im.WF) (h0 : 0 < im.size.prod)
    (order : List Nat) (hp : order.Perm (List.range im.data.length)) :
    ∃ out, applyEachPixel zero order f im = .ok out ∧ out.WF ∧ out.size = im.size ∧
      ∀ idx v, im.at' idx = .ok v → out.at' idx = .ok (f v) := by
  refine ⟨⟨im.size, im.data.map f⟩, ?_, wf.map f, rfl, fun _ _ h => wf.map_at f h⟩
  rw [applyEachPixel, wf.count, loop_listMap im.data rfl f _ order _ _ (by simp) hp, Res.ok_bind,
    ofData_ok (by simpa using wf.len) wf.fits h0]
  intro i hi a ha d hd
  have hlt : i < d.length := by
    rw [hd]; exact (List.getElem?_eq_some_iff.mp ha).1
  simp [vget, ha, vset, hlt]

example : ∃ a b c : Image (BitVec 8),
    (getPlane 0 (⟨[1, 2], [⟨3, 4, 5⟩, ⟨6, 7, 8⟩]⟩ : Image RGB) 0 >>= pixelwiseTransform (· + 1)) = .ok a ∧
    (getPlane 0 (⟨[1, 2], [⟨3, 4, 5⟩, ⟨6, 7, 8⟩]⟩ : Image RGB) 1 >>= pixelwiseTransform (· + 1)) = .ok b ∧
    (getPlane 0 (⟨[1, 2], [⟨3, 4, 5⟩, ⟨6, 7, 8⟩]⟩ : Image RGB) 2 >>= pixelwiseTransform (· + 1)) = .ok c ∧
    a.size = [1, 2] ∧ b.size = [1, 2] ∧ c.size = [1, 2] := by
  refine ⟨⟨[1, 2], [4, 7]⟩, ⟨[1, 2], [5, 8]⟩, ⟨[1, 2], [6, 9]⟩, ?_, ?_, ?_, rfl, rfl, rfl⟩ <;> decide

end TinyDIP.Props
