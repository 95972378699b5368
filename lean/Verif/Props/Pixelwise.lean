import Verif.Lemmas.Samples
import Verif.Lemmas.Pixelwise
import Verif.Props.Core
import Mathlib.Algebra.Order.Ring.Int
import Mathlib.Tactic.Ring

/-!
# Properties C08–C10, C57–C59, C73–C75 and the pixelwise part of C27
-/

namespace TinyDIP.Props

open TinyDIP Image

variable {α β γ : Type}

/-- Channel-wise addition of pixels (base_types.h `operator+`) is a commutative monoid whenever the
channel addition is. -/
instance {C : Type} [AddCommMonoid C] : AddCommMonoid (Px3 C) where
  add := Px3.map2 (· + ·)
  zero := ⟨0, 0, 0⟩
  nsmul := @nsmulRec _ ⟨⟨0, 0, 0⟩⟩ ⟨Px3.map2 (· + ·)⟩
  nsmul_zero _ := rfl
  nsmul_succ _ _ := rfl
  add_assoc a b c := by
    change Px3.map2 _ (Px3.map2 _ _ _) _ = Px3.map2 _ _ (Px3.map2 _ _ _)
    simp [Px3.map2, add_assoc]
  zero_add a := by
    change Px3.map2 _ ⟨0, 0, 0⟩ a = a
    simp [Px3.map2]
  add_zero a := by
    change Px3.map2 _ a ⟨0, 0, 0⟩ = a
    simp [Px3.map2]
  add_comm a b := by
    change Px3.map2 _ a b = Px3.map2 _ b a
    simp [Px3.map2, add_comm]

/-! ## C08 add

Full statement: images of differing shape are rejected. The code compares nothing: see the
violations. -/

/-- Images of one shape (at least one pixel): the result has that shape and every pixel is the sum
of the pixels at that position. Missing: rejection of differing shapes. -/
theorem C08_add_partial [AddCommMonoid α] (ims : List (Image α)) (hne : ims ≠ []) (sz : List Nat)
    (hw : ∀ im ∈ ims, im.WF ∧ im.size = sz) (h0 : 0 < sz.prod) :
    ∃ out, add (· + ·) ims = .ok out ∧ out.WF ∧ out.size = sz ∧
      ∀ idx vs, List.Forall₂ (fun (im : Image α) v => im.at' idx = .ok v) ims vs →
        out.at' idx = .ok vs.sum := by
  induction ims with
  | nil => exact absurd rfl hne
  | cons i rest ih =>
    obtain ⟨wi, hi⟩ := hw i (by simp)
    cases rest with
    | nil =>
      refine ⟨i, rfl, wi, hi, ?_⟩
      intro idx vs h
      cases h with
      | cons h1 h2 => cases h2; simpa using h1
    | cons j rest =>
      obtain ⟨r, e, wr, hr, hp⟩ := ih (by simp) (fun im him => hw im (by simp [him]))
      have hs : i.size = r.size := by rw [hi, hr]
      refine ⟨_, ?_, zip_wf wi wr hs (· + ·), hi, ?_⟩
      · rw [add, e, Res.ok_bind, pixelwiseTransform2_ok _ wi wr hs (by rw [hi]; exact h0)]
      · intro idx vs h
        cases h with
        | cons h1 h2 =>
          rw [List.sum_cons]
          exact zip_at wi wr hs (· + ·) h1 (hp idx _ h2)

-- Three 3 × 2 pictures of whole numbers.
example := C08_add_partial [picture 3 2 fun x y => (x : Int) + y, picture 3 2 fun x y => (x : Int) - y,
    picture 3 2 fun x y => 5 * (x : Int) * y] (by simp) [3, 2]
  (by simp only [List.mem_cons, List.not_mem_nil, or_false]
      rintro im (rfl | rfl | rfl) <;> exact ⟨picture_wf .., rfl⟩) (by decide)

/-- The order of the arguments does not matter. -/
theorem C08_order [AddCommMonoid α] (ims ims' : List (Image α)) (hp : ims.Perm ims')
    (hne : ims ≠ []) (sz : List Nat) (hw : ∀ im ∈ ims, im.WF ∧ im.size = sz) (h0 : 0 < sz.prod) :
    add (· + ·) ims = add (· + ·) ims' := by
  obtain ⟨o, e, wo, so, ho⟩ := C08_add_partial ims hne sz hw h0
  obtain ⟨o', e', wo', so', ho'⟩ := C08_add_partial ims'
    (fun h => hne (by rw [h] at hp; exact hp.eq_nil)) sz (fun im him => hw im (hp.mem_iff.mpr him)) h0
  rw [e, e', wo.ext_data wo' (by rw [so, so'])]
  intro idx v hv
  have hb : InBounds sz idx := so ▸ inBounds_of_at'_ok hv
  have hall : ∀ l : List (Image α), (∀ im ∈ l, im.WF ∧ im.size = sz) →
      ∃ g : Image α → α, ∀ im ∈ l, im.at' idx = .ok (g im) := by
    intro l hl
    refine ⟨fun im => match im.at' idx with | .ok a => a | _ => 0, fun im him => ?_⟩
    have := (hl im him).1.at' (idx := idx) (by rw [(hl im him).2]; exact hb)
    simp only [this]
  obtain ⟨g, hg⟩ := hall ims hw
  have f1 : List.Forall₂ (fun (im : Image α) v => im.at' idx = .ok v) ims (ims.map g) := by
    have := forall₂_map_map (R := fun (im : Image α) v => im.at' idx = .ok v) ims id g hg
    simpa using this
  have f2 : List.Forall₂ (fun (im : Image α) v => im.at' idx = .ok v) ims' (ims'.map g) := by
    have := forall₂_map_map (R := fun (im : Image α) v => im.at' idx = .ok v) ims' id g
      (fun im him => hg im (hp.mem_iff.mpr him))
    simpa using this
  have e1 := ho idx _ f1
  have e2 := ho' idx _ f2
  rw [hv] at e1
  rw [e2, e1, (hp.map g).sum_eq]

example := C08_order [picture 2 2 fun x y => (x : Int) - y, picture 2 2 fun x _ => 5 * (x : Int), picture 2 2 fun _ y => 7 * (y : Int)]
  _ (List.reverse_perm _).symm (by simp) [2, 2] (by
    intro im h
    simp only [List.mem_cons, List.not_mem_nil, or_false] at h
    rcases h with rfl | rfl | rfl
    all_goals exact ⟨picture_wf 2 2 _, rfl⟩) (by decide)

/-- Violation: adding a smaller image reads outside its pixels. -/
theorem C08_smaller_violation :
    add (· + ·) [(⟨[2, 1], [1, 2]⟩ : Image Nat), ⟨[1, 1], [5]⟩] = .ub := by decide

/-- Violation: images of different shape with equally many pixels, and larger second images, are
accepted. -/
theorem C08_shape_violation :
    add (· + ·) [(⟨[2, 1], [1, 2]⟩ : Image Nat), ⟨[1, 2], [5, 6]⟩] = .ok ⟨[2, 1], [6, 8]⟩ ∧
    add (· + ·) [(⟨[2, 1], [1, 2]⟩ : Image Nat), ⟨[3, 1], [5, 6, 7]⟩] = .ok ⟨[2, 1], [6, 8]⟩ := by
  decide

example : (∀ im ∈ [sample2, sample2, sample2], im.WF ∧ im.size = [3, 2]) ∧ 0 < [3, 2].prod := by
  constructor
  · intro im him
    simp at him
    subst him
    exact ⟨sample2_shows.wf, rfl⟩
  · decide

/-! ## C09 pixelwise_transform

Full statement: for every image. An image without pixels is refused by the `Image` constructor
(`C09_empty_violation`). -/

/-- Same sizes, every pixel transformed. Missing: images without pixels. -/
theorem C09_transform_partial (f : α → β) (im : Image α) (wf : im.WF) (h0 : 0 < im.size.prod) :
    ∃ out, pixelwiseTransform f im = .ok out ∧ out.WF ∧ out.size = im.size ∧
      ∀ idx v, im.at' idx = .ok v → out.at' idx = .ok (f v) :=
  ⟨_, pixelwiseTransform_ok f wf h0, wf.map f, rfl, fun _ _ h => wf.map_at f h⟩

example := C09_transform_partial (fun v : Nat => (v : Int) - 12) sample2 sample2_shows.wf (by decide)

/-- Transforming twice is transforming by the composition (for every image). -/
theorem C09_compose (f : α → β) (g : β → γ) (im : Image α) :
    (pixelwiseTransform f im >>= pixelwiseTransform g) = pixelwiseTransform (g ∘ f) im := by
  simp only [pixelwiseTransform, Image.ofData]
  by_cases h1 : im.data = []
  · simp [h1]
  · by_cases h2 : im.data.length = prodW im.size
    · simp [h1, h2, List.isEmpty_iff, pixelwiseTransform, Image.ofData]
    · simp [h1, h2, List.isEmpty_iff]

/-- Transforming with the identity returns the image. -/
theorem C09_identity (im : Image α) (wf : im.WF) (h0 : 0 < im.size.prod) :
    pixelwiseTransform id im = .ok im := by
  rw [pixelwiseTransform_ok id wf h0, List.map_id]

example : pixelwiseTransform id sample = .ok sample := C09_identity sample sample_wf (by decide)

/-- Two images of one shape: pixels combined position by position. -/
theorem C09_transform2_partial (f : α → β → γ) (a : Image α) (b : Image β) (wa : a.WF) (wb : b.WF)
    (h : a.size = b.size) (h0 : 0 < a.size.prod) :
    ∃ out, pixelwiseTransform2 f a b = .ok out ∧ out.WF ∧ out.size = a.size ∧
      ∀ idx x y, a.at' idx = .ok x → b.at' idx = .ok y → out.at' idx = .ok (f x y) :=
  ⟨_, pixelwiseTransform2_ok f wa wb h h0, zip_wf wa wb h f, rfl, fun _ _ _ h1 h2 =>
    zip_at wa wb h f h1 h2⟩

example := C09_transform2_partial (fun (a : Nat) (b : Int) => a * b) sample2 (picture 3 2 fun x y => (x : Int) - y)
  sample2_shows.wf (picture_wf ..) rfl (by decide)

/-- Multiplying by a scalar is the transform by that multiplication. -/
theorem C09_multiplies_scalar (times : α → β → γ) (zero t : β) (im : Image α) (wf : im.WF)
    (h0 : 0 < im.size.prod) :
    multipliesScalar times zero im t = pixelwiseTransform (fun a => times a t) im := by
  have hp := prodW_of_lt wf.fits
  rw [multipliesScalar, Image.count, hp, ofData_ok (by simp) wf.fits h0, Res.ok_bind,
    pixelwiseTransform_ok _ wf h0, pixelwiseMultiplies, if_neg (by simp [setAllValue])]
  have wf2 : (⟨im.size, List.replicate im.size.prod t⟩ : Image β).WF :=
    ⟨by simp, wf.fits, wf.sizes⟩
  have hset : (⟨im.size, List.replicate im.size.prod zero⟩ : Image β).setAllValue t
      = ⟨im.size, List.replicate im.size.prod t⟩ := by simp [setAllValue]
  rw [hset, pixelwiseTransform2_ok times wf wf2 rfl h0]
  congr 2
  apply List.ext_getElem
  · simp [wf.len]
  · intro i h1 h2; simp

example := C09_multiplies_scalar (· * ·) 0 (3 : Int) _ (picture_wf 2 3 fun x y => (x : Int) - y) (by decide)

/-- Violation: an image without pixels makes `pixelwise_transform` throw. -/
theorem C09_empty_violation :
    pixelwiseTransform id (Image.ofSizes 0 [0, 3]) = (.throw .runtime : Res (Image Nat)) := by decide

example : sample.WF ∧ 0 < sample.size.prod := ⟨sample_wf, by decide⟩

/-! ## C10 subtracting RGB images -/

theorem clampSub_toNat (x y : BitVec 8) :
    ((clampSub x y).toNat : Int) = max 0 (min 255 ((x.toNat : Int) - (y.toNat : Int))) := by
  have hx := x.isLt
  have hy := y.isLt
  rw [clampSub, BitVec.toNat_ofInt]
  have h1 : max 0 (min 255 ((x.toNat : Int) - (y.toNat : Int))) < 256 := by omega
  have h2 : 0 ≤ max 0 (min 255 ((x.toNat : Int) - (y.toNat : Int))) := by omega
  rw [Int.toNat_of_nonneg (by omega), Int.emod_eq_of_lt h2 (by simpa using h1)]

/-- Sizes differ: an exception. Same sizes: in every pixel and channel the difference of the channel
values as integers, clamped to [0, 255]. -/
theorem C10_subtract_saturates (a b : Image RGB) (wa : a.WF) (wb : b.WF) :
    (a.size ≠ b.size → subtractRGB a b = .throw .runtime) ∧
    (a.size = b.size → 0 < a.size.prod → ∃ out, subtractRGB a b = .ok out ∧ out.WF ∧
      out.size = a.size ∧ ∀ idx p q, a.at' idx = .ok p → b.at' idx = .ok q →
        ∃ r, out.at' idx = .ok r ∧
          (r.c0.toNat : Int) = max 0 (min 255 ((p.c0.toNat : Int) - q.c0.toNat)) ∧
          (r.c1.toNat : Int) = max 0 (min 255 ((p.c1.toNat : Int) - q.c1.toNat)) ∧
          (r.c2.toNat : Int) = max 0 (min 255 ((p.c2.toNat : Int) - q.c2.toNat))) := by
  constructor
  · intro h; simp [subtractRGB, checkSizeSame, h]
  · intro h h0
    refine ⟨_, ?_, zip_wf wa wb h (Px3.map2 clampSub), rfl, ?_⟩
    · simp only [subtractRGB, checkSizeSame, h, ne_eq, not_true, if_false, Res.ok_bind]
      rw [pixelwiseTransform2_ok _ wa wb h h0, h]
    · intro idx p q hp hq
      exact ⟨_, zip_at wa wb h _ hp hq, clampSub_toNat _ _, clampSub_toNat _ _, clampSub_toNat _ _⟩

-- Channels on both sides of each other, so that some differences are negative; and another size.
example := (C10_subtract_saturates (picture 2 2 fun x y => ⟨BitVec.ofNat 8 (100 * x), BitVec.ofNat 8 y, 200⟩)
  (picture 2 2 fun x _ => ⟨50, BitVec.ofNat 8 x, 30⟩) (picture_wf ..) (picture_wf ..)).2 rfl (by decide)

example : subtractRGB (picture 2 2 fun _ _ => ⟨1, 2, 3⟩) (picture 2 1 fun _ _ => ⟨1, 2, 3⟩) = .throw .runtime :=
  (C10_subtract_saturates _ _ (picture_wf ..) (picture_wf ..)).1 (by decide)

/-- The clamped difference is never larger than the minuend (no wrap-around). -/
theorem C10_no_wrap (x y : BitVec 8) : (clampSub x y).toNat ≤ x.toNat := by
  have := clampSub_toNat x y
  omega

example : (⟨[1, 1], [⟨3, 4, 5⟩]⟩ : Image RGB).WF ∧ 0 < (⟨[1, 1], [⟨3, 4, 5⟩]⟩ : Image RGB).size.prod :=
  ⟨⟨by decide, by decide, by decide⟩, by decide⟩

/-! ## C57 distances -/

section Dist

variable [Ring α] [LinearOrder α] [IsStrictOrderedRing α]

theorem absDiff_eq (a b : α) : absDiff a b = |a - b| := by
  unfold absDiff
  split
  · rename_i h; rw [abs_of_pos (sub_pos.mpr h)]
  · rename_i h; rw [abs_of_nonpos (sub_nonpos.mpr (not_lt.mp h)), neg_sub]

omit [LinearOrder α] [IsStrictOrderedRing α] in
theorem foldl_add_eq (l : List α) (a : α) : l.foldl (· + ·) a = a + l.sum := by
  induction l generalizing a with
  | nil => simp
  | cons x l ih => rw [List.foldl_cons, ih, List.sum_cons, add_assoc]

theorem manhattan_ok {a b : Image α} (wa : a.WF) (wb : b.WF) (h : a.size = b.size)
    (h0 : 0 < a.size.prod) :
    manhattanDistance a b = .ok (List.zipWith (fun x y => |x - y|) a.data b.data).sum := by
  have : (absDiff : α → α → α) = fun x y => |x - y| := by funext x y; exact absDiff_eq x y
  rw [manhattanDistance, if_neg (by simp [h]), difference, this,
    pixelwiseTransform2_ok _ wa wb h h0, Res.ok_bind, foldl_add_eq, zero_add]

theorem zipAbs_nonneg (l m : List α) : 0 ≤ (List.zipWith (fun x y => |x - y|) l m).sum := by
  induction l generalizing m with
  | nil => simp
  | cons x l ih =>
    cases m with
    | nil => simp
    | cons y m => simpa using add_nonneg (abs_nonneg (x - y)) (ih m)

theorem zipAbs_zero (l m : List α) (h : l.length = m.length) :
    (List.zipWith (fun x y => |x - y|) l m).sum = 0 ↔ l = m := by
  induction l generalizing m with
  | nil => cases m with
    | nil => simp
    | cons => simp at h
  | cons x l ih =>
    cases m with
    | nil => simp at h
    | cons y m =>
      have h1 := abs_nonneg (x - y)
      have h2 := zipAbs_nonneg l m
      rw [List.zipWith_cons_cons, List.sum_cons, add_eq_zero_iff_of_nonneg h1 h2, abs_eq_zero,
        sub_eq_zero, ih m (by simpa using h), List.cons.injEq]

omit [IsStrictOrderedRing α] in
theorem zipAbs_comm (l m : List α) :
    (List.zipWith (fun x y => |x - y|) l m).sum = (List.zipWith (fun x y => |x - y|) m l).sum := by
  rw [List.zipWith_comm]
  congr 2
  funext x y
  exact abs_sub_comm y x

theorem zipAbs_triangle (l m n : List α) (h1 : l.length = m.length) (h2 : m.length = n.length) :
    (List.zipWith (fun x y => |x - y|) l n).sum
      ≤ (List.zipWith (fun x y => |x - y|) l m).sum + (List.zipWith (fun x y => |x - y|) m n).sum := by
  induction l generalizing m n with
  | nil => simpa using zipAbs_nonneg m n
  | cons x l ih =>
    cases m with
    | nil => simp at h1
    | cons y m =>
      cases n with
      | nil => simp at h2
      | cons z n =>
        simp only [List.zipWith_cons_cons, List.sum_cons]
        have := ih m n (by simpa using h1) (by simpa using h2)
        have h3 := abs_sub_le x y z
        calc |x - z| + _ ≤ (|x - y| + |y - z|) + (_ + _) := add_le_add h3 this
          _ = _ := add_add_add_comm _ _ _ _

/-- `manhattan_distance` (exact arithmetic, images with at least one pixel): mismatched sizes throw;
otherwise it is non-negative, symmetric, zero exactly for equal images, and satisfies the triangle
inequality. -/
theorem C57_manhattan (a b c : Image α) (wa : a.WF) (wb : b.WF) (wc : c.WF)
    (h0 : 0 < a.size.prod) :
    (a.size ≠ b.size → manhattanDistance a b = .throw .runtime) ∧
    (a.size = b.size → ∃ d, manhattanDistance a b = .ok d ∧ manhattanDistance b a = .ok d ∧ 0 ≤ d ∧
      (d = 0 ↔ a = b)) ∧
    (a.size = b.size → b.size = c.size → ∃ ab bc ac, manhattanDistance a b = .ok ab ∧
      manhattanDistance b c = .ok bc ∧ manhattanDistance a c = .ok ac ∧ ac ≤ ab + bc) := by
  refine ⟨fun h => by rw [manhattanDistance, if_pos h], fun h => ?_, fun h h' => ?_⟩
  · have hlen : a.data.length = b.data.length := by rw [wa.len, wb.len, h]
    refine ⟨_, manhattan_ok wa wb h h0, ?_, zipAbs_nonneg _ _, ?_⟩
    · rw [manhattan_ok wb wa h.symm (h ▸ h0), zipAbs_comm]
    · rw [zipAbs_zero _ _ hlen]
      constructor
      · intro hd; cases a; cases b; simp_all
      · intro hd; rw [hd]
  · have l1 : a.data.length = b.data.length := by rw [wa.len, wb.len, h]
    have l2 : b.data.length = c.data.length := by rw [wb.len, wc.len, h']
    exact ⟨_, _, _, manhattan_ok wa wb h h0, manhattan_ok wb wc h' (h ▸ h0),
      manhattan_ok wa wc (h.trans h') h0, zipAbs_triangle _ _ _ l1 l2⟩

example := (C57_manhattan (picture 3 2 fun x y => (x : Int) + y) (picture 3 2 fun x y => (x : Int) - y)
  (picture 3 2 fun x y => 5 * (x : Int) * y) (picture_wf ..) (picture_wf ..) (picture_wf ..) (by decide)).2.2 rfl rfl

omit [LinearOrder α] [IsStrictOrderedRing α] in
theorem sqEuclidGo_eq (l m : List α) (acc : α) (h : l.length = m.length) :
    sqEuclidGo l m acc = .ok (acc + (List.zipWith (fun a b => (a - b) * (a - b)) l m).sum) := by
  induction l generalizing m acc with
  | nil => cases m with
    | nil => simp [sqEuclidGo]
    | cons => simp at h
  | cons x l ih =>
    cases m with
    | nil => simp at h
    | cons y m => rw [sqEuclidGo, ih m _ (by simpa using h)]; simp [add_assoc]

omit [LinearOrder α] [IsStrictOrderedRing α] in
theorem sqEuclidGo_throw (l m : List α) (acc : α) (h : l.length ≠ m.length) :
    sqEuclidGo l m acc = .throw .runtime := by
  induction l generalizing m acc with
  | nil => cases m with
    | nil => simp at h
    | cons => rfl
  | cons x l ih =>
    cases m with
    | nil => rfl
    | cons y m => rw [sqEuclidGo, ih m _ (by simpa using h)]

theorem zipSq_nonneg (l m : List α) :
    0 ≤ (List.zipWith (fun a b => (a - b) * (a - b)) l m).sum := by
  induction l generalizing m with
  | nil => simp
  | cons x l ih =>
    cases m with
    | nil => simp
    | cons y m => simpa using add_nonneg (mul_self_nonneg (x - y)) (ih m)

theorem zipSq_zero (l m : List α) (h : l.length = m.length) :
    (List.zipWith (fun a b => (a - b) * (a - b)) l m).sum = 0 ↔ l = m := by
  induction l generalizing m with
  | nil => cases m with
    | nil => simp
    | cons => simp at h
  | cons x l ih =>
    cases m with
    | nil => simp at h
    | cons y m =>
      have h1 := mul_self_nonneg (x - y)
      have h2 := zipSq_nonneg l m
      rw [List.zipWith_cons_cons, List.sum_cons, add_eq_zero_iff_of_nonneg h1 h2, mul_self_eq_zero,
        sub_eq_zero, ih m (by simpa using h), List.cons.injEq]

/-- Squared Euclidean distance in exact arithmetic: throws exactly for different lengths, is
non-negative, symmetric and zero exactly for equal ranges. Missing: 8-bit (and other narrow
integer) elements, where the accumulator wraps (`C57_squared_u8_violation`). -/
theorem C57_squared_partial (l m : List α) :
    (l.length ≠ m.length → sqEuclid l m = .throw .runtime) ∧
    (l.length = m.length → ∃ d, sqEuclid l m = .ok d ∧ sqEuclid m l = .ok d ∧ 0 ≤ d ∧
      (d = 0 ↔ l = m)) := by
  refine ⟨fun h => sqEuclidGo_throw l m 0 h, fun h => ?_⟩
  refine ⟨_, by rw [sqEuclid, sqEuclidGo_eq l m 0 h, zero_add], ?_, zipSq_nonneg l m,
    zipSq_zero l m h⟩
  rw [sqEuclid, sqEuclidGo_eq m l 0 h.symm, zero_add, List.zipWith_comm]
  have hf : (fun (b a : α) => (a - b) * (a - b)) = fun a b => (a - b) * (a - b) := by
    funext x y
    rw [← neg_sub x y, neg_mul_neg]
  rw [hf]

omit [LinearOrder α] [IsStrictOrderedRing α] in
/-- With an execution policy every allowed result is the sequential one. -/
theorem C57_squared_policy (l m : List α) (r : Res α) :
    SqEuclidPolicy l m r ↔ r = sqEuclid l m := by
  unfold SqEuclidPolicy
  by_cases h : l.length = m.length
  · have e : sqEuclid l m = .ok (List.zipWith (fun a b => (a - b) * (a - b)) l m).sum := by
      rw [sqEuclid, sqEuclidGo_eq l m 0 h, zero_add]
    have hs : ∀ l : List α, l.foldl (· + ·) 0 = l.sum := by
      intro l
      rw [List.sum_eq_foldl]
    rw [if_neg (by simpa using h), e]
    constructor
    · rintro ⟨v, rfl, hv⟩
      rw [stdReduce_eq _ add_assoc add_comm hv, hs]
    · rintro rfl
      refine ⟨_, rfl, ?_⟩
      rw [← hs]
      exact stdReduce_exists _ _ _
  · rw [if_pos h, sqEuclid, sqEuclidGo_throw l m 0 h]

end Dist

/-- Violation: for 8-bit elements the sum of squares is reduced modulo 256, so different ranges have
distance 0. -/
theorem C57_squared_u8_violation : sqEuclidU8 [16] [0] = .ok 0 := by decide

example : (⟨[2, 1], [1, -2]⟩ : Image Int).WF ∧ 0 < (⟨[2, 1], [1, -2]⟩ : Image Int).size.prod :=
  ⟨⟨by decide, by decide, by decide⟩, by decide⟩

/-! ## C58 count and replace -/

theorem replaceOrd_ok [DecidableEq α] (im : Image α) (old new : α) (order : List Nat)
    (hp : order.Perm (List.range im.data.length)) :
    replaceOrd order im old new = .ok ⟨im.size, im.data.map fun a => if a = old then new else a⟩ := by
  have key : ∀ (order : List Nat) (d : List α), order.Nodup → (∀ i ∈ order, i < d.length) →
      ∃ d', loop (fun d i => do
        let a ← vget d i
        if a = old then vset d i new else .ok d) order d = .ok d' ∧ d'.length = d.length ∧
        (∀ i ∈ order, d'[i]? = d[i]?.map fun a => if a = old then new else a) ∧
        ∀ i, i ∉ order → d'[i]? = d[i]? := by
    intro order
    induction order with
    | nil => intro d _ _; exact ⟨d, rfl, rfl, by simp, by simp⟩
    | cons k ks ih =>
      intro d hnd hb
      have hk : k < d.length := hb k (by simp)
      have hstep : (do
          let a ← vget d k
          if a = old then vset d k new else .ok d : Res (List α))
          = .ok (d.set k (if d[k] = old then new else d[k])) := by
        rw [vget_eq_ok hk, Res.ok_bind]
        split
        · rename_i h; rw [vset_eq_ok _ hk]
        · simp
      obtain ⟨d', e, hl, h1, h2⟩ := ih (d.set k (if d[k] = old then new else d[k]))
        (List.nodup_cons.mp hnd).2 (fun i hi => by simpa using hb i (by simp [hi]))
      have hkn := (List.nodup_cons.mp hnd).1
      refine ⟨d', by rw [loop, hstep]; exact e, by simpa using hl, ?_, ?_⟩
      · intro i hi
        by_cases hik : i = k
        · subst hik
          rw [h2 i hkn]; simp [hk]
        · rw [h1 i (by simpa [hik] using hi), List.getElem?_set]; simp [Ne.symm hik]
      · intro i hi
        simp only [List.mem_cons, not_or] at hi
        rw [h2 i hi.2, List.getElem?_set]; simp [Ne.symm hi.1]
  obtain ⟨d', e, hl, h1, _⟩ := key order im.data (hp.nodup_iff.mpr List.nodup_range)
    (fun i hi => List.mem_range.mp (hp.mem_iff.mp hi))
  rw [replaceOrd, e, Res.ok_bind]
  congr 2
  apply List.ext_getElem?
  intro i
  by_cases hi : i < im.data.length
  · rw [h1 i (hp.mem_iff.mpr (List.mem_range.mpr hi)), List.getElem?_map]
  · rw [List.getElem?_eq_none (by omega), List.getElem?_eq_none (by simp; omega)]

theorem replace_ok [DecidableEq α] (im : Image α) (old new : α) :
    replace im old new = .ok ⟨im.size, im.data.map fun a => if a = old then new else a⟩ :=
  replaceOrd_ok im old new _ (.refl _)

/-- `replace` keeps the sizes, changes exactly the pixels equal to `old`; afterwards `old` does not
occur and `new` occurs as often as both did before. -/
theorem C58_replace [DecidableEq α] (im : Image α) (wf : im.WF) (old new : α) (hne : old ≠ new) :
    ∃ out, replace im old new = .ok out ∧ out.WF ∧ out.size = im.size ∧
      imCount out old = 0 ∧ imCount out new = imCount im old + imCount im new ∧
      (∀ v, v ≠ old → v ≠ new → imCount out v = imCount im v) ∧
      (∀ idx v, im.at' idx = .ok v → out.at' idx = .ok (if v = old then new else v)) := by
  refine ⟨_, replace_ok im old new, wf.map _, rfl, ?_, ?_, ?_, fun idx v h => wf.map_at _ h⟩
  all_goals simp only [imCount]
  · generalize im.data = l
    induction l with
    | nil => simp
    | cons x l ih => by_cases hx : x = old <;> simp_all [Ne.symm hne]
  · generalize im.data = l
    induction l with
    | nil => simp
    | cons x l ih =>
      rw [List.map_cons, List.count_cons, List.count_cons, List.count_cons, ih]
      by_cases hx : x = old
      · subst hx; simp [hne]; omega
      · simp [hx]; omega
  · intro v h1 h2
    generalize im.data = l
    induction l with
    | nil => simp
    | cons x l ih =>
      rw [List.map_cons, List.count_cons, List.count_cons, ih]
      by_cases hx : x = old
      · subst hx; simp [Ne.symm h1, Ne.symm h2]
      · simp [hx]

example := C58_replace sample2 sample2_shows.wf 12 15 (by decide)

/-- Replacing a value by itself changes nothing. -/
theorem C58_replace_self [DecidableEq α] (im : Image α) (v : α) : replace im v v = .ok im := by
  rw [replace_ok]
  have : (fun a : α => if a = v then v else a) = id := by funext a; by_cases h : a = v <;> simp [h]
  rw [this, List.map_id]

/-- `unique_value` is true exactly when exactly one pixel position holds the value. -/
theorem C58_unique [DecidableEq α] (im : Image α) (wf : im.WF) (v : α) :
    uniqueValue im v = true ↔ ∃! idx, im.at' idx = .ok v := by
  have hcount : im.data.count v = 1 ↔ ∃! i : Nat, im.data[i]? = some v := by
    generalize im.data = l
    induction l with
    | nil => simp
    | cons x l ih =>
      rw [List.count_cons]
      by_cases hx : x = v
      · subst hx
        simp only [beq_self_eq_true, if_true, Nat.add_eq_right, List.count_eq_zero]
        constructor
        · intro hn
          refine ⟨0, by simp, ?_⟩
          intro j hj
          cases j with
          | zero => rfl
          | succ j => exact absurd (List.mem_of_getElem? (by simpa using hj)) hn
        · rintro ⟨i, hi, hu⟩ hmem
          obtain ⟨j, hj, e⟩ := List.getElem_of_mem hmem
          have h1 := hu 0 (by simp)
          have h2 := hu (j + 1) (by simp [e, hj])
          omega
      · have hb : (x == v) = false := by simpa using hx
        simp only [hb, Bool.false_eq_true, if_false, Nat.add_zero]
        rw [ih]
        constructor
        · rintro ⟨i, hi, hu⟩
          refine ⟨i + 1, by simpa using hi, ?_⟩
          intro j hj
          cases j with
          | zero => simp at hj; exact absurd hj hx
          | succ j => rw [hu j (by simpa using hj)]
        · rintro ⟨i, hi, hu⟩
          cases i with
          | zero => simp at hi; exact absurd hi hx
          | succ i =>
            refine ⟨i, by simpa using hi, ?_⟩
            intro j hj
            have := hu (j + 1) (by simpa using hj)
            omega
  rw [uniqueValue, imCount, beq_iff_eq, hcount]
  have hat : ∀ idx, im.at' idx = .ok v ↔ InBounds im.size idx ∧ im.data[rowMajor im.size idx]? = some v := by
    intro idx
    constructor
    · intro h
      have hb := inBounds_of_at'_ok h
      rw [wf.at' hb] at h
      injection h with h
      exact ⟨hb, by rw [List.getElem?_eq_getElem (wf.rowMajor_lt hb), h]⟩
    · rintro ⟨hb, h⟩
      rw [wf.at' hb]
      rw [List.getElem?_eq_getElem (wf.rowMajor_lt hb)] at h
      injection h with h
      rw [h]
  constructor
  · rintro ⟨i, hi, hu⟩
    have hlt : i < im.data.length := (List.getElem?_eq_some_iff.mp hi).1
    obtain ⟨idx, hb, hr⟩ := rowMajor_surj im.size i (by rw [← wf.len]; exact hlt)
    refine ⟨idx, (hat idx).mpr ⟨hb, by rw [hr]; exact hi⟩, ?_⟩
    intro j hj
    obtain ⟨hbj, hj⟩ := (hat j).mp hj
    exact rowMajor_inj hbj hb (by rw [hr, hu _ hj])
  · rintro ⟨idx, hi, hu⟩
    obtain ⟨hb, hi⟩ := (hat idx).mp hi
    refine ⟨_, hi, ?_⟩
    intro j hj
    have hlt : j < im.data.length := (List.getElem?_eq_some_iff.mp hj).1
    obtain ⟨jdx, hbj, hr⟩ := rowMajor_surj im.size j (by rw [← wf.len]; exact hlt)
    have := hu jdx ((hat jdx).mpr ⟨hbj, by rw [hr]; exact hj⟩)
    rw [← this, hr]

example : sample2.WF ∧ (10 : Nat) ≠ 99 := ⟨sample2_shows.wf, by decide⟩

/-! ## C59 min, max, sum -/

section MinMax

variable [LinearOrder α]

theorem foldl_min_spec (l : List α) (a : α) :
    let m := l.foldl (fun m x => if x < m then x else m) a
    (m = a ∨ m ∈ l) ∧ m ≤ a ∧ ∀ x ∈ l, m ≤ x := by
  induction l generalizing a with
  | nil => simp
  | cons y l ih =>
    obtain ⟨h1, h2, h3⟩ := ih (if y < a then y else a)
    simp only [List.foldl_cons]
    have hy : (if y < a then y else a) ≤ y := by split <;> simp_all
    have ha : (if y < a then y else a) ≤ a := by split <;> simp_all [le_of_lt]
    refine ⟨?_, le_trans h2 ha, ?_⟩
    · rcases h1 with h1 | h1
      · by_cases hc : y < a
        · right; rw [h1, if_pos hc]; simp
        · left; rw [h1, if_neg hc]
      · right; simp [h1]
    · intro x hx
      rcases List.mem_cons.mp hx with rfl | hx
      · exact le_trans h2 hy
      · exact h3 x hx

theorem foldl_max_spec (l : List α) (a : α) :
    let m := l.foldl (fun m x => if m < x then x else m) a
    (m = a ∨ m ∈ l) ∧ a ≤ m ∧ ∀ x ∈ l, x ≤ m := by
  induction l generalizing a with
  | nil => simp
  | cons y l ih =>
    obtain ⟨h1, h2, h3⟩ := ih (if a < y then y else a)
    simp only [List.foldl_cons]
    have hy : y ≤ (if a < y then y else a) := by split <;> simp_all
    have ha : a ≤ (if a < y then y else a) := by split <;> simp_all [le_of_lt]
    refine ⟨?_, le_trans ha h2, ?_⟩
    · rcases h1 with h1 | h1
      · by_cases hc : a < y
        · right; rw [h1, if_pos hc]; simp
        · left; rw [h1, if_neg hc]
      · right; simp [h1]
    · intro x hx
      rcases List.mem_cons.mp hx with rfl | hx
      · exact le_trans hy h2
      · exact h3 x hx

theorem foldl_minmax_eq (l : List α) (a b : α) :
    l.foldl (fun (m : α × α) x => (if x < m.1 then x else m.1, if x < m.2 then m.2 else x)) (a, b)
      = (l.foldl (fun m x => if x < m then x else m) a,
         l.foldl (fun m x => if m < x then x else m) b) := by
  induction l generalizing a b with
  | nil => rfl
  | cons y l ih =>
    rw [List.foldl_cons, ih]
    have : (if y < b then b else y) = if b < y then y else b := by
      rcases lt_trichotomy y b with h | h | h
      · simp [h, not_lt_of_gt h]
      · simp [h]
      · simp [h, not_lt_of_gt h]
    simp only [List.foldl_cons, this]

/-- On an image with at least one pixel `min` and `max` return the value of some pixel and bound
every pixel; `minmax` returns both. (Without pixels `std::ranges::min` is undefined.) -/
theorem C59_min_max (im : Image α) (wf : im.WF) (h0 : 0 < im.size.prod) :
    ∃ lo hi, imMin im = .ok lo ∧ imMax im = .ok hi ∧ imMinmax im = .ok (lo, hi) ∧
      (∃ idx, im.at' idx = .ok lo) ∧ (∃ idx, im.at' idx = .ok hi) ∧
      ∀ idx v, im.at' idx = .ok v → lo ≤ v ∧ v ≤ hi := by
  have hne : im.data ≠ [] := by
    intro h
    have := wf.len
    rw [h] at this; simp at this; omega
  obtain ⟨a, l, hd⟩ := List.exists_cons_of_ne_nil hne
  obtain ⟨h1, h2, h3⟩ := foldl_min_spec l a
  obtain ⟨g1, g2, g3⟩ := foldl_max_spec l a
  refine ⟨_, _, by rw [imMin, hd, stdMin], by rw [imMax, hd, stdMax],
    by rw [imMinmax, hd, stdMinmax, foldl_minmax_eq], ?_, ?_, ?_⟩
  · rw [← wf.mem_data_iff, hd]; simpa using h1
  · rw [← wf.mem_data_iff, hd]; simpa using g1
  · intro idx v hv
    have := (wf.mem_data_iff v).mpr ⟨idx, hv⟩
    rw [hd] at this
    rcases List.mem_cons.mp this with rfl | hm
    · exact ⟨h2, g2⟩
    · exact ⟨h3 v hm, g3 v hm⟩

example := C59_min_max sample2 sample2_shows.wf (by decide)

end MinMax

/-- `sum`: for a commutative and associative operation every result `std::reduce` may return, with or
without execution policy, is the left-to-right sum; in particular the result does not depend on the
evaluation order. -/
theorem C59_sum (f : α → α → α) (hassoc : ∀ a b c, f (f a b) c = f a (f b c))
    (hcomm : ∀ a b, f a b = f b a) (zero : α) (im : Image α) (v : α) :
    SumResult f zero im v ↔ v = im.data.foldl f zero := by
  constructor
  · exact stdReduce_eq f hassoc hcomm
  · rintro rfl; exact stdReduce_exists f zero im.data

example (v : Int) : SumResult (· + ·) 0 (picture 3 2 fun x y => (x : Int) - y) v ↔ v = 3 :=
  C59_sum (· + ·) Int.add_assoc Int.add_comm 0 _ v

/-- The sum of a well-formed 2-D image is the sum over all coordinates. -/
theorem C59_sum_coordinates [AddCommMonoid α] (im : Image α) (w h : Nat) (f : Nat → Nat → α)
    (s : im.Shows w h f) (v : α) :
    SumResult (· + ·) 0 im v ↔
      v = ((List.range h).map fun y => ((List.range w).map fun x => f x y).sum).sum := by
  rw [C59_sum _ add_assoc add_comm]
  have hd : im.data = (List.range h).flatMap fun y => (List.range w).map fun x => f x y := by
    apply List.ext_getElem?
    intro i
    by_cases hi : i < w * h
    · have hw : 0 < w := Nat.pos_of_mul_pos_right (by omega : 0 < w * h)
      have hx : i % w < w := Nat.mod_lt _ hw
      have hy : i / w < h := Nat.div_lt_of_lt_mul hi
      have e1 := s.data? hx hy
      rw [Nat.mod_add_div] at e1
      rw [e1]
      have key : ∀ (h : Nat) (g : Nat → Nat → α) (i : Nat), i < w * h →
          ((List.range h).flatMap fun y => (List.range w).map fun x => g x y)[i]?
            = some (g (i % w) (i / w)) := by
        intro h
        induction h with
        | zero => intro g i hi; omega
        | succ h ih =>
          intro g i hi
          rw [List.range_succ_eq_map, List.flatMap_cons, List.flatMap_map]
          by_cases hlt : i < w
          · rw [List.getElem?_append_left (by simpa using hlt)]
            simp [hlt, Nat.mod_eq_of_lt hlt, Nat.div_eq_of_lt hlt]
          · rw [List.getElem?_append_right (by simpa using hlt)]
            rw [Nat.mul_succ] at hi
            have := ih (fun x y => g x (y + 1)) (i - w) (by omega)
            simp only [List.length_map, List.length_range]
            refine Eq.trans ?_ (this.trans ?_)
            · rfl
            · have e1 : i - w + w = i := by omega
              have e2 : (i - w) % w = i % w := by rw [← Nat.add_mod_right, e1]
              have e3 : (i - w) / w + 1 = i / w := by rw [← Nat.add_div_right _ hw, e1]
              rw [e2, e3]
      exact (key h f i hi).symm
    · rw [List.getElem?_eq_none (by rw [s.len]; omega), List.getElem?_eq_none]
      have : ((List.range h).flatMap fun y => (List.range w).map fun x => f x y).length = w * h := by
        simp [List.length_flatMap, Nat.mul_comm]
      omega
  have hs : ∀ l : List α, l.foldl (· + ·) 0 = l.sum := fun l => (List.sum_eq_foldl).symm
  rw [hs, hd]
  have : ∀ L : List Nat, (L.flatMap fun y => (List.range w).map fun x => f x y).sum
      = (L.map fun y => ((List.range w).map fun x => f x y).sum).sum := by
    intro L
    induction L with
    | nil => rfl
    | cons y L ih => simp [ih]
  rw [this]

example : sample2.WF ∧ 0 < sample2.size.prod := ⟨sample2_shows.wf, by decide⟩
example : imMinmax sample2 = .ok (10, 15) := by decide

/-! ## C73 colour planes -/

theorem getPlaneOrd_ok {C : Type} (zero : C) (im : Image (Px3 C)) (wf : im.WF)
    (h0 : 0 < im.size.prod) (k : Nat) (ch : Px3 C → C) (hch : ∀ p : Px3 C, p.channel k = .ok (ch p))
    (order : List Nat) (hp : order.Perm (List.range im.data.length)) :
    getPlaneOrd zero order im k = .ok ⟨im.size, im.data.map ch⟩ := by
  rw [getPlaneOrd, wf.count, loop_listMap im.data rfl ch _ order _ _ (by simp) hp, Res.ok_bind,
    ofData_ok (by simpa using wf.len) wf.fits h0]
  intro i hi a ha d hd
  have hlt : i < d.length := by
    rw [hd]; exact (List.getElem?_eq_some_iff.mp ha).1
  simp [vget, ha, hch, vset, hlt]

theorem constructPx3Ord_ok {C : Type} (zero : C) (sz : List Nat) (P : List (Px3 C))
    (hl : P.length = sz.prod) (hf : sz.prod < 2 ^ 64) (h0 : 0 < sz.prod) (order : List Nat)
    (hp : order.Perm (List.range P.length)) :
    constructPx3Ord zero order ⟨sz, P.map Px3.c0⟩ ⟨sz, P.map Px3.c1⟩ ⟨sz, P.map Px3.c2⟩
      = .ok ⟨sz, P⟩ := by
  have hc : (⟨sz, P.map Px3.c0⟩ : Image C).count = P.length := by
    rw [Image.count, prodW_of_lt hf, hl]
  simp only [constructPx3Ord, checkSizeSame, ne_eq, not_true, if_false, Res.ok_bind]
  rw [hc, loop_listMap P rfl id _ order _ _ (by simp) hp, Res.ok_bind, List.map_id,
    ofData_ok hl hf h0]
  intro i hi a ha d hd
  have hlt : i < d.length := by
    rw [hd]; exact (List.getElem?_eq_some_iff.mp ha).1
  simp [vget, ha, vset, hlt]

/-- `getPlane(image, k)` has the image's sizes and shows channel `k` of every pixel. -/
theorem C73_getPlane {C : Type} (zero : C) (im : Image (Px3 C)) (wf : im.WF)
    (h0 : 0 < im.size.prod) (k : Nat) (hk : k < 3) :
    ∃ out, getPlane zero im k = .ok out ∧ out.WF ∧ out.size = im.size ∧
      ∀ idx p, im.at' idx = .ok p → out.at' idx = p.channel k := by
  have hr : (List.range im.count).Perm (List.range im.data.length) := by rw [wf.count]
  have hk' : k = 0 ∨ k = 1 ∨ k = 2 := by omega
  rcases hk' with rfl | rfl | rfl
  · exact ⟨_, getPlaneOrd_ok zero im wf h0 0 Px3.c0 (fun _ => rfl) _ hr, wf.map _, rfl,
      fun idx p h => wf.map_at _ h⟩
  · exact ⟨_, getPlaneOrd_ok zero im wf h0 1 Px3.c1 (fun _ => rfl) _ hr, wf.map _, rfl,
      fun idx p h => wf.map_at _ h⟩
  · exact ⟨_, getPlaneOrd_ok zero im wf h0 2 Px3.c2 (fun _ => rfl) _ hr, wf.map _, rfl,
      fun idx p h => wf.map_at _ h⟩

example := C73_getPlane (0 : Int) (picture 2 2 fun x y => ⟨x, y, 7⟩) (picture_wf ..) (by decide) 1 (by decide)

/-- Splitting into the three planes and constructing the colour image restores it. -/
theorem C73_split_merge {C : Type} (zero : C) (im : Image (Px3 C)) (wf : im.WF)
    (h0 : 0 < im.size.prod) :
    (do let r ← getPlane zero im 0
        let g ← getPlane zero im 1
        let b ← getPlane zero im 2
        constructPx3 zero r g b) = .ok im := by
  have hr : (List.range im.count).Perm (List.range im.data.length) := by rw [wf.count]
  rw [getPlane, getPlane, getPlane, getPlaneOrd_ok zero im wf h0 0 Px3.c0 (fun _ => rfl) _ hr,
    getPlaneOrd_ok zero im wf h0 1 Px3.c1 (fun _ => rfl) _ hr,
    getPlaneOrd_ok zero im wf h0 2 Px3.c2 (fun _ => rfl) _ hr]
  simp only [Res.ok_bind]
  rw [constructPx3, constructPx3Ord_ok zero im.size im.data wf.len wf.fits h0]
  rw [Image.count, prodW_of_lt wf.fits, wf.len]

example := C73_split_merge (0 : Int) (picture 2 2 fun x y => ⟨x, y, 7⟩) (picture_wf ..) (by decide)

theorem exists_px3 {C : Type} (x y z : List C) (h1 : x.length = y.length)
    (h2 : y.length = z.length) :
    ∃ P : List (Px3 C), P.map Px3.c0 = x ∧ P.map Px3.c1 = y ∧ P.map Px3.c2 = z := by
  induction x generalizing y z with
  | nil =>
    have hy : y = [] := List.length_eq_zero_iff.mp h1.symm
    subst hy
    have hz : z = [] := List.length_eq_zero_iff.mp h2.symm
    subst hz
    exact ⟨[], rfl, rfl, rfl⟩
  | cons a x ih =>
    cases y with
    | nil => simp at h1
    | cons c y =>
      cases z with
      | nil => simp at h2
      | cons e z =>
        obtain ⟨P, p0, p1, p2⟩ := ih y z (by simpa using h1) (by simpa using h2)
        exact ⟨⟨a, c, e⟩ :: P, by simp [p0], by simp [p1], by simp [p2]⟩

/-- Merging three planes of one size and splitting again restores the planes; planes of different
sizes are rejected. -/
theorem C73_merge_split {C : Type} (zero : C) (r g b : Image C) (wr : r.WF) (wg : g.WF) (wb : b.WF)
    (h0 : 0 < r.size.prod) :
    (r.size ≠ g.size ∨ g.size ≠ b.size → constructPx3 zero r g b = .throw .runtime) ∧
    (r.size = g.size → g.size = b.size → ∃ im, constructPx3 zero r g b = .ok im ∧ im.WF ∧
      getPlane zero im 0 = .ok r ∧ getPlane zero im 1 = .ok g ∧ getPlane zero im 2 = .ok b) := by
  constructor
  · intro h
    by_cases h1 : r.size = g.size
    · have h2 : g.size ≠ b.size := h.resolve_left (by simpa using h1)
      simp [constructPx3, constructPx3Ord, checkSizeSame, h1, h2]
    · simp [constructPx3, constructPx3Ord, checkSizeSame, h1]
  · intro h1 h2
    have l1 : r.data.length = g.data.length := by rw [wr.len, wg.len, h1]
    have l2 : g.data.length = b.data.length := by rw [wg.len, wb.len, h2]
    obtain ⟨P, e0, e1, e2⟩ := exists_px3 r.data g.data b.data l1 l2
    have hl : P.length = r.size.prod := by rw [← wr.len, ← e0, List.length_map]
    have wP : (⟨r.size, P⟩ : Image (Px3 C)).WF := ⟨hl, wr.fits, wr.sizes⟩
    have er : r = ⟨r.size, P.map Px3.c0⟩ := by rw [e0]
    have eg : g = ⟨r.size, P.map Px3.c1⟩ := by rw [e1, h1]
    have eb : b = ⟨r.size, P.map Px3.c2⟩ := by rw [e2, h1, h2]
    have hr : (List.range (⟨r.size, P⟩ : Image (Px3 C)).count).Perm
        (List.range (⟨r.size, P⟩ : Image (Px3 C)).data.length) := by rw [wP.count]
    refine ⟨⟨r.size, P⟩, ?_, wP, ?_, ?_, ?_⟩
    · have := constructPx3Ord_ok zero r.size P hl wr.fits h0 (List.range r.count)
        (by rw [wr.count, wr.len, hl])
      rw [← er, ← eg, ← eb] at this
      exact this
    · rw [getPlane, getPlaneOrd_ok zero _ wP h0 0 Px3.c0 (fun _ => rfl) _ hr, er]
    · rw [getPlane, getPlaneOrd_ok zero _ wP h0 1 Px3.c1 (fun _ => rfl) _ hr, eg]
    · rw [getPlane, getPlaneOrd_ok zero _ wP h0 2 Px3.c2 (fun _ => rfl) _ hr, eb]

example : (⟨[1, 2], [⟨3, 4, 5⟩, ⟨6, 7, 8⟩]⟩ : Image RGB).WF :=
  ⟨by decide, by decide, by decide⟩

/-! ## C75 quantifiers over pixels -/

/-- `all_of`, `any_of` and `none_of` decide whether the predicate holds for all, some or no pixels of
the image. -/
theorem C75_quantifiers (im : Image α) (wf : im.WF) (p : α → Bool) :
    (allOf im p = true ↔ ∀ idx v, im.at' idx = .ok v → p v = true) ∧
    (anyOf im p = true ↔ ∃ idx v, im.at' idx = .ok v ∧ p v = true) ∧
    (noneOf im p = true ↔ ∀ idx v, im.at' idx = .ok v → p v = false) := by
  refine ⟨?_, ?_, ?_⟩
  · rw [allOf, List.all_eq_true]
    constructor
    · intro h idx v hv; exact h v ((wf.mem_data_iff v).mpr ⟨idx, hv⟩)
    · intro h v hv
      obtain ⟨idx, hi⟩ := (wf.mem_data_iff v).mp hv
      exact h idx v hi
  · rw [anyOf, List.any_eq_true]
    constructor
    · rintro ⟨v, hv, hp⟩
      obtain ⟨idx, hi⟩ := (wf.mem_data_iff v).mp hv
      exact ⟨idx, v, hi, hp⟩
    · rintro ⟨idx, v, hi, hp⟩; exact ⟨v, (wf.mem_data_iff v).mpr ⟨idx, hi⟩, hp⟩
  · rw [noneOf, Bool.not_eq_true', List.any_eq_false]
    constructor
    · intro h idx v hv; simpa using h v ((wf.mem_data_iff v).mpr ⟨idx, hv⟩)
    · intro h v hv
      obtain ⟨idx, hi⟩ := (wf.mem_data_iff v).mp hv
      simpa using h idx v hi

example : sample.WF := sample_wf

/-! ## C74 highlight_region -/

/-- `(x, y)` lies in the rectangle widened by half the line width, and within the line width of one
of its four sides. -/
def OnFrame (startx endx starty endy width x y : Nat) : Prop :=
  (startx ≤ x + width / 2 ∧ x < endx + width / 2) ∧ (starty ≤ y + width / 2 ∧ y < endy + width / 2) ∧
  (((x : Int) - startx).natAbs < width ∨ ((x : Int) - endx).natAbs < width ∨
    ((y : Int) - starty).natAbs < width ∨ ((y : Int) - endy).natAbs < width)

theorem nearFrame_ok {x y sx ex sy ey w : Nat} (hx : x < 2 ^ 31) (hy : y < 2 ^ 31) (h1 : sx < 2 ^ 31)
    (h2 : ex < 2 ^ 31) (h3 : sy < 2 ^ 31) (h4 : ey < 2 ^ 31) :
    nearFrame x y sx ex sy ey w = .ok (decide (((x : Int) - sx).natAbs < w ∨
      ((x : Int) - ex).natAbs < w ∨ ((y : Int) - sy).natAbs < w ∨ ((y : Int) - ey).natAbs < w)) := by
  simp only [nearFrame, absDiffInt, hx, hy, h1, h2, h3, h4, and_self, if_true, Res.ok_bind]
  split
  · simp [*]
  · split
    · simp [*]
    · split
      · simp [*]
      · simp [*]

theorem mem_countUp {a b x : Nat} : x ∈ countUp a b ↔ a ≤ x ∧ x < b := by
  simp only [countUp, List.mem_range'_1]; omega

/-- Coordinates and line width below 2^30. Whatever the rectangle: if the call returns, the sizes are
unchanged, every pixel on the frame lies in the image and has the colour or is unchanged, and every
pixel off the frame is unchanged; and the call never has undefined behaviour (it returns or throws). -/
theorem C74_only_frame_changes (im : Image α) (W H : Nat) (f : Nat → Nat → α) (s : im.Shows W H f)
    (sx ex sy ey width : Nat) (hw : width < 2 ^ 30) (h1 : sx < 2 ^ 30) (h2 : ex < 2 ^ 30)
    (h3 : sy < 2 ^ 30) (h4 : ey < 2 ^ 30) (colour : α) :
    (∃ out g, highlightRegion im sx ex sy ey width colour = .ok out ∧ out.Shows W H g ∧
      ∀ x y, x < W → y < H →
        g x y = f x y ∨ (g x y = colour ∧ OnFrame sx ex sy ey width x y)) ∨
    ∃ e, highlightRegion im sx ex sy ey width colour = .throw e := by
  let P : Image α → Prop := fun out => ∃ g, out.Shows W H g ∧ ∀ x y, x < W → y < H →
    g x y = f x y ∨ (g x y = colour ∧ OnFrame sx ex sy ey width x y)
  have hwx : wadd ex (width / 2) = ex + width / 2 := wadd_of_lt (by omega)
  have hwy : wadd ey (width / 2) = ey + width / 2 := wadd_of_lt (by omega)
  have hwsub : ∀ a b, a < 2 ^ 30 → b < 2 ^ 30 → ∀ x, wsub a b ≤ x → x < 2 ^ 31 → a ≤ x + b := by
    intro a b ha hb x hle hx
    by_cases hab : b ≤ a
    · rw [wsub_of_le hab (by omega)] at hle; omega
    · omega
  have key := loop_safe (body := fun out y =>
    loop (fun out x => do
      let near ← nearFrame x y sx ex sy ey width
      if near then out.set2 x y colour else .ok out)
      (countUp (wsub sx (width / 2)) (wadd ex (width / 2))) out) P
    (l := countUp (wsub sy (width / 2)) (wadd ey (width / 2))) ?_ (s := im)
    ⟨f, s, fun x y _ _ => .inl rfl⟩
  · rcases key with ⟨out, e, g, hs, hg⟩ | ⟨e, he⟩
    · exact .inl ⟨out, g, e, hs, hg⟩
    · exact .inr ⟨e, he⟩
  · intro y hy out hP
    rw [mem_countUp, hwy] at hy
    have hy31 : y < 2 ^ 31 := by omega
    refine loop_safe P ?_ hP
    intro x hx out hP
    rw [mem_countUp, hwx] at hx
    have hx31 : x < 2 ^ 31 := by omega
    rw [nearFrame_ok hx31 hy31 (by omega) (by omega) (by omega) (by omega), Res.ok_bind]
    obtain ⟨g, hs, hg⟩ := hP
    split
    · rename_i hn
      rw [decide_eq_true_iff] at hn
      by_cases hin : x < W ∧ y < H
      · obtain ⟨o, e, so⟩ := hs.set2 hin.1 hin.2 colour
        refine .inl ⟨o, e, _, so, ?_⟩
        intro a b ha hb
        by_cases hab : a = x ∧ b = y
        · obtain ⟨rfl, rfl⟩ := hab
          right
          refine ⟨by simp [updPx], ⟨?_, hx.2⟩, ⟨?_, hy.2⟩, hn⟩
          · exact hwsub sx (width / 2) h1 (by omega) a hx.1 hx31
          · exact hwsub sy (width / 2) h3 (by omega) b hy.1 hy31
        · simp only [updPx, hab, if_false]
          exact hg a b ha hb
      · exact .inr ⟨_, set2_oob hs.size colour hin⟩
    · exact .inl ⟨out, rfl, g, hs, hg⟩

example := C74_only_frame_changes (picture 20 10 fun x y => x + y) 20 10 _ (picture_shows ..) 6 12 3 7 2
  (by decide) (by decide) (by decide) (by decide) (by decide) 99

/-- A rectangle whose widened frame lies inside the image: exactly the pixels on the frame get the
colour. -/
theorem C74_exact (im : Image α) (W H : Nat) (f : Nat → Nat → α) (s : im.Shows W H f)
    (sx ex sy ey width : Nat) (hw : width < 2 ^ 30) (h1 : width / 2 ≤ sx) (h1' : sx < 2 ^ 30)
    (h2 : ex + width / 2 ≤ W) (h2' : ex < 2 ^ 30) (h3 : width / 2 ≤ sy) (h3' : sy < 2 ^ 30)
    (h4 : ey + width / 2 ≤ H) (h4' : ey < 2 ^ 30) (colour : α) :
    ∃ out g, highlightRegion im sx ex sy ey width colour = .ok out ∧ out.Shows W H g ∧
      ∀ x y, x < W → y < H → (OnFrame sx ex sy ey width x y → g x y = colour) ∧
        (¬ OnFrame sx ex sy ey width x y → g x y = f x y) := by
  have hwx : wadd ex (width / 2) = ex + width / 2 := wadd_of_lt (by omega)
  have hwy : wadd ey (width / 2) = ey + width / 2 := wadd_of_lt (by omega)
  have hsx : wsub sx (width / 2) = sx - width / 2 := wsub_of_le h1 (by omega)
  have hsy : wsub sy (width / 2) = sy - width / 2 := wsub_of_le h3 (by omega)
  let c : Nat × Nat → Bool := fun p => decide (((p.1 : Int) - sx).natAbs < width ∨
      ((p.1 : Int) - ex).natAbs < width ∨ ((p.2 : Int) - sy).natAbs < width ∨
      ((p.2 : Int) - ey).natAbs < width)
  let L := (countUp (sy - width / 2) (ey + width / 2)).flatMap fun y =>
    (countUp (sx - width / 2) (ex + width / 2)).map fun x => (x, y)
  have hL : ∀ p, p ∈ L ↔ (sx - width / 2 ≤ p.1 ∧ p.1 < ex + width / 2) ∧
      (sy - width / 2 ≤ p.2 ∧ p.2 < ey + width / 2) := by
    rintro ⟨a, b⟩
    simp only [L, List.mem_flatMap, List.mem_map, mem_countUp, Prod.mk.injEq]
    constructor
    · rintro ⟨y, hy, x, hx, rfl, rfl⟩; exact ⟨hx, hy⟩
    · rintro ⟨hx, hy⟩; exact ⟨b, hy, a, hx, rfl, rfl⟩
  obtain ⟨out, e, so⟩ := loop_condWrite c colour L s (fun p hp _ => by
    have := (hL p).mp hp; omega)
  refine ⟨out, _, ?_, so, ?_⟩
  · rw [← e, highlightRegion, hwx, hwy, hsx, hsy, ← loop_flatMap]
    apply loop_congr
    intro y hy o
    rw [← loop_map (fun (o : Image α) (p : Nat × Nat) => if c p then o.set2 p.1 p.2 colour else .ok o)
      (fun x => (x, y))]
    apply loop_congr
    intro x hx o
    rw [mem_countUp] at hx hy
    rw [nearFrame_ok (by omega) (by omega) (by omega) (by omega) (by omega) (by omega), Res.ok_bind]
  · intro x y hx hy
    have : OnFrame sx ex sy ey width x y ↔ (x, y) ∈ L ∧ c (x, y) = true := by
      rw [hL]
      simp only [OnFrame, c, decide_eq_true_iff]
      constructor
      · rintro ⟨⟨a1, a2⟩, ⟨a3, a4⟩, a5⟩
        exact ⟨⟨⟨by omega, a2⟩, ⟨by omega, a4⟩⟩, a5⟩
      · rintro ⟨⟨⟨a1, a2⟩, ⟨a3, a4⟩⟩, a5⟩
        exact ⟨⟨by omega, a2⟩, ⟨by omega, a4⟩, a5⟩
    rw [this]
    constructor
    · intro h; simp only [h, and_self, if_true]
    · intro h; simp only [h, if_false]

example := C74_exact (picture 20 10 fun x y => x + y) 20 10 _ (picture_shows ..) 6 12 3 7 2
  (by decide) (by decide) (by decide) (by decide) (by decide) (by decide) (by decide) (by decide) (by decide) 99

/-- A limit of the code: when half the line width exceeds the start coordinate, the start of the loop wraps
around and a frame that should be partly visible is silently not drawn at all. -/
theorem C74_wrap_draws_nothing :
    highlightRegion sample2 0 2 0 1 2 99 = .ok sample2 ∧ OnFrame 0 2 0 1 2 0 0 := by
  refine ⟨by decide +kernel, ?_⟩
  unfold OnFrame
  decide

example : highlightRegion sample2 1 2 1 1 2 99 = .ok ⟨[3, 2], [99, 99, 99, 99, 99, 99]⟩ := by
  decide +kernel

/-! ## C73 continued: `MultiChannel` pixels -/

theorem addChannel_ok {C : Type} (im : Image (List C)) (pl : Image C) (wf : im.WF) (wp : pl.WF)
    (hs : im.size = pl.size) (h0 : 0 < im.size.prod) :
    addChannel im pl = .ok ⟨im.size, List.zipWith (fun p v => p ++ [v]) im.data pl.data⟩ := by
  have hl : im.data.length = pl.data.length := by rw [wf.len, wp.len, hs]
  rw [addChannel, if_neg (by simp [hs]), if_neg (by simp [hl]),
    forUp_collect _ (List.zipWith (fun p v => p ++ [v]) im.data pl.data) _ (by simp [hl]), Res.ok_bind,
    List.nil_append, ofData_ok (by simp [hl, wp.len, hs]) wf.fits h0]
  intro i hi out
  have hi' : i < pl.data.length := by omega
  rw [vget_eq_ok hi, Res.ok_bind, vget_eq_ok hi', Res.ok_bind]
  simp

theorem getPlaneMulti_ok {C : Type} (n : Nat) (im : Image (List C)) (wf : im.WF)
    (h0 : 0 < im.size.prod) (hn : ∀ p ∈ im.data, p.length = n) (k : Nat) (hk : k < n) (d : List C)
    (hd : d.length = im.data.length)
    (hv : ∀ i (hi : i < im.data.length), (im.data[i])[k]? = some (d[i]'(by omega))) :
    getPlaneMulti n im k = .ok ⟨im.size, d⟩ := by
  rw [getPlaneMulti, if_neg (by omega), wf.count, forUp_collect _ d _ hd, Res.ok_bind,
    List.nil_append, ofData_ok (by rw [hd, wf.len]) wf.fits h0]
  intro i hi out
  have := hv i hi
  rw [vget_eq_ok hi, Res.ok_bind]
  simp [vget, this]

/-- `addChannel(image, plane)` for images of one size appends the plane as the last channel: reading
that channel back gives the plane, and every other channel is unchanged. Different sizes are
rejected, and a channel index that does not exist is rejected. -/
theorem C73_addChannel {C : Type} (n : Nat) (im : Image (List C)) (pl : Image C) (wf : im.WF)
    (wp : pl.WF) (h0 : 0 < im.size.prod) (hn : ∀ p ∈ im.data, p.length = n) :
    (im.size ≠ pl.size → addChannel im pl = .throw .runtime) ∧
    (∀ k, n ≤ k → getPlaneMulti n im k = .throw .runtime) ∧
    (im.size = pl.size → ∃ out, addChannel im pl = .ok out ∧
      getPlaneMulti (n + 1) out n = .ok pl ∧
      ∀ k, k < n → getPlaneMulti (n + 1) out k = getPlaneMulti n im k) := by
  refine ⟨fun h => by rw [addChannel, if_pos h], fun k hk => by rw [getPlaneMulti, if_pos hk], ?_⟩
  intro hs
  have hl : im.data.length = pl.data.length := by rw [wf.len, wp.len, hs]
  let out : Image (List C) := ⟨im.size, List.zipWith (fun p v => p ++ [v]) im.data pl.data⟩
  have wo : out.WF := ⟨by simp [out, hl, wp.len, hs], wf.fits, wf.sizes⟩
  have ho : ∀ p ∈ out.data, p.length = n + 1 := by
    intro p hp
    obtain ⟨i, hi, rfl⟩ := List.getElem_of_mem hp
    simp only [out, List.length_zipWith] at hi
    simp [out, hn _ (List.getElem_mem (by omega : i < im.data.length))]
  have hol : out.data.length = im.data.length := by simp [out, hl]
  refine ⟨out, addChannel_ok im pl wf wp hs h0, ?_, ?_⟩
  · have := getPlaneMulti_ok (n + 1) out wo h0 ho n (by omega) pl.data (by simp [out, hl]) ?_
    · rw [this]
      cases pl
      simp_all [out]
    · intro i hi
      have h2 := hn _ (List.getElem_mem (by omega : i < im.data.length))
      simp only [out, List.getElem_zipWith]
      rw [List.getElem?_append_right (by omega)]
      simp [h2]
  · intro k hk
    let d : List C := im.data.attach.map fun p => p.1[k]'(by rw [hn p.1 p.2]; exact hk)
    rw [getPlaneMulti_ok (n + 1) out wo h0 ho k (by omega) d (by simp [d, out, hl]),
      getPlaneMulti_ok n im wf h0 hn k hk d (by simp [d])]
    · intro i hi
      have h2 := hn _ (List.getElem_mem hi)
      simp [d, h2, hk]
    · intro i hi
      have hi' : i < im.data.length := by omega
      have h2 := hn _ (List.getElem_mem hi')
      simp only [out, List.getElem_zipWith]
      rw [List.getElem?_append_left (by omega)]
      simp [d, h2, hk]

example : (⟨[2, 1], [[1, 2], [3, 4]]⟩ : Image (List Nat)).WF ∧
    ∀ p ∈ (⟨[2, 1], [[1, 2], [3, 4]]⟩ : Image (List Nat)).data, p.length = 2 :=
  ⟨⟨by decide, by decide, by decide⟩, by decide⟩

/-! ## C27 (pixelwise operations): every schedule gives the sequential result -/

/-- `pixelwise_transform` with an execution policy, `getPlane`, the colour constructors and `replace`:
for every order in which the element bodies run, the result is the sequential one. -/
theorem C27_pixelwise_schedules (zero : β) (f : α → β) (im : Image α) (order : List Nat)
    (hp : order.Perm (List.range im.data.length)) :
    pixelwiseTransformPolicy zero order f im = pixelwiseTransform f im := by
  rw [pixelwiseTransformPolicy, policyTransform, loop_listMap im.data rfl f _ order _ _ (by simp) hp,
    Res.ok_bind, pixelwiseTransform]
  intro i hi a ha d hd
  have hlt : i < d.length := by
    rw [hd]; exact (List.getElem?_eq_some_iff.mp ha).1
  simp [vget, ha, vset, hlt]

-- Backwards instead of forwards.
example := C27_pixelwise_schedules (0 : Int) (fun v : Nat => (v : Int) - 12) sample2 _ (List.reverse_perm _)

theorem C27_planes_schedules {C : Type} (zero : C) (im : Image (Px3 C)) (wf : im.WF)
    (h0 : 0 < im.size.prod) (k : Nat) (hk : k < 3) (order : List Nat)
    (hp : order.Perm (List.range im.data.length)) :
    getPlaneOrd zero order im k = getPlane zero im k := by
  have hr : (List.range im.count).Perm (List.range im.data.length) := by rw [wf.count]
  have hk' : k = 0 ∨ k = 1 ∨ k = 2 := by omega
  rcases hk' with rfl | rfl | rfl
  · rw [getPlane, getPlaneOrd_ok zero im wf h0 0 Px3.c0 (fun _ => rfl) _ hp,
      getPlaneOrd_ok zero im wf h0 0 Px3.c0 (fun _ => rfl) _ hr]
  · rw [getPlane, getPlaneOrd_ok zero im wf h0 1 Px3.c1 (fun _ => rfl) _ hp,
      getPlaneOrd_ok zero im wf h0 1 Px3.c1 (fun _ => rfl) _ hr]
  · rw [getPlane, getPlaneOrd_ok zero im wf h0 2 Px3.c2 (fun _ => rfl) _ hp,
      getPlaneOrd_ok zero im wf h0 2 Px3.c2 (fun _ => rfl) _ hr]

example := C27_planes_schedules (0 : Int) (picture 2 2 fun x y => ⟨x, y, 7⟩) (picture_wf ..) (by decide) 2 (by decide) _
  (List.reverse_perm _)

theorem C27_construct_schedules {C : Type} (zero : C) (r g b : Image C) (wr : r.WF) (wg : g.WF)
    (wb : b.WF) (h0 : 0 < r.size.prod) (order : List Nat)
    (hp : order.Perm (List.range r.data.length)) :
    constructPx3Ord zero order r g b = constructPx3 zero r g b := by
  by_cases hs : r.size = g.size ∧ g.size = b.size
  · obtain ⟨h1, h2⟩ := hs
    obtain ⟨P, e0, e1, e2⟩ := exists_px3 r.data g.data b.data (by rw [wr.len, wg.len, h1])
      (by rw [wg.len, wb.len, h2])
    have hl : P.length = r.size.prod := by rw [← wr.len, ← e0, List.length_map]
    have er : r = ⟨r.size, P.map Px3.c0⟩ := by rw [e0]
    have eg : g = ⟨r.size, P.map Px3.c1⟩ := by rw [e1, h1]
    have eb : b = ⟨r.size, P.map Px3.c2⟩ := by rw [e2, h1, h2]
    have a1 := constructPx3Ord_ok zero r.size P hl wr.fits h0 (List.range r.count)
        (by rw [wr.count, wr.len, hl])
    have a2 := constructPx3Ord_ok zero r.size P hl wr.fits h0 order
        (by rw [hl, ← wr.len]; exact hp)
    rw [← er, ← eg, ← eb] at a1 a2
    rw [constructPx3, a1, a2]
  · by_cases h1 : r.size = g.size
    · have h2 : g.size ≠ b.size := fun h => hs ⟨h1, h⟩
      simp [constructPx3, constructPx3Ord, checkSizeSame, h1, h2]
    · simp [constructPx3, constructPx3Ord, checkSizeSame, h1]

example := C27_construct_schedules (0 : Int) (picture 2 2 fun x _ => (x : Int)) (picture 2 2 fun _ y => (y : Int))
  (picture 2 2 fun x y => (x : Int) + y) (picture_wf ..) (picture_wf ..) (picture_wf ..) (by decide) _
  (List.reverse_perm _)

theorem C27_replace_schedules [DecidableEq α] (im : Image α) (old new : α) (order : List Nat)
    (hp : order.Perm (List.range im.data.length)) :
    replaceOrd order im old new = replace im old new := by
  rw [replaceOrd_ok im old new order hp, replace_ok]

example : [1, 0].Perm (List.range (⟨[2, 1], [7, 8]⟩ : Image Nat).data.length) := by decide

end TinyDIP.Props
