import Verif.Lemmas.Samples
import Verif.Lemmas.Blocks
import Verif.Props.Core

/-!
# Properties C11–C20 and the geometric part of C27

`im.Shows w h f` (Spec/Grid.lean) says: `im` is a well-formed `w × h` image and reading pixel
`(x, y)` with the checked accessor gives `f x y`. Every conclusion `op … = .ok out` also says that
the call neither throws nor runs into undefined behaviour.
-/

namespace TinyDIP.Props

open TinyDIP Image

variable {α : Type}

/-! ## C11 constant padding -/

/-- The result is enlarged by the expansion on each side, its centre block is the input and every
other pixel is the given value. (The enlarged image must be representable: fewer than 2^64
pixels.) -/
theorem C11_constant_padding (z d : α) (im : Image α) (w h : Nat) (f : Nat → Nat → α)
    (s : im.Shows w h f) (we he : Nat) (hx : w + 2 * we < 2 ^ 64) (hy : h + 2 * he < 2 ^ 64)
    (hf : (w + 2 * we) * (h + 2 * he) < 2 ^ 64) :
    ∃ out, constantPadding z im we he d = .ok out ∧
      out.Shows (w + 2 * we) (h + 2 * he)
        (fun X Y => if (we ≤ X ∧ X < we + w) ∧ he ≤ Y ∧ Y < he + h then f (X - we) (Y - he)
          else d) :=
  constantPadding_shows z s hx hy hf d

example := C11_constant_padding 0 255 sample2 3 2 _ sample2_shows 2 1 (by decide) (by decide) (by decide)

/-- `add_border_2d` is constant padding with the same width on all sides. -/
theorem C11_add_border (z d : α) (im : Image α) (width : Nat) :
    addBorder2d z im width d = constantPadding z im width width d := rfl

example := C11_add_border 0 7 sample2 2

/-- Images that are not two-dimensional are rejected. -/
theorem C11_not_2d (z d : α) (im : Image α) (we he : Nat) (hd : im.dim ≠ 2) :
    constantPadding z im we he d = .throw .runtime ∧ mirrorPadding z im we he d = .throw .runtime ∧
      replicatePadding z im we he d = .throw .runtime := by
  simp [constantPadding, mirrorPadding, replicatePadding, hd]

example : sample2.Shows 3 2 (fun x y => 10 + x + 3 * y) ∧ 3 + 2 * 4 < 2 ^ 64 ∧ 2 + 2 * 5 < 2 ^ 64 ∧
    (3 + 2 * 4) * (2 + 2 * 5) < 2 ^ 64 := ⟨sample2_shows, by decide, by decide, by decide⟩

/-! ## C12 mirror padding -/

/-- Expansion smaller than the image: each pixel of the result is the input pixel at the reflected
coordinates (`reflectCoord`, Spec/Grid.lean). -/
theorem C12_mirror_padding (z d : α) (im : Image α) (w h : Nat) (f : Nat → Nat → α)
    (s : im.Shows w h f) (we he : Nat) (hwe : we < w) (hhe : he < h)
    (hx : w + 2 * we < 2 ^ 64) (hy : h + 2 * he < 2 ^ 64)
    (hf : (w + 2 * we) * (h + 2 * he) < 2 ^ 64) :
    ∃ out, mirrorPadding z im we he d = .ok out ∧
      out.Shows (w + 2 * we) (h + 2 * he)
        (fun X Y => f (reflectCoord w we X) (reflectCoord h he Y)) :=
  mirrorPadding_shows z s hwe hhe hx hy hf d

example := C12_mirror_padding 0 255 sample2 3 2 _ sample2_shows 2 1 (by decide) (by decide) (by decide) (by decide)
  (by decide)

/-- Expansion not smaller than the image (or an empty image): an exception. -/
theorem C12_too_large (z d : α) (im : Image α) (w h : Nat) (f : Nat → Nat → α)
    (s : im.Shows w h f) (we he : Nat) (hbig : w ≤ we ∨ h ≤ he)
    (hx : w + 2 * we < 2 ^ 64) (hy : h + 2 * he < 2 ^ 64)
    (hf : (w + 2 * we) * (h + 2 * he) < 2 ^ 64) :
    mirrorPadding z im we he d = .throw .runtime :=
  mirrorPadding_throws z s hbig hx hy hf d

example : mirrorPadding 0 sample2 2 2 255 = .throw .runtime :=
  C12_too_large 0 255 sample2 3 2 _ sample2_shows 2 2 (by decide) (by decide) (by decide) (by decide)

/-- `reflectCoord` is reflection: it is the identity inside the image, and symmetric about the
first and about the last column. -/
theorem C12_reflect_is_reflection (n e : Nat) (he : e < n) :
    (∀ x, x < n → reflectCoord n e (e + x) = x) ∧
    (∀ k, k ≤ e → reflectCoord n e (e - k) = reflectCoord n e (e + k)) ∧
    (∀ k, k ≤ e → reflectCoord n e (e + (n - 1) + k) = reflectCoord n e (e + (n - 1) - k)) := by
  refine ⟨fun x hx => reflect_in hx, fun k hk => ?_, fun k hk => ?_⟩
  · rw [reflect_lo (by omega) (by omega), reflect_in (by omega)]; omega
  · have h1 : e + (n - 1) + k = n + e - 1 + k := by omega
    have h2 : e + (n - 1) - k = e + (n - 1 - k) := by omega
    rw [h1, h2, reflect_hi (by omega), reflect_in (by omega)]

example : sample2.Shows 3 2 (fun x y => 10 + x + 3 * y) ∧ 2 < 3 ∧ 1 < 2 ∧
    (3 + 2 * 2) * (2 + 2 * 1) < 2 ^ 64 := ⟨sample2_shows, by decide, by decide, by decide⟩

/-! ## C13 replicate padding -/

/-- Each pixel of the result is the input pixel at the coordinates clamped into the input
(`clampCoord`, Spec/Grid.lean). -/
theorem C13_replicate_padding (z d : α) (im : Image α) (w h : Nat) (f : Nat → Nat → α)
    (s : im.Shows w h f) (we he : Nat) (hw : 0 < w) (hh : 0 < h)
    (hx : w + 2 * we < 2 ^ 64) (hy : h + 2 * he < 2 ^ 64)
    (hf : (w + 2 * we) * (h + 2 * he) < 2 ^ 64) :
    ∃ out, replicatePadding z im we he d = .ok out ∧
      out.Shows (w + 2 * we) (h + 2 * he)
        (fun X Y => f (clampCoord w we X) (clampCoord h he Y)) :=
  replicatePadding_shows z s hw hh hx hy hf d

example := C13_replicate_padding 0 255 sample2 3 2 _ sample2_shows 4 3 (by decide) (by decide) (by decide) (by decide)
  (by decide)

/-- `clampCoord` is clamping of `X - e` to `[0, n - 1]`. -/
theorem C13_clamp_is_clamp (n e X : Nat) (hn : 0 < n) :
    (clampCoord n e X : Int) = max 0 (min ((n : Int) - 1) ((X : Int) - e)) := by
  unfold clampCoord; repeat' split
  all_goals omega

example : sample2.Shows 3 2 (fun x y => 10 + x + 3 * y) ∧ 0 < 3 ∧ 0 < 2 ∧
    (3 + 2 * 5) * (2 + 2 * 7) < 2 ^ 64 := ⟨sample2_shows, by decide, by decide, by decide⟩

/-! ## C14 subimage2

Full statement: additionally every rectangle not contained in the image throws. The code only
rejects corners strictly beyond `width`/`height` (`>` instead of `>=`), so a rectangle ending in
column `width` or row `height` is accepted: see the violations. -/

/-- A rectangle contained in the image is returned pixel for pixel; reversed corners and corners
beyond `width`/`height` throw. Missing: `ex = width` and `ey = height` must throw too. -/
theorem C14_subimage2_partial (z : α) (im : Image α) (w h : Nat) (f : Nat → Nat → α)
    (s : im.Shows w h f) (sx ex sy ey : Nat) :
    (sx ≤ ex → ex < w → sy ≤ ey → ey < h →
      ∃ out, subimage2 z im sx ex sy ey = .ok out ∧
        out.Shows (ex - sx + 1) (ey - sy + 1) (fun x y => f (sx + x) (sy + y))) ∧
    (sx > ex ∨ sy > ey ∨ ex > w ∨ ey > h → subimage2 z im sx ex sy ey = .throw .runtime) :=
  ⟨fun h1 h2 h3 h4 => subimage2_shows z s h1 h2 h3 h4, fun hb => subimage2_throws z s hb⟩

example : sample2.Shows 3 2 (fun x y => 10 + x + 3 * y) ∧ 1 ≤ 2 ∧ 2 < 3 ∧ 0 ≤ 1 ∧ 1 < 2 :=
  ⟨sample2_shows, by decide, by decide, by decide, by decide⟩

/-- Violation: `subimage2(sample2, 2, 3, 0, 0)` reaches column 3 of a 3-column image and returns a
pixel of the next row instead of throwing. -/
theorem C14_column_violation :
    subimage2 0 sample2 2 3 0 0 = .ok ⟨[2, 1], [12, 13]⟩ := by decide

/-- Violation: `subimage2(sample2, 0, 0, 0, 2)` reaches row 2 of a 2-row image and reads outside
the pixel storage. -/
theorem C14_row_violation : subimage2 0 sample2 0 0 0 2 = .ub := by decide

/-! ## C15 subimage -/

/-- Any number of dimensions: pixel `idx` of the result is the input pixel whose (integer)
coordinates are `centre - ⌊size/2⌋ + idx` in each dimension (`shiftCoords`) when that lies inside
the input, and the default element otherwise. `SubimageFits` excludes centres and sizes so close
to 2^64 that a wrapped coordinate could fall back into the image. -/
theorem C15_subimage (z d : α) (im : Image α) (wf : im.WF) (newSizes centers : List Nat)
    (hl1 : newSizes.length = im.size.length) (hl2 : centers.length = im.size.length)
    (hfit : SubimageFits im.size newSizes centers) (hp : newSizes.prod < 2 ^ 64)
    (hp0 : 0 < newSizes.prod) (hs : ∀ n ∈ newSizes, n < 2 ^ 64) :
    ∃ out, subimage im z newSizes centers d = .ok out ∧ out.WF ∧ out.size = newSizes ∧
      ∀ idx, InBounds newSizes idx →
        (∀ src, InBounds im.size src → src.map Int.ofNat = shiftCoords newSizes centers idx →
          out.at' idx = im.at' src) ∧
        ((¬ ∃ src, InBounds im.size src ∧ src.map Int.ofNat = shiftCoords newSizes centers idx) →
          out.at' idx = .ok d) :=
  subimage_spec z wf newSizes centers hl1 hl2 hfit hp hp0 hs d

-- A 3 × 3 × 3 window of a 2 × 3 × 2 image, partly outside it.
example := C15_subimage 0 255 sample sample_wf [3, 3, 3] [0, 1, 1] rfl rfl (by simp [SubimageFits, sample]) (by decide)
  (by decide) (by decide)

/-- The two-dimensional overload, with explicit coordinates. -/
theorem C15_subimage2d (z d : α) (im : Image α) (W H : Nat) (f : Nat → Nat → α)
    (s : im.Shows W H f) (w h cx cy : Nat) (hw : 0 < w) (hh : 0 < h) (hwh : w * h < 2 ^ 64)
    (hcx : cx + w < 2 ^ 64) (hcy : cy + h < 2 ^ 64) (hW : W + w / 2 ≤ 2 ^ 64)
    (hH : H + h / 2 ≤ 2 ^ 64) :
    ∃ out, subimage2d im z w h cx cy d = .ok out ∧
      out.Shows w h (fun i j =>
        if (w / 2 ≤ cx + i ∧ cx + i - w / 2 < W) ∧ h / 2 ≤ cy + j ∧ cy + j - h / 2 < H
        then f (cx + i - w / 2) (cy + j - h / 2) else d) :=
  subimage2d_shows z s hw hh hwh hcx hcy hW hH d

-- A 3 × 3 window around a corner, partly outside the picture.
example := C15_subimage2d 0 255 sample2 3 2 _ sample2_shows 3 3 0 1 (by decide) (by decide) (by decide) (by decide)
  (by decide) (by decide) (by decide)

/-- A wrong number of sizes or centres throws; so does an empty result. -/
theorem C15_rejects (z d : α) (im : Image α) (newSizes centers : List Nat) :
    (newSizes.length ≠ im.size.length ∨ centers.length ≠ im.size.length →
      subimage im z newSizes centers d = .throw .runtime) ∧
    (newSizes.prod = 0 → subimage im z newSizes centers d = .throw .runtime) := by
  constructor
  · intro h; rw [subimage, if_pos (by simpa [Image.dim] using h)]
  · intro h
    rw [subimage]
    split
    · rfl
    · have : Image.prodW newSizes = 0 := by rw [prodW_of_lt (by rw [h]; decide), h]
      simp [this, Image.ofData]

example : sample2.Shows 3 2 (fun x y => 10 + x + 3 * y) ∧ 0 < 5 ∧ 0 < 3 ∧ 5 * 3 < 2 ^ 64 ∧
    0 + 5 < 2 ^ 64 ∧ 1 + 3 < 2 ^ 64 ∧ 3 + 5 / 2 ≤ 2 ^ 64 ∧ 2 + 3 / 2 ≤ 2 ^ 64 :=
  ⟨sample2_shows, by decide, by decide, by decide, by decide, by decide, by decide, by decide⟩

example : sample.WF ∧ SubimageFits sample.size [3, 3, 3] [0, 1, 1] ∧ [3, 3, 3].prod < 2 ^ 64 :=
  ⟨sample_wf, by simp [SubimageFits, sample], by decide⟩

/-! ## C16 split and concat -/

/-- `split` with segment counts not exceeding the sizes: the blocks, in row order, are the
`(w/xs) × (h/ys)` tiles of the image. -/
theorem C16_split (z : α) (im : Image α) (w h : Nat) (f : Nat → Nat → α) (s : im.Shows w h f)
    (xs ys : Nat) (hx : 0 < xs) (hy : 0 < ys) (hbx : xs ≤ w) (hby : ys ≤ h) :
    ∃ blk : Nat → Nat → Image α,
      split z im xs ys = .ok ((List.range ys).map fun y => (List.range xs).map fun x => blk x y) ∧
      ∀ x y, x < xs → y < ys → (blk x y).Shows (w / xs) (h / ys)
        (fun i j => f (x * (w / xs) + i) (y * (h / ys) + j)) :=
  split_shows z s hx hy hbx hby

example := C16_split 0 (picture 6 4 fun x y => x + 6 * y) 6 4 _ (picture_shows ..) 3 2 (by decide) (by decide)
  (by decide) (by decide)

/-- When the segment counts divide the sizes of a non-empty image, `concat(split(im))` is `im`. -/
theorem C16_round_trip (z : α) (im : Image α) (w h : Nat) (f : Nat → Nat → α) (s : im.Shows w h f)
    (xs ys : Nat) (hw : 0 < w) (hh : 0 < h) (hdx : xs ∣ w) (hdy : ys ∣ h) :
    (split z im xs ys >>= concat z) = .ok im := by
  have hx : 0 < xs := Nat.pos_of_dvd_of_pos hdx hw
  have hy : 0 < ys := Nat.pos_of_dvd_of_pos hdy hh
  obtain ⟨blocks, out, e1, e2, so⟩ := concat_split_shows z s hx hy (Nat.le_of_dvd hw hdx)
    (Nat.le_of_dvd hh hdy)
  rw [Nat.mul_div_cancel' hdx, Nat.mul_div_cancel' hdy] at so
  rw [e1, Res.ok_bind, e2, so.ext s (fun _ _ _ _ => rfl)]

example : (split 0 (picture 6 4 fun x y => x + 6 * y) 3 2 >>= concat 0) = .ok (picture 6 4 fun x y => x + 6 * y) :=
  C16_round_trip 0 _ 6 4 _ (picture_shows ..) 3 2 (by decide) (by decide) (by decide) (by decide)

private theorem loop_throw {σ β : Type} {body : σ → β → Res σ} {a : β} {l : List β} {s : σ} {e : Exc}
    (h : body s a = .throw e) : loop body (a :: l) s = .throw e := by
  rw [loop, h]

private theorem split_last_index {n : Nat} (h : n < 2 ^ 64) :
    wsub (wmul (wadd 0 1) n) 1 = if n = 0 then 2 ^ 64 - 1 else n - 1 := by
  rw [wadd_of_lt (by omega), wmul_of_lt (by omega), Nat.zero_add, Nat.one_mul]
  split
  · rw [wsub_of_gt (by omega) (by omega)]; omega
  · rw [wsub_of_le (by omega) (by omega)]

/-- More segments than pixels: an exception. Zero segments: undefined behaviour (integer division
by zero). -/
theorem C16_degenerate (z : α) (im : Image α) (w h : Nat) (f : Nat → Nat → α) (s : im.Shows w h f)
    (xs ys : Nat) :
    (xs = 0 ∨ ys = 0 → split z im xs ys = .ub) ∧
    (0 < xs → 0 < ys → xs < 2 ^ 64 → ys < 2 ^ 64 → w < xs ∨ h < ys →
      split z im xs ys = .throw .runtime) := by
  constructor
  · intro h0
    rw [split]
    rcases Nat.eq_zero_or_pos xs with h1 | h1
    · simp [udiv, h1]
    · rcases h0 with h0 | h0
      · omega
      · simp [udiv, Nat.ne_of_gt h1, h0]
  · intro hx hy hxs hys hb
    have hw := s.w_lt
    have hh := s.h_lt
    rw [split, s.width, s.height]
    simp only [udiv, Nat.ne_of_gt hx, Nat.ne_of_gt hy, if_false, Res.ok_bind, forUp]
    obtain ⟨xs', rfl⟩ : ∃ k, xs = k + 1 := ⟨xs - 1, by omega⟩
    obtain ⟨ys', rfl⟩ : ∃ k, ys = k + 1 := ⟨ys - 1, by omega⟩
    rw [List.range_succ_eq_map, List.range_succ_eq_map]
    apply loop_throw
    rw [loop_throw (e := .runtime)]
    · exact Res.throw_bind _ _
    · rw [subimage2_throws z s]
      · exact Res.throw_bind _ _
      · rw [split_last_index (Nat.lt_of_le_of_lt (Nat.div_le_self _ _) hw),
          split_last_index (Nat.lt_of_le_of_lt (Nat.div_le_self _ _) hh)]
        rcases hb with hb | hb
        · right; right; left
          rw [Nat.div_eq_of_lt hb, if_pos rfl]; omega
        · right; right; right
          rw [Nat.div_eq_of_lt hb, if_pos rfl]; omega

example : sample2.Shows 3 2 (fun x y => 10 + x + 3 * y) ∧ 3 ∣ 3 ∧ 2 ∣ 2 :=
  ⟨sample2_shows, by decide, by decide⟩

/-! ## C17 split_overlap

Full statement: block `(x, y)` is the tile of `split` extended on every side by the overlap, i.e.
the rectangle starting at column `x * bs` of the padded image. The code passes a centre that is
not moved by the padding, and rounds it down for even block sizes, so it is only right without
overlap and for odd block sizes. -/

/-- What is returned, for every overlap and block size: the window of the padded image starting
`xe` (plus one for even block width) columns and `ye` (plus one for even block height) rows too
early, with zero where the window leaves the padded image. Missing: the window should start at
`(x * bs, y * bs)` of the padded image. -/
theorem C17_split_overlap_partial (z v : α) (im : Image α) (w h : Nat) (f : Nat → Nat → α)
    (s : im.Shows w h f) (xs ys xe ye : Nat) (hx : 0 < xs) (hy : 0 < ys) (hbx : xs ≤ w)
    (hby : ys ≤ h) (b : Boundary) (ext : Image α) (F : Nat → Nat → α)
    (hpad : paddedImage z im xe ye b v = .ok ext)
    (sext : ext.Shows (w + 2 * xe) (h + 2 * ye) F)
    (hx63 : 2 * (w + 2 * xe) < 2 ^ 64) (hy63 : 2 * (h + 2 * ye) < 2 ^ 64) :
    ∃ blk : Nat → Nat → Image α,
      splitOverlap z im xs ys xe ye b v
        = .ok ((List.range ys).map fun y => (List.range xs).map fun x => blk x y) ∧
      ∀ x y, x < xs → y < ys → (blk x y).Shows (w / xs + 2 * xe) (h / ys + 2 * ye)
        (fun i j =>
          let dx := xe + (1 - w / xs % 2)
          let dy := ye + (1 - h / ys % 2)
          if (dx ≤ x * (w / xs) + i ∧ x * (w / xs) + i - dx < w + 2 * xe) ∧
              dy ≤ y * (h / ys) + j ∧ y * (h / ys) + j - dy < h + 2 * ye
          then F (x * (w / xs) + i - dx) (y * (h / ys) + j - dy) else z) := by
  have hw := s.w_lt
  have hh := s.h_lt
  have hbx0 : 0 < w / xs := Nat.div_pos hbx hx
  have hby0 : 0 < h / ys := Nat.div_pos hby hy
  have hbxw : w / xs ≤ w := Nat.div_le_self _ _
  have hbyh : h / ys ≤ h := Nat.div_le_self _ _
  have key : ∀ x y, x < xs → y < ys → ∃ o,
      subimage ext z [wadd (w / xs) (wmul 2 xe), wadd (h / ys) (wmul 2 ye)]
        [wadd (wmul x (w / xs)) (wsub (w / xs) 1 / 2), wadd (wmul y (h / ys)) (wsub (h / ys) 1 / 2)]
        z = .ok o ∧ o.Shows (w / xs + 2 * xe) (h / ys + 2 * ye)
        (fun i j =>
          let dx := xe + (1 - w / xs % 2)
          let dy := ye + (1 - h / ys % 2)
          if (dx ≤ x * (w / xs) + i ∧ x * (w / xs) + i - dx < w + 2 * xe) ∧
              dy ≤ y * (h / ys) + j ∧ y * (h / ys) + j - dy < h + 2 * ye
          then F (x * (w / xs) + i - dx) (y * (h / ys) + j - dy) else z) := by
    intro x y hx' hy'
    obtain ⟨a1, _, a3⟩ := split_index hx' rfl hbx0 hw
    obtain ⟨b1, _, b3⟩ := split_index hy' rfl hby0 hh
    rw [a1, b1, wsub_of_le (a := w / xs) (by omega) (by omega),
      wsub_of_le (a := h / ys) (by omega) (by omega), wmul_of_lt (a := 2) (b := xe) (by omega),
      wmul_of_lt (a := 2) (b := ye) (by omega), wadd_of_lt (a := w / xs) (by omega),
      wadd_of_lt (a := h / ys) (by omega), wadd_of_lt (a := x * (w / xs)) (by omega),
      wadd_of_lt (a := y * (h / ys)) (by omega)]
    obtain ⟨o, e, so⟩ := subimage2d_shows z sext (w := w / xs + 2 * xe) (h := h / ys + 2 * ye)
      (cx := x * (w / xs) + (w / xs - 1) / 2) (cy := y * (h / ys) + (h / ys - 1) / 2)
      (by omega) (by omega) (block_fits (by omega) (by omega) sext.fits) (by omega) (by omega)
      (by omega) (by omega) z
    refine ⟨o, e, so.congr fun i j _ _ => ?_⟩
    have p1 : ∀ k n e i : Nat, 0 < n →
        ((n + 2 * e) / 2 ≤ k + (n - 1) / 2 + i ↔ e + (1 - n % 2) ≤ k + i) ∧
        k + (n - 1) / 2 + i - (n + 2 * e) / 2 = k + i - (e + (1 - n % 2)) := by
      intro k n e i hn; constructor
      · omega
      · omega
    obtain ⟨q1, q2⟩ := p1 (x * (w / xs)) (w / xs) xe i hbx0
    obtain ⟨q3, q4⟩ := p1 (y * (h / ys)) (h / ys) ye j hby0
    simp only [q2, q4, q1, q3]
  classical
  refine ⟨fun x y => if hc : x < xs ∧ y < ys then (key x y hc.1 hc.2).choose else im, ?_, ?_⟩
  · rw [splitOverlap, s.width, s.height]
    simp only [udiv, Nat.ne_of_gt hx, Nat.ne_of_gt hy, if_false, Res.ok_bind, forUp, hpad]
    rw [loop_collect _ (fun y => (List.range xs).map fun x =>
      if hc : x < xs ∧ y < ys then (key x y hc.1 hc.2).choose else im)]
    · simp
    · intro y hy'
      rw [List.mem_range] at hy'
      rw [loop_collect _ (fun x => if hc : x < xs ∧ y < ys then (key x y hc.1 hc.2).choose else im)]
      · simp
      · intro x hx'
        rw [List.mem_range] at hx'
        rw [dif_pos ⟨hx', hy'⟩]
        exact (key x y hx' hy').choose_spec.1
  · intro x y hx' hy'
    simp only [dif_pos (And.intro hx' hy')]
    exact (key x y hx' hy').choose_spec.2

-- A 6 × 4 picture in 2 × 2 blocks with one pixel of overlap.
example : ∃ blk : Nat → Nat → Image Nat, splitOverlap 0 (picture 6 4 fun x y => x + 6 * y) 2 2 1 1 .constant 9
    = .ok ((List.range 2).map fun y => (List.range 2).map fun x => blk x y) := by
  obtain ⟨ext, e, se⟩ := C11_constant_padding 0 9 (picture 6 4 fun x y => x + 6 * y) 6 4 _ (picture_shows ..) 1 1
    (by decide) (by decide) (by decide)
  obtain ⟨blk, h, -⟩ := C17_split_overlap_partial 0 9 _ 6 4 _ (picture_shows ..) 2 2 1 1 (by decide) (by decide)
    (by decide) (by decide) .constant ext _ e se (by decide) (by decide)
  exact ⟨blk, h⟩

/-- Without overlap and with odd block sizes the blocks are exactly those of `split`. -/
theorem C17_no_overlap_odd_partial (z v : α) (im : Image α) (w h : Nat) (f : Nat → Nat → α)
    (s : im.Shows w h f) (xs ys : Nat) (hx : 0 < xs) (hy : 0 < ys) (hbx : xs ≤ w) (hby : ys ≤ h)
    (ox : w / xs % 2 = 1) (oy : h / ys % 2 = 1) (b : Boundary) (hx63 : 2 * w < 2 ^ 64)
    (hy63 : 2 * h < 2 ^ 64) :
    splitOverlap z im xs ys 0 0 b v = split z im xs ys := by
  have hpad : ∃ ext, paddedImage z im 0 0 b v = .ok ext ∧ ext.Shows (w + 2 * 0) (h + 2 * 0) f := by
    have h1 := s.fits
    have h2 := s.w_lt
    have h3 := s.h_lt
    cases b with
    | constant =>
      obtain ⟨o, e, so⟩ := constantPadding_shows z s (we := 0) (he := 0) (by omega) (by omega)
        (by simpa using h1) v
      exact ⟨o, e, so.congr fun X Y hX hY => by
        rw [if_pos ⟨⟨by omega, by omega⟩, by omega, by omega⟩]; simp⟩
    | mirror =>
      obtain ⟨o, e, so⟩ := mirrorPadding_shows z s (we := 0) (he := 0) (by omega) (by omega)
        (by omega) (by omega) (by simpa using h1) v
      exact ⟨o, e, so.congr fun X Y hX hY => by
        have a1 := reflect_in (n := w) (e := 0) (x := X) (by omega)
        have a2 := reflect_in (n := h) (e := 0) (x := Y) (by omega)
        rw [Nat.zero_add] at a1 a2
        rw [a1, a2]⟩
    | replicate =>
      obtain ⟨o, e, so⟩ := replicatePadding_shows z s (we := 0) (he := 0) (by omega) (by omega)
        (by omega) (by omega) (by simpa using h1) v
      exact ⟨o, e, so.congr fun X Y hX hY => by
        have a1 := clamp_in (n := w) (e := 0) (x := X) (by omega)
        have a2 := clamp_in (n := h) (e := 0) (x := Y) (by omega)
        rw [Nat.zero_add] at a1 a2
        rw [a1, a2]⟩
  obtain ⟨ext, e, sext⟩ := hpad
  obtain ⟨blk, e1, hb⟩ := C17_split_overlap_partial z v im w h f s xs ys 0 0 hx hy hbx hby b ext f e
    sext (by omega) (by omega)
  obtain ⟨blk', e2, hb'⟩ := split_shows z s hx hy hbx hby
  rw [e1, e2]
  congr 1
  apply List.map_congr_left
  intro y hy'
  apply List.map_congr_left
  intro x hx'
  rw [List.mem_range] at hx' hy'
  have t1 := hb x y hx' hy'
  have t2 := hb' x y hx' hy'
  simp only [Nat.mul_zero, Nat.add_zero] at t1
  refine t1.ext t2 fun i j hi hj => ?_
  obtain ⟨_, _, c3⟩ := split_index hx' rfl (Nat.div_pos hbx hx) s.w_lt
  obtain ⟨_, _, d3⟩ := split_index hy' rfl (Nat.div_pos hby hy) s.h_lt
  simp only [ox, oy, Nat.sub_self, Nat.add_zero, Nat.sub_zero, Nat.zero_le, true_and]
  rw [if_pos ⟨by omega, by omega⟩]

example : sample2.Shows 3 2 (fun x y => 10 + x + 3 * y) ∧ 0 < 1 ∧ 0 < 2 ∧ 3 / 1 % 2 = 1 ∧
    2 / 2 % 2 = 1 := ⟨sample2_shows, by decide, by decide, by decide, by decide⟩

/-- Violation: one block of even width, no overlap: the single block should be the image, but it is
shifted by one column. -/
theorem C17_even_violation :
    splitOverlap 0 (⟨[2, 1], [7, 8]⟩ : Image Nat) 1 1 0 0 .constant 0
      = .ok [[⟨[2, 1], [0, 7]⟩]] ∧
    split 0 (⟨[2, 1], [7, 8]⟩ : Image Nat) 1 1 = .ok [[⟨[2, 1], [7, 8]⟩]] := by decide

/-- Violation: one 1 × 1 block with overlap 1 in x, replicate padding: the padded image is
`7 7 7` and is the expected block, but the window starts one column too early. -/
theorem C17_overlap_violation :
    paddedImage 0 (⟨[1, 1], [7]⟩ : Image Nat) 1 0 .replicate 0 = .ok ⟨[3, 1], [7, 7, 7]⟩ ∧
    splitOverlap 0 (⟨[1, 1], [7]⟩ : Image Nat) 1 1 1 0 .replicate 0
      = .ok [[⟨[3, 1], [0, 7, 7]⟩]] := by decide

/-! ## C18 concatenation -/

/-- Horizontal: any non-empty list of images of one height. The result has the summed width, and
image `k` appears unchanged starting at the column that is the sum of the widths before it. -/
theorem C18_concat_horizontal (z : α) (h : Nat) (is : List (Image α)) (hne : is ≠ [])
    (hs : ∀ im ∈ is, ∃ f, im.Shows im.width h f)
    (hw : (is.map Image.width).sum < 2 ^ 64) (hf : (is.map Image.width).sum * h < 2 ^ 64) :
    ∃ out, concatH z is = .ok out ∧ out.WF ∧ out.size = [(is.map Image.width).sum, h] ∧
      ∀ pre im post, is = pre ++ im :: post → ∀ x y, x < im.width → y < h →
        out.at2 ((pre.map Image.width).sum + x) y = im.at2 x y := by
  classical
  let pf : Image α → Nat → Nat → α := fun im =>
    if hc : ∃ f, im.Shows im.width h f then hc.choose else fun _ _ => z
  have hpf : ∀ im ∈ is, im.Shows im.width h (pf im) := by
    intro im him
    simp only [pf, dif_pos (hs im him)]
    exact (hs im him).choose_spec
  have hall : List.Forall₂ (fun (im : Image α) (p : Nat × (Nat → Nat → α)) => im.Shows p.1 h p.2) is
      (is.map fun im => (im.width, pf im)) := by
    have := forall₂_map_map (R := fun (im : Image α) (p : Nat × (Nat → Nat → α)) => im.Shows p.1 h p.2)
      is id (fun im => (im.width, pf im)) hpf
    simpa using this
  have hsum : ∀ l : List (Image α), ((l.map fun im => (im.width, pf im)).map Prod.fst).sum
      = (l.map Image.width).sum := by
    intro l; rw [List.map_map]; rfl
  obtain ⟨o, e, so⟩ := concatH_shows z is _ hne hall (by rw [hsum]; exact hw)
    (by rw [hsum]; exact hf)
  rw [hsum] at so
  refine ⟨o, e, so.wf, so.size, ?_⟩
  rintro pre im post rfl x y hx hy
  have him := hpf im (by simp)
  rw [so.px _ _ (by simp; omega) hy, him.px x y hx hy]
  congr 1
  have := hcatFn_append z (pre.map fun im => (im.width, pf im)) (post.map fun im => (im.width, pf im))
    (im.width, pf im) (y := y) hx
  rw [hsum] at this
  rw [List.map_append, List.map_cons]
  exact this

example := C18_concat_horizontal 0 2 [sample2, picture 4 2 fun x y => x * y, sample2] (by simp)
  (by simp only [List.mem_cons, List.not_mem_nil, or_false]
      rintro im (rfl | rfl | rfl)
      exacts [⟨_, sample2_shows⟩, ⟨_, picture_shows ..⟩, ⟨_, sample2_shows⟩]) (by decide) (by decide)

/-- Vertical: likewise with the roles of width and height exchanged. -/
theorem C18_concat_vertical (z : α) (w : Nat) (is : List (Image α)) (hne : is ≠ [])
    (hs : ∀ im ∈ is, ∃ f, im.Shows w im.height f)
    (hw : (is.map Image.height).sum < 2 ^ 64) (hf : w * (is.map Image.height).sum < 2 ^ 64) :
    ∃ out, concatV z is = .ok out ∧ out.WF ∧ out.size = [w, (is.map Image.height).sum] ∧
      ∀ pre im post, is = pre ++ im :: post → ∀ x y, x < w → y < im.height →
        out.at2 x ((pre.map Image.height).sum + y) = im.at2 x y := by
  classical
  let pf : Image α → Nat → Nat → α := fun im =>
    if hc : ∃ f, im.Shows w im.height f then hc.choose else fun _ _ => z
  have hpf : ∀ im ∈ is, im.Shows w im.height (pf im) := by
    intro im him
    simp only [pf, dif_pos (hs im him)]
    exact (hs im him).choose_spec
  have hall : List.Forall₂ (fun (im : Image α) (p : Nat × (Nat → Nat → α)) => im.Shows w p.1 p.2) is
      (is.map fun im => (im.height, pf im)) := by
    have := forall₂_map_map (R := fun (im : Image α) (p : Nat × (Nat → Nat → α)) => im.Shows w p.1 p.2)
      is id (fun im => (im.height, pf im)) hpf
    simpa using this
  have hsum : ∀ l : List (Image α), ((l.map fun im => (im.height, pf im)).map Prod.fst).sum
      = (l.map Image.height).sum := by
    intro l; rw [List.map_map]; rfl
  obtain ⟨o, e, so⟩ := concatV_shows z is _ hne hall (by rw [hsum]; exact hw)
    (by rw [hsum]; exact hf)
  rw [hsum] at so
  refine ⟨o, e, so.wf, so.size, ?_⟩
  rintro pre im post rfl x y hx hy
  have him := hpf im (by simp)
  rw [so.px _ _ hx (by simp; omega), him.px x y hx hy]
  congr 1
  have := vcatFn_append z (pre.map fun im => (im.height, pf im))
    (post.map fun im => (im.height, pf im)) (im.height, pf im) (x := x) hy
  rw [hsum] at this
  rw [List.map_append, List.map_cons]
  exact this

example := C18_concat_vertical 0 3 [sample2, picture 3 4 fun x y => x * y] (by simp)
  (by simp only [List.mem_cons, List.not_mem_nil, or_false]
      rintro im (rfl | rfl)
      exacts [⟨_, sample2_shows⟩, ⟨_, picture_shows ..⟩]) (by decide) (by decide)

/-- Images of different height (width) are rejected wherever they occur in the list: the images
before the odd one have the height (width) of the first. -/
theorem C18_mismatch (z : α) :
    (∀ (h : Nat) (is : List (Image α)) (bad : Image α) (rest : List (Image α)), is ≠ [] →
      (∀ im ∈ is, ∃ f, im.Shows im.width h f) → (is.map Image.width).sum < 2 ^ 64 →
      (is.map Image.width).sum * h < 2 ^ 64 → bad.height ≠ h →
      concatH z (is ++ bad :: rest) = .throw .runtime) ∧
    (∀ (w : Nat) (is : List (Image α)) (bad : Image α) (rest : List (Image α)), is ≠ [] →
      (∀ im ∈ is, ∃ f, im.Shows w im.height f) → (is.map Image.height).sum < 2 ^ 64 →
      w * (is.map Image.height).sum < 2 ^ 64 → bad.width ≠ w →
      concatV z (is ++ bad :: rest) = .throw .runtime) := by
  constructor
  · intro h is bad rest hne hs hw hf hbad
    obtain ⟨o, e, wf, hsz, _⟩ := C18_concat_horizontal z h is hne hs hw hf
    obtain ⟨i, is', rfl⟩ := List.exists_cons_of_ne_nil hne
    have hh : o.height = h := by simp [Image.height, hsz]
    rw [List.cons_append, concatH, loop_append]
    rw [concatH] at e
    rw [e, Res.ok_bind, loop, concatH2, hh, if_pos (Ne.symm hbad)]
  · intro w is bad rest hne hs hw hf hbad
    obtain ⟨o, e, wf, hsz, _⟩ := C18_concat_vertical z w is hne hs hw hf
    obtain ⟨i, is', rfl⟩ := List.exists_cons_of_ne_nil hne
    have hh : o.width = w := by simp [Image.width, hsz]
    rw [List.cons_append, concatV, loop_append]
    rw [concatV] at e
    rw [e, Res.ok_bind, loop, concatV2, hh, if_pos (Ne.symm hbad)]

example : (∀ im ∈ [sample2, sample2], ∃ f, im.Shows im.width 2 f) ∧
    ([sample2, sample2].map Image.width).sum * 2 < 2 ^ 64 := by
  constructor
  · intro im him
    simp at him; subst him
    exact ⟨_, sample2_shows⟩
  · decide

/-! ## C19 paste2D

Full statement: for every location. `xl + target width` is computed modulo 2^64, so a location
that overflows is not handled (`C19_overflow_violation`). -/

/-- When location plus target size does not overflow: the output is the smallest image containing
background and target; it shows the target at the location, the background elsewhere, and the
default value where neither reaches. (An output without pixels is rejected by the `Image`
constructor.) Missing: overflowing locations. -/
theorem C19_paste_partial (bg t : Image α) (w h tw th : Nat) (f ft : Nat → Nat → α)
    (sb : bg.Shows w h f) (st : t.Shows tw th ft) (xl yl : Nat) (d : α)
    (hx64 : xl + tw < 2 ^ 64) (hy64 : yl + th < 2 ^ 64)
    (hfits : max w (xl + tw) * max h (yl + th) < 2 ^ 64)
    (hpos : 0 < max w (xl + tw) * max h (yl + th)) :
    ∃ out, paste2D bg t xl yl d = .ok out ∧
      out.Shows (max w (xl + tw)) (max h (yl + th))
        (fun X Y => if (xl ≤ X ∧ X < xl + tw) ∧ yl ≤ Y ∧ Y < yl + th then ft (X - xl) (Y - yl)
          else if X < w ∧ Y < h then f X Y else d) := by
  by_cases hin : xl + tw ≤ w ∧ yl + th ≤ h
  · obtain ⟨o, e, so⟩ := paste2D_fit sb st hin.1 hin.2 d
    refine ⟨o, e, ?_⟩
    rw [Nat.max_eq_left hin.1, Nat.max_eq_left hin.2]
    refine so.congr fun X Y hX hY => ?_
    simp only [hX, hY, and_self, if_true]
  · exact paste2D_grow sb st hin hx64 hy64 hfits hpos d

-- The pasted picture sticks out of the background.
example := C19_paste_partial sample2 (picture 4 4 fun x y => x * y) 3 2 4 4 _ _ sample2_shows (picture_shows ..) 2 1 255
  (by decide) (by decide) (by decide) (by decide)

/-- Not two-dimensional: rejected. -/
theorem C19_not_2d (bg t : Image α) (xl yl : Nat) (d : α) (hd : bg.dim ≠ 2 ∨ t.dim ≠ 2) :
    paste2D bg t xl yl d = .throw .runtime := by
  rw [paste2D]
  split
  · rfl
  · rename_i h1
    rw [if_pos (hd.resolve_left (by simpa using h1))]

example : paste2D sample sample2 0 0 9 = .throw .runtime := C19_not_2d _ _ _ _ _ (.inl (by decide))

/-- Violation: location 2^64 - 1 plus width 1 wraps to 0, so the target is taken to fit and is
written outside the background. -/
theorem C19_overflow_violation :
    paste2D (⟨[1, 1], [5]⟩ : Image Nat) ⟨[1, 1], [7]⟩ (2 ^ 64 - 1) 0 0 = .ub := by decide

example : sample2.Shows 3 2 (fun x y => 10 + x + 3 * y) ∧ 2 + 3 < 2 ^ 64 ∧ 5 + 2 < 2 ^ 64 ∧
    max 3 (2 + 3) * max 2 (5 + 2) < 2 ^ 64 ∧ 0 < max 3 (2 + 3) * max 2 (5 + 2) :=
  ⟨sample2_shows, by decide, by decide, by decide, by decide⟩

/-! ## C20 transpose, flips, quarter turn -/

/-- Where each operation moves the pixels. -/
theorem C20_pixels (z : α) (im : Image α) (w h : Nat) (f : Nat → Nat → α) (s : im.Shows w h f) :
    (∃ o, transpose z im = .ok o ∧ o.Shows h w (fun x y => f y x)) ∧
    (∃ o, flipHorizontal im = .ok o ∧ o.Shows w h (fun x y => f (w - 1 - x) y)) ∧
    (∃ o, flipVertical im = .ok o ∧ o.Shows w h (fun x y => f x (h - 1 - y))) ∧
    (∃ o, flipHV im = .ok o ∧ o.Shows w h (fun x y => f (w - 1 - x) (h - 1 - y))) ∧
    (∃ o, rotate90 z im = .ok o ∧ o.Shows h w (fun x y => f y (h - 1 - x))) :=
  ⟨transpose_shows z s, flipHorizontal_shows s, flipVertical_shows s, flipHV_shows s,
    rotate90_shows z s⟩

example := C20_pixels 0 sample2 3 2 _ sample2_shows

/-- Transpose and the flips are their own inverse. -/
theorem C20_involutions (z : α) (im : Image α) (w h : Nat) (f : Nat → Nat → α)
    (s : im.Shows w h f) :
    (transpose z im >>= transpose z) = .ok im ∧ (flipHorizontal im >>= flipHorizontal) = .ok im ∧
      (flipVertical im >>= flipVertical) = .ok im ∧ (flipHV im >>= flipHV) = .ok im := by
  refine ⟨?_, ?_, ?_, ?_⟩
  · obtain ⟨o, e, so⟩ := transpose_shows z s
    obtain ⟨o', e', so'⟩ := transpose_shows z so
    rw [e, Res.ok_bind, e', so'.ext s fun _ _ _ _ => rfl]
  · obtain ⟨o, e, so⟩ := flipHorizontal_shows s
    obtain ⟨o', e', so'⟩ := flipHorizontal_shows so
    rw [e, Res.ok_bind, e', so'.ext s fun x y hx _ => by
      rw [show w - 1 - (w - 1 - x) = x by omega]]
  · obtain ⟨o, e, so⟩ := flipVertical_shows s
    obtain ⟨o', e', so'⟩ := flipVertical_shows so
    rw [e, Res.ok_bind, e', so'.ext s fun x y _ hy => by
      rw [show h - 1 - (h - 1 - y) = y by omega]]
  · obtain ⟨o, e, so⟩ := flipHV_shows s
    obtain ⟨o', e', so'⟩ := flipHV_shows so
    rw [e, Res.ok_bind, e', so'.ext s fun x y hx hy => by
      rw [show w - 1 - (w - 1 - x) = x by omega, show h - 1 - (h - 1 - y) = y by omega]]

example := C20_involutions 0 sample2 3 2 _ sample2_shows

/-- The flips commute and compose to `flip_horizontal_vertical`. -/
theorem C20_flips_compose (im : Image α) (w h : Nat) (f : Nat → Nat → α) (s : im.Shows w h f) :
    (flipHorizontal im >>= flipVertical) = flipHV im ∧
      (flipVertical im >>= flipHorizontal) = flipHV im := by
  obtain ⟨ohv, ehv, shv⟩ := flipHV_shows s
  constructor
  · obtain ⟨o, e, so⟩ := flipHorizontal_shows s
    obtain ⟨o', e', so'⟩ := flipVertical_shows so
    rw [e, Res.ok_bind, e', ehv, so'.ext shv fun _ _ _ _ => rfl]
  · obtain ⟨o, e, so⟩ := flipVertical_shows s
    obtain ⟨o', e', so'⟩ := flipHorizontal_shows so
    rw [e, Res.ok_bind, e', ehv, so'.ext shv fun _ _ _ _ => rfl]

example := C20_flips_compose sample2 3 2 _ sample2_shows

/-- The quarter turn is transpose followed by a horizontal flip; twice is the half turn; four
times is the identity. -/
theorem C20_quarter_turn (z : α) (im : Image α) (w h : Nat) (f : Nat → Nat → α)
    (s : im.Shows w h f) :
    rotate90 z im = (transpose z im >>= flipHorizontal) ∧
    (rotate90 z im >>= rotate90 z) = flipHV im ∧
    (rotate90 z im >>= rotate90 z >>= rotate90 z >>= rotate90 z) = .ok im := by
  obtain ⟨o1, e1, s1⟩ := rotate90_shows z s
  obtain ⟨o2, e2, s2⟩ := rotate90_shows z s1
  obtain ⟨o3, e3, s3⟩ := rotate90_shows z s2
  obtain ⟨o4, e4, s4⟩ := rotate90_shows z s3
  obtain ⟨t, et, st⟩ := transpose_shows z s
  obtain ⟨t', et', st'⟩ := flipHorizontal_shows st
  obtain ⟨ohv, ehv, shv⟩ := flipHV_shows s
  refine ⟨?_, ?_, ?_⟩
  · rw [e1, et, Res.ok_bind, et', s1.ext st' fun _ _ _ _ => rfl]
  · rw [e1, Res.ok_bind, e2, ehv, s2.ext shv fun _ _ _ _ => rfl]
  · rw [e1, Res.ok_bind, e2, Res.ok_bind, e3, Res.ok_bind, e4, s4.ext s fun x y hx hy => by
      rw [show w - 1 - (w - 1 - x) = x by omega, show h - 1 - (h - 1 - y) = y by omega]]

example : sample2.Shows 3 2 (fun x y => 10 + x + 3 * y) := sample2_shows

/-! ## C27 (geometric operations): every schedule gives the sequential result -/

/-- `transpose`, the flips and `subimage2` run their per-pixel bodies under an execution policy or
OpenMP. For every order of the bodies the result is that of the sequential loop. -/
theorem C27_geometry_schedules (z : α) (im : Image α) (w h : Nat) (f : Nat → Nat → α)
    (s : im.Shows w h f) (order : List (Nat × Nat)) (hp : order.Perm (iterYX w h)) :
    transposeOrd z order im = transpose z im ∧ flipHorizontalOrd order im = flipHorizontal im ∧
      flipVerticalOrd order im = flipVertical im ∧ flipHVOrd order im = flipHV im := by
  have ho := covers_perm hp
  refine ⟨?_, ?_, ?_, ?_⟩
  · obtain ⟨o, e, so⟩ := transposeOrd_shows z s ho
    obtain ⟨o', e', so'⟩ := transpose_shows z s
    rw [e, e', so.ext so' fun _ _ _ _ => rfl]
  · obtain ⟨o, e, so⟩ := flipHorizontalOrd_shows s ho
    obtain ⟨o', e', so'⟩ := flipHorizontal_shows s
    rw [e, e', so.ext so' fun _ _ _ _ => rfl]
  · obtain ⟨o, e, so⟩ := flipVerticalOrd_shows s ho
    obtain ⟨o', e', so'⟩ := flipVertical_shows s
    rw [e, e', so.ext so' fun _ _ _ _ => rfl]
  · obtain ⟨o, e, so⟩ := flipHVOrd_shows s ho
    obtain ⟨o', e', so'⟩ := flipHV_shows s
    rw [e, e', so.ext so' fun _ _ _ _ => rfl]

example := C27_geometry_schedules 0 sample2 3 2 _ sample2_shows _ (List.reverse_perm _)

/-- `subimage2` of a rectangle contained in the image. -/
theorem C27_subimage2_schedules (z : α) (im : Image α) (w h : Nat) (f : Nat → Nat → α)
    (s : im.Shows w h f) (sx ex sy ey : Nat) (hx : sx ≤ ex) (hx' : ex < w) (hy : sy ≤ ey)
    (hy' : ey < h) (order : List (Nat × Nat))
    (hp : order.Perm (iterYX (ex - sx + 1) (ey - sy + 1))) :
    subimage2Ord z order im sx ex sy ey = subimage2 z im sx ex sy ey := by
  obtain ⟨o, e, so⟩ := subimage2Ord_shows z s hx hx' hy hy' (covers_perm hp)
  obtain ⟨o', e', so'⟩ := subimage2_shows z s hx hx' hy hy'
  rw [e, e', so.ext so' fun _ _ _ _ => rfl]

example : (iterYX 3 2).reverse.Perm (iterYX 3 2) ∧ (iterYX 3 2).reverse ≠ iterYX 3 2 :=
  ⟨List.reverse_perm _, by decide⟩

end TinyDIP.Props
