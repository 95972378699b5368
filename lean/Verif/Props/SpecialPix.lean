import Verif.Lemmas.SpecialPix
import Verif.Lemmas.Samples
import Verif.Props.Rounded

/-!
# Properties: infinities and NaN in pictures

C187: the smallest and the largest value of a picture, with any values a `double` can have. C188: normalising such a
picture. C189: counting, replacing and converting to bytes.
-/

namespace TinyDIP.Props

open TinyDIP Image Sp Rnd

/-! ## C187

Full statement: `min` and `max` are the smallest and the largest of the pixels that are not NaN. Missing: pictures
whose first pixel is NaN. -/

/-- When the first pixel is not NaN, `min` and `max` are values of pixels, not NaN, and no pixel other than NaN lies
outside them, whatever infinities and NaN the other pixels hold. -/
theorem C187_extremes_partial {im : Image Dbl} {w h : Nat} {f : Nat → Nat → Dbl} (s : im.Shows w h f) (hw : 0 < w)
    (hh : 0 < h) (h0 : f 0 0 ≠ .nan) :
    ∃ lo hi, imMin im = .ok lo ∧ imMax im = .ok hi ∧ lo ≠ .nan ∧ hi ≠ .nan ∧
      (∃ x y, x < w ∧ y < h ∧ f x y = lo) ∧ (∃ x y, x < w ∧ y < h ∧ f x y = hi) ∧
      ∀ x y, x < w → y < h → f x y ≠ .nan → lo.le (f x y) ∧ (f x y).le hi := by
  obtain ⟨l, hd⟩ := head_data s hw hh
  obtain ⟨a1, a2, a3⟩ := fold_min l _ h0
  obtain ⟨b1, b2, b3⟩ := fold_max l _ h0
  rw [← hd] at a2 a3 b2 b3
  refine ⟨_, _, by rw [imMin, hd, stdMin], by rw [imMax, hd, stdMax], a1, b1, (mem_data s _).mp a2, (mem_data s _).mp b2,
    fun x y hx hy hn => ?_⟩
  have hm := (mem_data s (f x y)).mpr ⟨x, y, hx, hy, rfl⟩
  exact ⟨a3 _ hm hn, b3 _ hm hn⟩

/-- A row of four pixels used as an instance: 5, NaN, +∞, -1. -/
noncomputable def oddRow (x _y : Nat) : Dbl := match x with
  | 0 => .num 5
  | 1 => .nan
  | 2 => .pinf
  | _ => .num (-1)

-- its extremes are -1 and +∞
example : imMin (picture 4 1 oddRow) = .ok (.num (-1)) ∧ imMax (picture 4 1 oddRow) = .ok .pinf := by
  obtain ⟨lo, hi, e1, e2, n1, n2, ⟨x, y, hx, hy, g1⟩, ⟨x', y', hx', hy', g2⟩, g3⟩ :=
    C187_extremes_partial (picture_shows 4 1 oddRow) (by decide) (by decide) (by simp [oddRow])
  have a := (g3 3 0 (by decide) (by decide) (by simp [oddRow])).1
  have b := (g3 2 0 (by decide) (by decide) (by simp [oddRow])).2
  rw [e1, e2, ← g1, ← g2] at *
  obtain rfl : y = 0 := by omega
  obtain rfl : y' = 0 := by omega
  constructor
  · rcases (by omega : x = 0 ∨ x = 1 ∨ x = 2 ∨ x = 3) with rfl | rfl | rfl | rfl <;>
      simp_all [oddRow, Dbl.le, Dbl.lt]
    all_goals norm_num at a
  · rcases (by omega : x' = 0 ∨ x' = 1 ∨ x' = 2 ∨ x' = 3) with rfl | rfl | rfl | rfl <;>
      simp_all [oddRow, Dbl.le, Dbl.lt]

/-- When the first pixel is NaN, `min` and `max` are NaN, whatever the other pixels are. So the answers depend on the
order of the pixels. -/
theorem C187_extremes_violation {im : Image Dbl} {w h : Nat} {f : Nat → Nat → Dbl} (s : im.Shows w h f) (hw : 0 < w)
    (hh : 0 < h) (h0 : f 0 0 = .nan) : imMin im = .ok .nan ∧ imMax im = .ok .nan := by
  obtain ⟨l, hd⟩ := head_data s hw hh
  rw [imMin, imMax, hd, stdMin, stdMax, h0, fold_min_nan, fold_max_nan]
  exact ⟨rfl, rfl⟩

-- NaN, 1 and 1, NaN: the same two values, different answers
example : imMax (picture 2 1 fun x _ => if x = 0 then Dbl.nan else .num 1) = .ok .nan ∧
    imMax (picture 2 1 fun x _ => if x = 1 then Dbl.nan else .num 1) = .ok (.num 1) := by
  refine ⟨(C187_extremes_violation (picture_shows 2 1 _) (by decide) (by decide) (by simp)).2, ?_⟩
  obtain ⟨lo, hi, -, e2, -, n2, -, ⟨x, y, hx, hy, g2⟩, -⟩ :=
    C187_extremes_partial (picture_shows 2 1 fun x _ => if x = 1 then Dbl.nan else .num 1) (by decide) (by decide)
      (by simp)
  rw [e2, ← g2]
  by_cases hx1 : x = 1
  · simp [hx1] at g2; exact absurd g2.symm n2
  · simp [hx1]

/-! ## C188

Full statement: `normalize` maps the picture onto the numbers from 0 to 1. Missing: pictures with infinities or NaN,
pictures of one value, and pictures whose range is too large for a `double`. -/

/-- A picture of numbers with smallest value `lo` and largest value `hi`, `lo < hi`, whose difference does not overflow:
the result holds numbers from 0 to 1 only, 0 where the picture is smallest and 1 where it is largest. -/
theorem C188_normalize_partial {im : Image Dbl} {w h : Nat} {g : Nat → Nat → ℝ}
    (s : im.Shows w h fun x y => .num (g x y)) {lo hi : ℝ} (hlt : lo < hi)
    (h1 : ∃ x y, x < w ∧ y < h ∧ g x y = lo) (h2 : ∃ x y, x < w ∧ y < h ∧ g x y = hi)
    (hr : ∀ x y, x < w → y < h → lo ≤ g x y ∧ g x y ≤ hi) (hov : dbl (hi - lo) < 2 ^ 1024) :
    ∃ out, ∃ r : Nat → Nat → ℝ, Sp.normalize im = .ok out ∧ (out.Shows w h fun x y => .num (r x y)) ∧
      ∀ x y, x < w → y < h → 0 ≤ r x y ∧ r x y ≤ 1 ∧ (g x y = lo → r x y = 0) ∧ (g x y = hi → r x y = 1) ∧
        r x y = dbl (dbl (g x y - lo) / dbl (hi - lo)) := by
  obtain ⟨x1, y1, hx1, hy1, e1⟩ := h1
  obtain ⟨x2, y2, hx2, hy2, e2⟩ := h2
  have hw : 0 < w := by omega
  have hh : 0 < h := by omega
  obtain ⟨lo', hi', m1, m2, -, -, ⟨x3, y3, hx3, hy3, e3⟩, ⟨x4, y4, hx4, hy4, e4⟩, m3⟩ :=
    C187_extremes_partial s hw hh (by simp)
  have q1 : lo' = .num lo := by
    have a := (m3 x1 y1 hx1 hy1 (by simp)).1
    rw [e1, ← e3] at a
    have a' : g x3 y3 ≤ lo := a
    rw [← e3, le_antisymm a' (hr x3 y3 hx3 hy3).1]
  have q2 : hi' = .num hi := by
    have a := (m3 x2 y2 hx2 hy2 (by simp)).2
    rw [e2, ← e4] at a
    have a' : hi ≤ g x4 y4 := a
    rw [← e4, le_antisymm (hr x4 y4 hx4 hy4).2 a']
  subst q1 q2
  obtain ⟨out, eo, so⟩ := normalize_shows s hw hh m1 m2
  obtain ⟨n0, n1, nb, nm⟩ := C155_normalize lo hi hlt
  have hd0 : 0 < hi - lo := by linarith
  have hd : 0 < dbl (hi - lo) :=
    lt_of_lt_of_le (mul_pos (by unfold eps; norm_num) hd0) (dbl_bounds hd0.le).1
  have sub_eq : ∀ a b : ℝ, a - b ≤ hi - lo → 0 ≤ a - b → (Dbl.num a).sub (.num b) = .num (dbl (a - b)) := by
    intro a b hab h0
    show Dbl.rnd (a + -b) = _
    rw [← sub_eq_add_neg]
    refine rnd_of_lt ?_
    rw [abs_of_nonneg (dbl_nonneg h0)]
    exact lt_of_le_of_lt (dbl_mono hab) hov
  refine ⟨out, fun x y => dbl (dbl (g x y - lo) / dbl (hi - lo)), eo, so.congr fun x y hx hy => ?_,
    fun x y hx hy => ?_⟩
  · have hb := hr x y hx hy
    rw [sub_eq _ _ (by linarith) (by linarith), sub_eq hi lo le_rfl hd0.le]
    show (if dbl (hi - lo) = 0 then _ else Dbl.rnd _) = _
    rw [if_neg hd.ne']
    refine rnd_of_lt ?_
    have hn := nb (g x y) hb.1 hb.2
    unfold normalizeD at hn
    rw [abs_of_nonneg hn.1]
    exact lt_of_le_of_lt hn.2 (one_lt_pow₀ (by norm_num) (by norm_num))
  · have hb := hr x y hx hy
    have hn := nb (g x y) hb.1 hb.2
    exact ⟨hn.1, hn.2, fun e => by show normalizeD lo hi (g x y) = 0; rw [e]; exact n0,
      fun e => by show normalizeD lo hi (g x y) = 1; rw [e]; exact n1, rfl⟩

-- the numbers 0 … 3 of a 3 × 2 picture
example := C188_normalize_partial (picture_shows 3 2 fun x y => Dbl.num ((x + y : Nat) : ℝ)) (lo := 0) (hi := 3)
  (by norm_num) ⟨0, 0, by decide, by decide, by norm_num⟩ ⟨2, 1, by decide, by decide, by norm_num⟩
  (fun x y hx hy => by
    have : x + y ≤ 3 := by omega
    exact ⟨by positivity, by exact_mod_cast this⟩)
  (by
    have e : dbl ((3 : ℝ) - 0) = ((3 : Nat) : ℝ) := by
      rw [show (3 : ℝ) - 0 = ((3 : Nat) : ℝ) by norm_num]; exact dbl_nat (by norm_num)
    rw [e]
    exact lt_of_lt_of_le (by norm_num) (pow_le_pow_right₀ (by norm_num) (by norm_num : 2 ≤ 1024)))

/-- The result when the first pixel is NaN: NaN everywhere. -/
theorem C188_nan_first_violation {im : Image Dbl} {w h : Nat} {f : Nat → Nat → Dbl} (s : im.Shows w h f) (hw : 0 < w)
    (hh : 0 < h) (h0 : f 0 0 = .nan) : ∃ out, Sp.normalize im = .ok out ∧ out.Shows w h fun _ _ => .nan := by
  obtain ⟨e1, e2⟩ := C187_extremes_violation s hw hh h0
  obtain ⟨out, eo, so⟩ := normalize_shows s hw hh e1 e2
  refine ⟨out, eo, so.congr fun x y _ _ => ?_⟩
  cases f x y <;> rfl

example := C188_nan_first_violation (picture_shows 2 1 fun x _ => if x = 0 then Dbl.nan else .num 1) (by decide) (by decide)
  rfl

/-- One infinite pixel, the first pixel not NaN: nothing of the picture is left, every pixel becomes 0 or NaN, and the
infinite ones become NaN. -/
theorem C188_infinity_violation {im : Image Dbl} {w h : Nat} {f : Nat → Nat → Dbl} (s : im.Shows w h f)
    (h0 : f 0 0 ≠ .nan) {a b : Nat} (ha : a < w) (hb : b < h) (hp : f a b = .pinf ∨ f a b = .ninf) :
    ∃ out, Sp.normalize im = .ok out ∧
      (∀ x y, x < w → y < h → f x y = .pinf ∨ f x y = .ninf → out.at2 x y = .ok .nan) ∧
      ∀ x y, x < w → y < h → out.at2 x y = .ok (.num 0) ∨ out.at2 x y = .ok .nan := by
  have hw : 0 < w := by omega
  have hh : 0 < h := by omega
  obtain ⟨lo, hi, m1, m2, n1, n2, -, -, m3⟩ := C187_extremes_partial s hw hh h0
  have q : hi = .pinf ∨ lo = .ninf := by
    rcases hp with hp | hp
    · have := (m3 a b ha hb (by simp [hp])).2
      rw [hp] at this
      cases hi <;> simp_all [Dbl.le, Dbl.lt]
    · have := (m3 a b ha hb (by simp [hp])).1
      rw [hp] at this
      cases lo <;> simp_all [Dbl.le, Dbl.lt]
  obtain ⟨out, eo, so⟩ := normalize_shows s hw hh m1 m2
  have hd : hi.sub lo = .pinf ∨ hi.sub lo = .nan := by
    rcases q with rfl | rfl
    · cases lo <;> simp [Dbl.sub, Dbl.add, Dbl.neg]
    · cases hi <;> simp [Dbl.sub, Dbl.add, Dbl.neg]
  have key : ∀ v : Dbl, v.div (hi.sub lo) = .num 0 ∨ v.div (hi.sub lo) = .nan := by
    intro v
    rcases hd with e | e <;> rw [e] <;> cases v <;> simp [Dbl.div]
  refine ⟨out, eo, fun x y hx hy e => ?_, fun x y hx hy => ?_⟩
  · rw [so.px x y hx hy]
    congr 1
    rcases e with e | e <;> rw [e] <;> rcases hd with e' | e' <;> rw [e'] <;> cases lo <;>
      simp [Dbl.sub, Dbl.add, Dbl.neg, Dbl.div]
  · rw [so.px x y hx hy]
    rcases key ((f x y).sub lo) with e | e <;> rw [e] <;> simp

-- 5, NaN, +∞, -1: the infinity becomes NaN
example := C188_infinity_violation (picture_shows 4 1 oddRow) (by simp [oddRow]) (a := 2) (b := 0) (by decide) (by decide)
  (.inl rfl)

/-- A picture of one value: NaN everywhere (a zero is divided by zero, or an infinity is subtracted from itself). -/
theorem C188_constant_violation {im : Image Dbl} {w h : Nat} {v : Dbl} (s : im.Shows w h fun _ _ => v) (hw : 0 < w)
    (hh : 0 < h) : ∃ out, Sp.normalize im = .ok out ∧ out.Shows w h fun _ _ => .nan := by
  by_cases hn : v = .nan
  · exact C188_nan_first_violation s hw hh hn
  obtain ⟨lo, hi, m1, m2, -, -, ⟨-, -, -, -, rfl⟩, ⟨-, -, -, -, rfl⟩, -⟩ := C187_extremes_partial s hw hh hn
  obtain ⟨out, eo, so⟩ := normalize_shows s hw hh m1 m2
  refine ⟨out, eo, so.congr fun x y _ _ => ?_⟩
  cases v with
  | num r =>
    have : (Dbl.num r).sub (.num r) = .num 0 := by
      show Dbl.rnd (r + -r) = _
      rw [add_neg_cancel, rnd_of_lt (by rw [dbl_zero, abs_zero]; positivity), dbl_zero]
    rw [this]
    simp [Dbl.div, Dbl.infTimes]
  | pinf => simp [Dbl.sub, Dbl.add, Dbl.neg, Dbl.div]
  | ninf => simp [Dbl.sub, Dbl.add, Dbl.neg, Dbl.div]
  | nan => simp [Dbl.sub, Dbl.add, Dbl.neg, Dbl.div]

example := C188_constant_violation (picture_shows 3 2 fun _ _ => Dbl.num 7) (by decide) (by decide)

/-- Numbers only, but the difference of the largest and the smallest is too large for a `double`: the largest pixels
become NaN and the smallest 0. -/
theorem C188_overflow_violation {im : Image Dbl} {w h : Nat} {g : Nat → Nat → ℝ}
    (s : im.Shows w h fun x y => .num (g x y)) {lo hi : ℝ}
    (h1 : ∃ x y, x < w ∧ y < h ∧ g x y = lo) (h2 : ∃ x y, x < w ∧ y < h ∧ g x y = hi)
    (hr : ∀ x y, x < w → y < h → lo ≤ g x y ∧ g x y ≤ hi) (hov : 2 ^ 1024 ≤ dbl (hi - lo)) :
    ∃ out, Sp.normalize im = .ok out ∧ ∀ x y, x < w → y < h →
      (g x y = hi → out.at2 x y = .ok .nan) ∧ (g x y = lo → out.at2 x y = .ok (.num 0)) := by
  obtain ⟨x1, y1, hx1, hy1, e1⟩ := h1
  obtain ⟨x2, y2, hx2, hy2, e2⟩ := h2
  have hw : 0 < w := by omega
  have hh : 0 < h := by omega
  obtain ⟨lo', hi', m1, m2, -, -, ⟨x3, y3, hx3, hy3, e3⟩, ⟨x4, y4, hx4, hy4, e4⟩, m3⟩ :=
    C187_extremes_partial s hw hh (by simp)
  have q1 : lo' = .num lo := by
    have a := (m3 x1 y1 hx1 hy1 (by simp)).1
    rw [e1, ← e3] at a
    have a' : g x3 y3 ≤ lo := a
    rw [← e3, le_antisymm a' (hr x3 y3 hx3 hy3).1]
  have q2 : hi' = .num hi := by
    have a := (m3 x2 y2 hx2 hy2 (by simp)).2
    rw [e2, ← e4] at a
    have a' : hi ≤ g x4 y4 := a
    rw [← e4, le_antisymm (hr x4 y4 hx4 hy4).2 a']
  subst q1 q2
  obtain ⟨out, eo, so⟩ := normalize_shows s hw hh m1 m2
  have hd : (Dbl.num hi).sub (.num lo) = .pinf := by
    show Dbl.rnd (hi + -lo) = _
    rw [← sub_eq_add_neg, Dbl.rnd, if_pos hov]
  have hz : (Dbl.num lo).sub (.num lo) = .num 0 := by
    show Dbl.rnd (lo + -lo) = _
    rw [add_neg_cancel, rnd_of_lt (by rw [dbl_zero, abs_zero]; positivity), dbl_zero]
  refine ⟨out, eo, fun x y hx hy => ⟨fun e => ?_, fun e => ?_⟩⟩
  · rw [so.px x y hx hy]
    simp only [e, hd, Dbl.div]
  · rw [so.px x y hx hy]
    simp only [e, hd, hz, Dbl.div]

-- the range is met: -2 ^ 1023 and 2 ^ 1023 are values of a `double`, their difference is not
example : Rep 53 ((2 : ℝ) ^ 1023) ∧ 2 ^ 1024 ≤ dbl ((2 : ℝ) ^ 1023 - -2 ^ 1023) := by
  refine ⟨⟨1, 1023, by norm_num, by norm_num⟩, ?_⟩
  have e : ((2 : ℝ) ^ 1023 - -2 ^ 1023) = 2 ^ 1024 := by
    rw [sub_neg_eq_add, ← two_mul, ← pow_succ']
  rw [e, show dbl ((2 : ℝ) ^ 1024) = 2 ^ 1024 from fl_of_rep (by norm_num) ⟨1, 1024, by norm_num, by norm_num⟩]

/-! ## C189

Full statement: `count` and `replace` find the pixels that hold the given value, and `im2uint8` gives a byte for every
pixel. Missing: NaN, which is never found, and pixels outside the bytes. -/

open Classical in
/-- `count` of a value other than NaN is the number of places that hold it. `replace` of such a value, under every
schedule, changes these places and no others: NaN elsewhere stays. -/
theorem C189_find_partial {im : Image Dbl} {w h : Nat} {f : Nat → Nat → Dbl} (s : im.Shows w h f) (t new : Dbl)
    (ht : t ≠ .nan) (order : List Nat) (ho : order.Perm (List.range (w * h))) :
    Sp.count im t = ((iterYX w h).countP fun p => f p.1 p.2 = t) ∧
      ∃ out, Sp.replaceOrd order im t new = .ok out ∧
        out.Shows w h fun x y => if f x y = t then new else f x y := by
  constructor
  · rw [Sp.count, s.data_eq, List.countP_map]
    congr 1
    funext p
    simp [eq_iff, ht]
  · refine ⟨_, Sp.replaceOrd_ok im t new order (by rw [s.len]; exact ho), (map_shows' s _).congr fun x y _ _ => ?_⟩
    by_cases e : f x y = t
    · rw [if_pos (eq_iff.mpr ⟨e, ht⟩), if_pos e]
    · rw [if_neg (fun h => e (eq_iff.mp h).1), if_neg e]

-- +∞ occurs once in the row 5, NaN, +∞, -1
example : Sp.count (picture 4 1 oddRow) .pinf = 1 := by
  classical
  rw [(C189_find_partial (picture_shows 4 1 oddRow) .pinf (.num 0) (by simp) _ (.refl _)).1]
  simp [iterYX, oddRow, List.range_succ, List.countP_cons]

/-- NaN is not found: `count` is 0 however often it occurs, and `replace` returns the picture as it is. -/
theorem C189_find_violation (im : Image Dbl) (new : Dbl) (order : List Nat)
    (ho : order.Perm (List.range im.data.length)) :
    Sp.count im .nan = 0 ∧ Sp.replaceOrd order im .nan new = .ok im := by
  classical
  have hne : ∀ a : Dbl, ¬ a.eq .nan := fun a h => (eq_iff.mp h).2 rfl
  constructor
  · rw [Sp.count, List.countP_eq_zero]
    intro a _
    simpa using hne a
  · rw [Sp.replaceOrd_ok im _ new order ho]
    congr 1
    have : (fun a : Dbl => if a.eq .nan then new else a) = id := by
      funext a; rw [if_neg (hne a)]; rfl
    rw [this, List.map_id]

-- a picture that holds NaN
example : Sp.count (picture 2 1 fun _ _ => Dbl.nan) .nan = 0 :=
  (C189_find_violation (picture 2 1 fun _ _ => Dbl.nan) (.num 0) _ (.refl _)).1

/-- `im2uint8`: a picture of numbers above -1 and below 256 gives bytes, the numbers without their fractions. -/
theorem C189_bytes_partial {im : Image Dbl} {w h : Nat} {g : Nat → Nat → ℝ} (s : im.Shows w h fun x y => .num (g x y))
    (hw : 0 < w) (hh : 0 < h) (hg : ∀ x y, x < w → y < h → -1 < g x y ∧ g x y < 256) :
    ∃ out, Sp.im2uint8Gray im = .ok out ∧ out.Shows w h fun x y => BitVec.ofNat 8 ⌊g x y⌋₊ := by
  have h0 : 0 < im.size.prod := by rw [s.size]; simpa using Nat.mul_pos hw hh
  refine ⟨_, Color.convertAll_ok (fun v => match v with | .num r => BitVec.ofNat 8 ⌊r⌋₊ | _ => 0) s.wf h0 ?_,
    map_shows' s _⟩
  intro v hv
  obtain ⟨x, y, hx, hy, rfl⟩ := (mem_data s v).mp hv
  exact if_pos (hg x y hx hy)

example := C189_bytes_partial (picture_shows 3 2 fun x y => Dbl.num ((x + y : Nat) : ℝ)) (by decide) (by decide)
  (fun x y hx hy => ⟨lt_of_lt_of_le (by norm_num) (Nat.cast_nonneg _), by
    have : x + y < 256 := by omega
    exact_mod_cast this⟩)

/-- One pixel that is NaN, infinite, or a number outside these bounds: the conversion is undefined. -/
theorem C189_bytes_violation {im : Image Dbl} {w h : Nat} {f : Nat → Nat → Dbl} (s : im.Shows w h f) {a b : Nat}
    (ha : a < w) (hb : b < h) (hv : ∀ r, f a b = .num r → r ≤ -1 ∨ 256 ≤ r) : Sp.im2uint8Gray im = .ub := by
  have key : ∀ l : List Dbl, f a b ∈ l → l.mapM Sp.toU8 = .ub := by
    intro l
    induction l with
    | nil => simp
    | cons v l ih =>
      intro hm
      have hub : ∀ v : Dbl, (∃ u, Sp.toU8 v = .ok u) ∨ Sp.toU8 v = .ub := by
        intro v
        cases v with
        | num r => exact Color.toU8_cases r
        | _ => exact .inr rfl
      rw [List.mapM_cons]
      rcases hub v with ⟨u, e⟩ | e
      · rw [e, Res.ok_bind]
        rcases List.mem_cons.mp hm with rfl | hm
        · exfalso
          cases hf : f a b with
          | num r =>
            rw [hf] at e
            have : ¬ (-1 < r ∧ r < 256) := by
              rcases hv r hf with h | h
              · exact fun c => absurd c.1 (not_lt.mpr h)
              · exact fun c => absurd c.2 (not_lt.mpr h)
            simp only [Sp.toU8, Color.toU8, if_neg this] at e
            cases e
          | pinf => rw [hf] at e; cases e
          | ninf => rw [hf] at e; cases e
          | nan => rw [hf] at e; cases e
        · rw [ih hm]; rfl
      · rw [e]; rfl
  rw [Sp.im2uint8Gray, Color.convertAll, key _ ((mem_data s _).mpr ⟨a, b, ha, hb, rfl⟩)]
  rfl

-- the row 5, NaN, +∞, -1, and a picture with one pixel 256
example : Sp.im2uint8Gray (picture 4 1 oddRow) = .ub :=
  C189_bytes_violation (picture_shows 4 1 oddRow) (a := 1) (b := 0) (by decide) (by decide) (by simp [oddRow])
example : Sp.im2uint8Gray (picture 2 2 fun _ _ => .num 256) = .ub :=
  C189_bytes_violation (picture_shows 2 2 fun _ _ => Dbl.num 256) (a := 0) (b := 0) (by decide) (by decide)
    (fun r h => .inr (by injection h with h; exact h.le))

end TinyDIP.Props
