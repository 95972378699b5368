import Verif.Model.Geometry
import Verif.Lemmas.ImageIter

namespace TinyDIP

theorem wadd_of_lt {a b : Nat} (h : a + b < 2 ^ 64) : wadd a b = a + b := Nat.mod_eq_of_lt h
theorem wmul_of_lt {a b : Nat} (h : a * b < 2 ^ 64) : wmul a b = a * b := Nat.mod_eq_of_lt h

theorem wsub_of_le {a b : Nat} (h : b ≤ a) (ha : a < 2 ^ 64) : wsub a b = a - b := by
  have hb : b % W = b := Nat.mod_eq_of_lt (by unfold W; omega)
  unfold wsub
  rw [hb]
  unfold W
  omega

theorem wsub_of_gt {a b : Nat} (h : a < b) (hb : b < 2 ^ 64) : wsub a b = a + 2 ^ 64 - b := by
  have hb' : b % W = b := Nat.mod_eq_of_lt (by unfold W; omega)
  unfold wsub
  rw [hb']
  unfold W
  omega

variable {α : Type}

theorem copyAt_ok {src out : Image α} {sw sh w h rx ry wx wy : Nat} {fs f : Nat → Nat → α}
    (hs : src.Shows sw sh fs) (ho : out.Shows w h f) (h1 : rx < sw) (h2 : ry < sh)
    (h3 : wx < w) (h4 : wy < h) :
    ∃ out', copyAt src out rx ry wx wy = .ok out' ∧ out'.Shows w h (updPx f wx wy (fs rx ry)) := by
  obtain ⟨o, e, s⟩ := ho.set2 h3 h4 (fs rx ry)
  exact ⟨o, by simp only [copyAt, hs.px rx ry h1 h2, Res.ok_bind, e], s⟩

theorem copyAtU_ok {src out : Image α} {sw sh w h rx ry wx wy : Nat} {fs f : Nat → Nat → α}
    (hs : src.Shows sw sh fs) (ho : out.Shows w h f) (h1 : rx < sw) (h2 : ry < sh)
    (h3 : wx < w) (h4 : wy < h) :
    ∃ out', copyAtU src out rx ry wx wy = .ok out' ∧ out'.Shows w h (updPx f wx wy (fs rx ry)) := by
  obtain ⟨o, e, s⟩ := ho.set2u h3 h4 (fs rx ry)
  exact ⟨o, by simp only [copyAtU, hs.at2u h1 h2, Res.ok_bind, e], s⟩

/-- A pixel loop whose body writes one known pixel per iteration. -/
theorem pixFor_write {w h : Nat} (order : List (Nat × Nat)) (wx wy : Nat → Nat → Nat)
    (g : Nat → Nat → α) (body : Image α → Nat → Nat → Res (Image α)) {out : Image α}
    {f : Nat → Nat → α} (ho : out.Shows w h f)
    (hstep : ∀ x y, (x, y) ∈ order → ∀ im f, im.Shows w h f →
      ∃ im', body im x y = .ok im' ∧
        im'.Shows w h (updPx f (wx x y) (wy x y) (g (wx x y) (wy x y))))
    (R : Nat → Nat → Prop) [∀ a b, Decidable (R a b)]
    (hR : ∀ a b, a < w → b < h → (R a b ↔ ∃ x y, (x, y) ∈ order ∧ wx x y = a ∧ wy x y = b)) :
    ∃ out', pixFor order body out = .ok out' ∧
      out'.Shows w h (fun a b => if R a b then g a b else f a b) := by
  obtain ⟨o, e, s⟩ := loop_write (w := w) (h := h) (fun p : Nat × Nat => (wx p.1 p.2, wy p.1 p.2)) g
    (fun s p => body s p.1 p.2) order (fun p hp im f hs => hstep p.1 p.2 hp im f hs) out f ho
  refine ⟨o, e, s.congr fun a b ha hb => ?_⟩
  have : (∃ p ∈ order, (wx p.1 p.2, wy p.1 p.2) = (a, b)) ↔ R a b := by
    rw [hR a b ha hb]
    constructor
    · rintro ⟨⟨x, y⟩, hp, he⟩
      simp at he; exact ⟨x, y, hp, he.1, he.2⟩
    · rintro ⟨x, y, hp, h1, h2⟩
      exact ⟨(x, y), hp, by simp [h1, h2]⟩
  by_cases hr : R a b
  · rw [if_pos hr, if_pos (this.mpr hr)]
  · rw [if_neg hr, if_neg (fun hc => hr (this.mp hc))]

/-- A pixel loop that covers the whole output. -/
theorem pixFor_fill {w h : Nat} (order : List (Nat × Nat)) (wx wy : Nat → Nat → Nat)
    (g : Nat → Nat → α) (body : Image α → Nat → Nat → Res (Image α)) {out : Image α}
    {f : Nat → Nat → α} (ho : out.Shows w h f)
    (hstep : ∀ x y, (x, y) ∈ order → ∀ im f, im.Shows w h f →
      ∃ im', body im x y = .ok im' ∧
        im'.Shows w h (updPx f (wx x y) (wy x y) (g (wx x y) (wy x y))))
    (hcov : ∀ a b, a < w → b < h → ∃ x y, (x, y) ∈ order ∧ wx x y = a ∧ wy x y = b) :
    ∃ out', pixFor order body out = .ok out' ∧ out'.Shows w h g := by
  obtain ⟨o, e, s⟩ := pixFor_write order wx wy g body ho hstep (fun _ _ => True)
    (fun a b ha hb => by simp [hcov a b ha hb])
  exact ⟨o, e, by simpa using s⟩

/-- `order` runs through exactly the iterations of a `w × h` double loop. -/
def Covers (order : List (Nat × Nat)) (w h : Nat) : Prop :=
  ∀ x y, (x, y) ∈ order ↔ x < w ∧ y < h

theorem covers_iterYX (w h : Nat) : Covers (iterYX w h) w h := fun _ _ => mem_iterYX

theorem covers_perm {order : List (Nat × Nat)} {w h : Nat} (hp : order.Perm (iterYX w h)) :
    Covers order w h := fun x y => by rw [hp.mem_iff]; exact mem_iterYX

/-! ### transpose, flips, quarter turn -/

theorem transposeOrd_shows (z : α) {im : Image α} {w h : Nat} {f : Nat → Nat → α}
    (s : im.Shows w h f) {order : List (Nat × Nat)} (ho : Covers order w h) :
    ∃ out, transposeOrd z order im = .ok out ∧ out.Shows h w (fun x y => f y x) := by
  rw [transposeOrd, if_neg (by simp [s.dim]), s.width, s.height]
  refine pixFor_fill order (fun _ y => y) (fun x _ => x) (fun x y => f y x) _
    (ofSizes_shows z s.h_lt s.w_lt (by rw [Nat.mul_comm]; exact s.fits)) ?_ ?_
  · intro x y hp im f' hs
    obtain ⟨hx, hy⟩ := (ho x y).mp hp
    exact copyAt_ok s hs hx hy hy hx
  · intro a b ha hb
    exact ⟨b, a, (ho b a).mpr ⟨hb, ha⟩, rfl, rfl⟩

theorem wsub_wsub {n x : Nat} (hx : x < n) (hn : n < 2 ^ 64) : wsub (wsub n x) 1 = n - 1 - x := by
  rw [wsub_of_le (by omega) hn, wsub_of_le (by omega) (by omega)]; omega

theorem flipHorizontalOrd_shows {im : Image α} {w h : Nat} {f : Nat → Nat → α}
    (s : im.Shows w h f) {order : List (Nat × Nat)} (ho : Covers order w h) :
    ∃ out, flipHorizontalOrd order im = .ok out ∧ out.Shows w h (fun x y => f (w - 1 - x) y) := by
  rw [flipHorizontalOrd, if_neg (by simp [s.dim]), s.width]
  refine pixFor_fill order (fun x _ => w - 1 - x) (fun _ y => y) (fun x y => f (w - 1 - x) y) _
    s ?_ ?_
  · intro x y hp im f' hs
    obtain ⟨hx, hy⟩ := (ho x y).mp hp
    rw [wsub_wsub hx s.w_lt]
    have e : w - 1 - (w - 1 - x) = x := by omega
    rw [e]
    exact copyAtU_ok s hs hx hy (by omega) hy
  · intro a b ha hb
    exact ⟨w - 1 - a, b, (ho _ _).mpr ⟨by omega, hb⟩, by omega, rfl⟩

theorem flipVerticalOrd_shows {im : Image α} {w h : Nat} {f : Nat → Nat → α}
    (s : im.Shows w h f) {order : List (Nat × Nat)} (ho : Covers order w h) :
    ∃ out, flipVerticalOrd order im = .ok out ∧ out.Shows w h (fun x y => f x (h - 1 - y)) := by
  rw [flipVerticalOrd, if_neg (by simp [s.dim]), s.height]
  refine pixFor_fill order (fun x _ => x) (fun _ y => h - 1 - y) (fun x y => f x (h - 1 - y)) _
    s ?_ ?_
  · intro x y hp im f' hs
    obtain ⟨hx, hy⟩ := (ho x y).mp hp
    rw [wsub_wsub hy s.h_lt]
    have e : h - 1 - (h - 1 - y) = y := by omega
    rw [e]
    exact copyAtU_ok s hs hx hy hx (by omega)
  · intro a b ha hb
    exact ⟨a, h - 1 - b, (ho _ _).mpr ⟨ha, by omega⟩, rfl, by omega⟩

theorem flipHVOrd_shows {im : Image α} {w h : Nat} {f : Nat → Nat → α}
    (s : im.Shows w h f) {order : List (Nat × Nat)} (ho : Covers order w h) :
    ∃ out, flipHVOrd order im = .ok out ∧
      out.Shows w h (fun x y => f (w - 1 - x) (h - 1 - y)) := by
  rw [flipHVOrd, if_neg (by simp [s.dim]), s.height, s.width]
  refine pixFor_fill order (fun x _ => w - 1 - x) (fun _ y => h - 1 - y)
    (fun x y => f (w - 1 - x) (h - 1 - y)) _ s ?_ ?_
  · intro x y hp im f' hs
    obtain ⟨hx, hy⟩ := (ho x y).mp hp
    rw [wsub_wsub hy s.h_lt, wsub_wsub hx s.w_lt]
    have e : h - 1 - (h - 1 - y) = y := by omega
    have e' : w - 1 - (w - 1 - x) = x := by omega
    rw [e, e']
    exact copyAtU_ok s hs hx hy (by omega) (by omega)
  · intro a b ha hb
    exact ⟨w - 1 - a, h - 1 - b, (ho _ _).mpr ⟨by omega, by omega⟩, by omega, by omega⟩

theorem flipHorizontal_shows {im : Image α} {w h : Nat} {f : Nat → Nat → α}
    (s : im.Shows w h f) :
    ∃ out, flipHorizontal im = .ok out ∧ out.Shows w h (fun x y => f (w - 1 - x) y) := by
  rw [flipHorizontal, s.width, s.height]; exact flipHorizontalOrd_shows s (covers_iterYX w h)

theorem flipVertical_shows {im : Image α} {w h : Nat} {f : Nat → Nat → α}
    (s : im.Shows w h f) :
    ∃ out, flipVertical im = .ok out ∧ out.Shows w h (fun x y => f x (h - 1 - y)) := by
  rw [flipVertical, s.width, s.height]; exact flipVerticalOrd_shows s (covers_iterYX w h)

theorem flipHV_shows {im : Image α} {w h : Nat} {f : Nat → Nat → α}
    (s : im.Shows w h f) :
    ∃ out, flipHV im = .ok out ∧ out.Shows w h (fun x y => f (w - 1 - x) (h - 1 - y)) := by
  rw [flipHV, s.width, s.height]; exact flipHVOrd_shows s (covers_iterYX w h)

theorem transpose_shows (z : α) {im : Image α} {w h : Nat} {f : Nat → Nat → α}
    (s : im.Shows w h f) :
    ∃ out, transpose z im = .ok out ∧ out.Shows h w (fun x y => f y x) := by
  rw [transpose, s.width, s.height]; exact transposeOrd_shows z s (covers_iterYX w h)

theorem rotate90_shows (z : α) {im : Image α} {w h : Nat} {f : Nat → Nat → α}
    (s : im.Shows w h f) :
    ∃ out, rotate90 z im = .ok out ∧ out.Shows h w (fun x y => f y (h - 1 - x)) := by
  rw [rotate90, if_neg (by simp [s.dim]), s.width, s.height]
  refine pixFor_fill _ (fun _ y => h - 1 - y) (fun x _ => x) (fun x y => f y (h - 1 - x)) _
    (ofSizes_shows z s.h_lt s.w_lt (by rw [Nat.mul_comm]; exact s.fits)) ?_ ?_
  · intro x y hp im f' hs
    obtain ⟨hx, hy⟩ := mem_iterYX.mp hp
    simp only at hx hy
    rw [wsub_wsub hy s.h_lt]
    have e : h - 1 - (h - 1 - y) = y := by omega
    rw [e]
    exact copyAt_ok s hs hx hy (by omega) hx
  · intro a b ha hb
    exact ⟨b, h - 1 - a, mem_iterYX.mpr ⟨hb, by simp only; omega⟩, by omega, rfl⟩

/-! ### subimage2 -/

theorem subimage2_size {s e n : Nat} (h1 : s ≤ e) (h2 : e < n) (hn : n < 2 ^ 64) :
    wadd (wsub e s) 1 = e - s + 1 := by
  rw [wsub_of_le h1 (by omega), wadd_of_lt (by omega)]

theorem block_fits {a b w h : Nat} (ha : a ≤ w) (hb : b ≤ h) (hf : w * h < 2 ^ 64) :
    a * b < 2 ^ 64 := Nat.lt_of_le_of_lt (Nat.mul_le_mul ha hb) hf

theorem subimage2Ord_shows (z : α) {im : Image α} {w h : Nat} {f : Nat → Nat → α}
    (s : im.Shows w h f) {sx ex sy ey : Nat} (hx : sx ≤ ex) (hx' : ex < w) (hy : sy ≤ ey)
    (hy' : ey < h) {order : List (Nat × Nat)} (ho : Covers order (ex - sx + 1) (ey - sy + 1)) :
    ∃ out, subimage2Ord z order im sx ex sy ey = .ok out ∧
      out.Shows (ex - sx + 1) (ey - sy + 1) (fun x y => f (sx + x) (sy + y)) := by
  have hw := s.w_lt
  have hh := s.h_lt
  rw [subimage2Ord, if_neg (by omega), if_neg (by omega), s.width, s.height, if_neg (by omega),
    if_neg (by omega), subimage2_size hx hx' hw, subimage2_size hy hy' hh]
  refine pixFor_fill order (fun x _ => x) (fun _ y => y) (fun x y => f (sx + x) (sy + y)) _
    (ofSizes_shows z (by omega) (by omega) (block_fits (by omega) (by omega) s.fits)) ?_ ?_
  · intro x y hp im f' hs
    obtain ⟨h1, h2⟩ := (ho x y).mp hp
    rw [wadd_of_lt (by omega), wadd_of_lt (by omega)]
    exact copyAtU_ok s hs (by omega) (by omega) h1 h2
  · intro a b ha hb
    exact ⟨a, b, (ho a b).mpr ⟨ha, hb⟩, rfl, rfl⟩

theorem subimage2_shows (z : α) {im : Image α} {w h : Nat} {f : Nat → Nat → α}
    (s : im.Shows w h f) {sx ex sy ey : Nat} (hx : sx ≤ ex) (hx' : ex < w) (hy : sy ≤ ey)
    (hy' : ey < h) :
    ∃ out, subimage2 z im sx ex sy ey = .ok out ∧
      out.Shows (ex - sx + 1) (ey - sy + 1) (fun x y => f (sx + x) (sy + y)) := by
  rw [subimage2, subimage2_size hx hx' s.w_lt, subimage2_size hy hy' s.h_lt]
  exact subimage2Ord_shows z s hx hx' hy hy' (covers_iterYX _ _)

theorem subimage2_throws (z : α) {im : Image α} {w h : Nat} {f : Nat → Nat → α}
    (s : im.Shows w h f) {sx ex sy ey : Nat}
    (hb : sx > ex ∨ sy > ey ∨ ex > w ∨ ey > h) :
    subimage2 z im sx ex sy ey = .throw .runtime := by
  rw [subimage2, subimage2Ord, s.width, s.height]
  repeat' split
  all_goals first | rfl | omega

/-! ### paste2D -/

/-- `(a, b)` lies in the `bw × bh` block at `(xl, yl)`. -/
abbrev InBlock (xl yl bw bh a b : Nat) : Prop := (xl ≤ a ∧ a < xl + bw) ∧ yl ≤ b ∧ b < yl + bh

theorem pasteLoop_shows {t out : Image α} {tw th w h xl yl : Nat} {ft f : Nat → Nat → α}
    (st : t.Shows tw th ft) (so : out.Shows w h f) (hx : xl + tw ≤ w) (hy : yl + th ≤ h) :
    ∃ out', pixFor (iterYX tw th) (fun out x y => copyAtU t out x y (wadd xl x) (wadd yl y)) out
        = .ok out' ∧
      out'.Shows w h (fun a b => if InBlock xl yl tw th a b then ft (a - xl) (b - yl) else f a b) := by
  refine pixFor_write _ (fun x _ => xl + x) (fun _ y => yl + y) (fun a b => ft (a - xl) (b - yl)) _
    so ?_ _ ?_
  · intro x y hp im f' hs
    obtain ⟨h1, h2⟩ := mem_iterYX.mp hp
    simp only at h1 h2
    have hw := so.w_lt
    have hh := so.h_lt
    rw [wadd_of_lt (by omega), wadd_of_lt (by omega), Nat.add_sub_cancel_left,
      Nat.add_sub_cancel_left]
    exact copyAtU_ok st hs h1 h2 (by omega) (by omega)
  · intro a b _ _
    constructor
    · rintro ⟨⟨h1, h2⟩, h3, h4⟩
      exact ⟨a - xl, b - yl, mem_iterYX.mpr ⟨by simp only; omega, by simp only; omega⟩, by omega,
        by omega⟩
    · rintro ⟨x, y, hp, rfl, rfl⟩
      obtain ⟨h1, h2⟩ := mem_iterYX.mp hp
      simp only at h1 h2
      omega

/-- Pasting a target that fits. -/
theorem paste2D_fit {bg t : Image α} {w h tw th : Nat} {f ft : Nat → Nat → α}
    (sb : bg.Shows w h f) (st : t.Shows tw th ft) {xl yl : Nat} (hx : xl + tw ≤ w)
    (hy : yl + th ≤ h) (d : α) :
    ∃ out, paste2D bg t xl yl d = .ok out ∧
      out.Shows w h (fun a b => if InBlock xl yl tw th a b then ft (a - xl) (b - yl) else f a b) := by
  have hw := sb.w_lt
  have hh := sb.h_lt
  rw [paste2D, if_neg (by simp [sb.dim]), if_neg (by simp [st.dim]), sb.width, sb.height, st.width,
    st.height, wadd_of_lt (by omega), wadd_of_lt (by omega)]
  simp only
  rw [if_pos (by omega)]
  exact pasteLoop_shows st sb hx hy

/-- Pasting a target that sticks out: the output grows. -/
theorem paste2D_grow {bg t : Image α} {w h tw th : Nat} {f ft : Nat → Nat → α}
    (sb : bg.Shows w h f) (st : t.Shows tw th ft) {xl yl : Nat}
    (hgrow : ¬ (xl + tw ≤ w ∧ yl + th ≤ h))
    (hx64 : xl + tw < 2 ^ 64) (hy64 : yl + th < 2 ^ 64)
    (hfits : max w (xl + tw) * max h (yl + th) < 2 ^ 64)
    (hpos : 0 < max w (xl + tw) * max h (yl + th)) (d : α) :
    ∃ out, paste2D bg t xl yl d = .ok out ∧
      out.Shows (max w (xl + tw)) (max h (yl + th))
        (fun a b => if InBlock xl yl tw th a b then ft (a - xl) (b - yl)
          else if a < w ∧ b < h then f a b else d) := by
  have hw := sb.w_lt
  have hh := sb.h_lt
  rw [paste2D, if_neg (by simp [sb.dim]), if_neg (by simp [st.dim]), sb.width, sb.height, st.width,
    st.height, wadd_of_lt (by omega), wadd_of_lt (by omega)]
  simp only
  rw [if_neg (by omega)]
  have ex : (if w ≥ tw + xl then w else tw + xl) = max w (xl + tw) := by
    split <;> omega
  have ey : (if h ≥ th + yl then h else th + yl) = max h (yl + th) := by
    split <;> omega
  rw [ex, ey, wmul_of_lt hfits]
  have e0 : Image.ofData (List.replicate (max w (xl + tw) * max h (yl + th)) d)
      [max w (xl + tw), max h (yl + th)]
      = .ok (Image.ofSizes d [max w (xl + tw), max h (yl + th)]) := by
    rw [Image.ofData, if_neg, if_neg]
    · simp [Image.ofSizes, prodW_eq, W, Nat.mod_eq_of_lt hfits]
    · simp [prodW_eq, W, Nat.mod_eq_of_lt hfits]
    · simp only [List.isEmpty_iff, List.replicate_eq_nil_iff]; omega
  rw [e0, Res.ok_bind]
  have s0 := ofSizes_shows d (w := max w (xl + tw)) (h := max h (yl + th)) (by omega) (by omega) hfits
  obtain ⟨o1, e1, s1⟩ : ∃ out', pixFor (iterYX w h)
      (fun out x y => copyAtU bg out x y x y) (Image.ofSizes d [max w (xl + tw), max h (yl + th)])
      = .ok out' ∧ out'.Shows (max w (xl + tw)) (max h (yl + th))
        (fun a b => if a < w ∧ b < h then f a b else d) := by
    refine pixFor_write _ (fun x _ => x) (fun _ y => y) f _ s0 ?_ _ ?_
    · intro x y hp im f' hs
      obtain ⟨h1, h2⟩ := mem_iterYX.mp hp
      simp only at h1 h2
      exact copyAtU_ok sb hs h1 h2 (by omega) (by omega)
    · intro a b _ _
      constructor
      · rintro ⟨h1, h2⟩; exact ⟨a, b, mem_iterYX.mpr ⟨h1, h2⟩, rfl, rfl⟩
      · rintro ⟨x, y, hp, rfl, rfl⟩; exact mem_iterYX.mp hp
  rw [e1, Res.ok_bind]
  exact pasteLoop_shows st s1 (by omega) (by omega)

/-! ### constant padding -/

theorem setAllValue_shows {im : Image α} {w h : Nat} {f : Nat → Nat → α} (s : im.Shows w h f)
    (v : α) : (im.setAllValue v).Shows w h (fun _ _ => v) := by
  refine Image.Shows.of_data s.w_lt s.h_lt s.fits s.size (by simp [Image.setAllValue, s.len]) ?_
  intro x y hx hy
  have := s.idx_lt hx hy
  simp only [Image.setAllValue, List.map_const', List.getElem?_replicate]
  rw [if_pos (by simpa [rowMajor2] using this)]

theorem constantPadding_shows (z : α) {im : Image α} {w h : Nat} {f : Nat → Nat → α}
    (s : im.Shows w h f) {we he : Nat} (hx : w + 2 * we < 2 ^ 64) (hy : h + 2 * he < 2 ^ 64)
    (hf : (w + 2 * we) * (h + 2 * he) < 2 ^ 64) (d : α) :
    ∃ out, constantPadding z im we he d = .ok out ∧
      out.Shows (w + 2 * we) (h + 2 * he)
        (fun a b => if InBlock we he w h a b then f (a - we) (b - he) else d) := by
  rw [constantPadding, if_neg (by simp [s.dim]), s.width, s.height]
  simp only
  rw [wmul_of_lt (by omega), wmul_of_lt (by omega), wadd_of_lt hx, wadd_of_lt hy]
  exact paste2D_fit (setAllValue_shows (ofSizes_shows z hx hy hf) d) s (by omega) (by omega) d

end TinyDIP
