import Verif.Lemmas.Samples
import Verif.Lemmas.Draw
import Verif.Props.Core

/-!
# Properties C45–C47: drawing
-/

namespace TinyDIP.Props

open TinyDIP Image

variable {α : Type}

/-! ## C45 draw_point

Full statement: exactly the disc clipped to the image, wherever the point lies. The code computes
`point - radius` in `size_t`, so nothing is drawn near the left and the top border: see the
violation. -/

/-- The point is at least the radius away from the left and the top border (the disc may leave the
image at the right and the bottom, and the point may lie outside): whatever the order in which the
iterations run, exactly the pixels of the image at distance less than the radius get the value. -/
theorem C45_partial (im : Image α) (w h : Nat) (f : Nat → Nat → α) (s : im.Shows w h f)
    (px py r : Nat) (v : α) (hx : r ≤ px) (hy : r ≤ py) (hx' : px + r < 2 ^ 63)
    (hy' : py + r < 2 ^ 63) (sched : List (Nat × Nat) → List (Nat × Nat))
    (hs : ∀ l, (sched l).Perm l) :
    ∃ out, drawPointSched sched im px py v r = .ok out ∧
      out.Shows w h fun x y => if InDisc px py r x y then v else f x y := by
  unfold drawPointSched drawPointIters
  rw [upToIncl_ok hx (by omega), upToIncl_ok hy (by omega)]
  simp only [Res.ok_bind, s.width, s.height]
  obtain ⟨out, e, so⟩ := loop_drawPoint s px py r v (sched
    ((List.range' (py - r) (2 * r + 1)).flatMap fun y =>
      (List.range' (px - r) (2 * r + 1)).map fun x => (x, y)))
  refine ⟨out, e, so.congr ?_⟩
  intro x y _ _
  by_cases hd : InDisc px py r x y
  · rw [if_pos hd, if_pos]
    refine ⟨(hs _).mem_iff.2 ?_, hd⟩
    have := inDisc_range hd
    simp only [List.mem_flatMap, List.mem_map, List.mem_range'_1, Prod.mk.injEq]
    exact ⟨y, by omega, x, by omega, rfl, rfl⟩
  · simp [hd]

example := C45_partial _ 9 8 _ (picture_shows 9 8 fun x y => x * y) 8 5 2 77 (by decide) (by decide) (by decide) (by decide)
  List.reverse (fun l => l.reverse_perm)

/-- Several points, each at least the radius away from the left and the top border: exactly the
pixels of the image in one of the discs get the value. -/
theorem C45_points_partial (im : Image α) (w h : Nat) (f : Nat → Nat → α) (s : im.Shows w h f)
    (points : List (Nat × Nat)) (r : Nat) (v : α)
    (hp : ∀ p ∈ points, r ≤ p.1 ∧ r ≤ p.2 ∧ p.1 + r < 2 ^ 63 ∧ p.2 + r < 2 ^ 63) :
    ∃ out g, drawPoints im points v r = .ok out ∧ out.Shows w h g ∧
      ∀ x y, x < w → y < h → ((∃ p ∈ points, InDisc p.1 p.2 r x y) → g x y = v) ∧
        ((¬ ∃ p ∈ points, InDisc p.1 p.2 r x y) → g x y = f x y) := by
  induction points generalizing im f with
  | nil => exact ⟨im, f, rfl, s, by simp⟩
  | cons p ps ih =>
    obtain ⟨h1, h2, h3, h4⟩ := hp p (by simp)
    obtain ⟨o, e, so⟩ := C45_partial im w h f s p.1 p.2 r v h1 h2 h3 h4 id (fun l => .refl l)
    obtain ⟨out, g, e', so', hg⟩ := ih o _ so (fun q hq => hp q (by simp [hq]))
    refine ⟨out, g, ?_, so', ?_⟩
    · unfold drawPoints drawPoint at *
      rw [loop, e]; exact e'
    · intro x y hx hy
      obtain ⟨g1, g2⟩ := hg x y hx hy
      constructor
      · rintro ⟨q, hq, hd⟩
        by_cases hex : ∃ q ∈ ps, InDisc q.1 q.2 r x y
        · exact g1 hex
        · rw [g2 hex]
          rcases List.mem_cons.1 hq with rfl | hq
          · simp [hd]
          · exact absurd ⟨q, hq, hd⟩ hex
      · intro hno
        rw [g2 (fun ⟨q, hq, hd⟩ => hno ⟨q, by simp [hq], hd⟩),
          if_neg (fun hd => hno ⟨p, by simp, hd⟩)]

example := C45_points_partial _ 9 8 _ (picture_shows 9 8 fun x y => x * y) [(8, 5), (2, 3), (20, 2)] 2 77 (by decide)

/-- Only pixels of the disc ever change, and only to the value, also near the borders. -/
theorem C45_only_disc_partial (im : Image α) (w h : Nat) (f : Nat → Nat → α) (s : im.Shows w h f)
    (px py r : Nat) (v : α) (hx' : px + r < 2 ^ 63) (hy' : py + r < 2 ^ 63)
    (sched : List (Nat × Nat) → List (Nat × Nat)) :
    ∃ out g, drawPointSched sched im px py v r = .ok out ∧ out.Shows w h g ∧
      ∀ x y, x < w → y < h → g x y = f x y ∨ (InDisc px py r x y ∧ g x y = v) := by
  unfold drawPointSched drawPointIters
  obtain ⟨l1, e1⟩ := upToIncl_small hx'
  obtain ⟨l2, e2⟩ := upToIncl_small hy'
  rw [e1, e2]
  simp only [Res.ok_bind, s.width, s.height]
  obtain ⟨out, e, so⟩ := loop_drawPoint s px py r v (sched (l2.flatMap fun y => l1.map fun x => (x, y)))
  refine ⟨out, _, e, so, ?_⟩
  intro x y _ _
  by_cases hd : InDisc px py r x y
  · simp only [hd, and_true]
    split
    · exact .inr ⟨trivial, rfl⟩
    · exact .inl rfl
  · simp [hd]

example := C45_only_disc_partial _ 3 2 _ sample2_shows 2 1 5 99 (by decide) (by decide) List.reverse

/-- For every image and value: a point closer than the radius to the left or the top border draws
nothing, although its own pixel is inside the disc and may lie inside the image. -/
theorem C45_violation (im : Image α)
    (px py r : Nat) (v : α) (hlt : px < r ∨ py < r) (hx' : px + r < 2 ^ 63) (hy' : py + r < 2 ^ 63) :
    drawPoint im px py v r = .ok im ∧ InDisc px py r px py := by
  constructor
  · unfold drawPoint drawPointSched drawPointIters
    rcases hlt with hlt | hlt
    · obtain ⟨l2, e2⟩ := upToIncl_small hy'
      rw [upToIncl_wrap hlt hx', e2]
      simp only [Res.ok_bind, List.map_nil, id]
      rw [show (l2.flatMap fun _ => ([] : List (Nat × Nat))) = [] by simp]
      rfl
    · obtain ⟨l1, e1⟩ := upToIncl_small hx'
      rw [upToIncl_wrap hlt hy', e1]
      simp only [Res.ok_bind, List.flatMap_nil, id]
      rfl
  · unfold InDisc
    have : 0 < (r : Int) := by omega
    have := mul_pos this this
    simp only [sub_self, ne_eq, OfNat.ofNat_ne_zero, not_false_eq_true, zero_pow, add_zero]
    nlinarith

/-- The hypotheses are met: a 5 × 5 image, and a disc of radius 2 around (2, 2) contains (1, 2) but
not (1, 0); the point (1, 2) is too close to the left border. -/
example : (Image.ofSizes 0 [5, 5] : Image Nat).Shows 5 5 (fun _ _ => 0) ∧ InDisc 2 2 2 1 2 ∧
    ¬ InDisc 2 2 2 1 0 ∧ (2 ≤ 2 ∧ 2 + 2 < 2 ^ 63) ∧ (1 < 2 ∨ 2 < 2) :=
  ⟨ofSizes_shows 0 (by omega) (by omega) (by omega), by decide, by decide, by omega, by omega⟩

/-! ## C46 draw_line -/

/-- Every image and endpoints (inside or outside the image, coordinates below 2^61): the call ends
after `max |dx| |dy| + 1` iterations and returns an image of the same sizes; the pixels with the
draw value are those on a path that starts at the first endpoint, ends at the second, moves to a
neighbour each time and stays within half a pixel of the line; all other pixels are unchanged. -/
theorem C46_draw_line (im : Image α) (w h : Nat) (f : Nat → Nat → α) (s : im.Shows w h f)
    (p1 p2 : Nat × Nat) (colour : α) (hp1 : p1.1 < 2 ^ 61 ∧ p1.2 < 2 ^ 61)
    (hp2 : p2.1 < 2 ^ 61 ∧ p2.2 < 2 ^ 61) :
    ∃ out, ∃ path : List (Int × Int),
      (∀ fuel, max ((p2.1 : Int) - p1.1).natAbs ((p2.2 : Int) - p1.2).natAbs + 1 ≤ fuel →
        drawLine im p1 p2 colour fuel = some (.ok out)) ∧
      path.head? = some ((p1.1 : Int), (p1.2 : Int)) ∧
      path.getLast? = some ((p2.1 : Int), (p2.2 : Int)) ∧
      path.length = max ((p2.1 : Int) - p1.1).natAbs ((p2.2 : Int) - p1.2).natAbs + 1 ∧
      List.IsChain Adjacent path ∧
      (∀ q ∈ path, NearLine ((p1.1 : Int), (p1.2 : Int)) ((p2.1 : Int), (p2.2 : Int)) q) ∧
      out.Shows w h fun X Y => if ((X : Int), (Y : Int)) ∈ path then colour else f X Y := by
  obtain ⟨x1, y1⟩ := p1
  obtain ⟨x2, y2⟩ := p2
  simp only at *
  obtain ⟨dx, hdx⟩ : ∃ d : Nat, d = ((x2 : Int) - x1).natAbs := ⟨_, rfl⟩
  obtain ⟨dn, hdn⟩ : ∃ d : Nat, d = ((y2 : Int) - y1).natAbs := ⟨_, rfl⟩
  obtain ⟨sx, hsx⟩ : ∃ t : Int, t = if (x1 : Int) < x2 then 1 else -1 := ⟨_, rfl⟩
  obtain ⟨sy, hsy⟩ : ∃ t : Int, t = if (y1 : Int) < y2 then 1 else -1 := ⟨_, rfl⟩
  have hsx' : sx = 1 ∨ sx = -1 := by rw [hsx]; split <;> simp
  have hsy' : sy = 1 ∨ sy = -1 := by rw [hsy]; split <;> simp
  have ex : (x2 : Int) - x1 = sx * dx := by
    rw [hsx]; split <;> omega
  have ey : (y2 : Int) - y1 = sy * dn := by
    rw [hsy]; split <;> omega
  have hstart : lineStart x1 y1 x2 y2 = .ok ((dx : Int), -(dn : Int), (dx : Int) - dn) := by
    unfold lineStart
    rw [chkLong_ok (by omega) (by omega)]
    simp only [Res.ok_bind]
    rw [← hdx, chkLong_ok (by omega) (by omega)]
    simp only [Res.ok_bind]
    rw [chkLong_ok (by omega) (by omega)]
    simp only [Res.ok_bind]
    rw [← hdn, chkLong_ok (by omega) (by omega)]
    simp only [Res.ok_bind]
    rw [chkLong_ok (by omega) (by omega)]
    rfl
  have hinv : LineInv dx dn 0 0 (max dx dn) :=
    ⟨le_refl _, le_refl _, by omega, by omega, by simp, by simp, by omega, by omega⟩
  have key := line_loop (w := w) (h := h) (x1 := x1) (y1 := y1) (x2 := x2) (y2 := y2) (dx := dx)
    (dn := dn) (sx := sx) (sy := sy) colour (by omega) (by omega) (by omega) (by omega) (by omega)
    (by omega) hsx' hsy' ex ey (max dx dn) 0 0 im f hinv s
  have hrun : ∀ fuel, drawLine im (x1, y1) (x2, y2) colour fuel =
      lineLoop colour x2 y2 dx (-(dn : Int)) sx sy fuel x1 y1 ((dx : Int) - dn) im := by
    intro fuel
    unfold drawLine
    rw [if_neg (by simp [s.dim])]
    simp only [toLong_of_lt (show x1 < 2 ^ 63 by omega), toLong_of_lt (show y1 < 2 ^ 63 by omega),
      toLong_of_lt (show x2 < 2 ^ 63 by omega), toLong_of_lt (show y2 < 2 ^ 63 by omega), hstart]
    rw [← hsx, ← hsy]
  simp only [mul_zero, add_zero, sub_zero, zero_add] at key
  obtain ⟨out, path, q1, q2, q3, q4, q5, q6, q7⟩ := key (max dx dn + 1) (Nat.le_refl _)
  refine ⟨out, path, ?_, q2, q3, by rw [q4, hdx, hdn], q5, ?_, q7⟩
  · intro fuel hf
    rw [← hdx, ← hdn] at hf
    obtain ⟨out2, path2, r1, _⟩ := key fuel hf
    rw [hrun, r1]
    have mono : ∀ (n m : Nat) (x y e : Int) (i : Image α) (r : Res (Image α)), n ≤ m →
        lineLoop colour x2 y2 dx (-(dn : Int)) sx sy n x y e i = some r →
        lineLoop colour x2 y2 dx (-(dn : Int)) sx sy m x y e i = some r := by
      intro n
      induction n with
      | zero => intro m x y e i r _ hh; simp [lineLoop] at hh
      | succ n ih =>
        intro m x y e i r hm hh
        obtain ⟨m, rfl⟩ : ∃ t, m = t + 1 := ⟨m - 1, by omega⟩
        rw [lineLoop] at hh ⊢
        cases hpl : linePlot colour i x y with
        | throw e => rw [hpl] at hh; exact hh
        | ub => rw [hpl] at hh; exact hh
        | ok o =>
          rw [hpl] at hh
          simp only at hh ⊢
          by_cases hend : x = x2 ∧ y = y2
          · rw [if_pos hend] at hh ⊢; exact hh
          · rw [if_neg hend] at hh ⊢
            cases hst : lineStep dx (-(dn : Int)) sx sy x y e with
            | throw e => rw [hst] at hh; exact hh
            | ub => rw [hst] at hh; exact hh
            | ok t =>
              rw [hst] at hh
              exact ih m _ _ _ _ r (by omega) hh
    rw [← r1]
    exact mono _ _ _ _ _ _ _ hf q1
  · intro q hq
    obtain ⟨a, b, _, _, b1, b2, rfl⟩ := q6 q hq
    unfold NearLine
    simp only [add_sub_cancel_left]
    rw [ex, ey]
    have e1 : |sx * (dx : Int)| = dx := by
      rcases hsx' with rfl | rfl <;> simp
    have e2 : |sy * (dn : Int)| = dn := by
      rcases hsy' with rfl | rfl <;> simp
    rw [e1, e2]
    have e3 : sx * (dx : Int) * (sy * b) - sy * (dn : Int) * (sx * a) =
        sx * sy * ((dx : Int) * b - dn * a) := by ring
    rw [e3]
    have e4 : |sx * sy * ((dx : Int) * b - dn * a)| = |(dx : Int) * b - dn * a| := by
      rcases hsx' with rfl | rfl <;> rcases hsy' with rfl | rfl <;> simp [abs_sub_comm]
    rw [e4]
    rcases abs_cases ((dx : Int) * b - dn * a) with ⟨e, _⟩ | ⟨e, _⟩ <;> rw [e] <;> omega

example := C46_draw_line _ 9 8 _ (picture_shows 9 8 fun x y => x * y) (1, 7) (12, 2) 77 (by decide) (by decide)

/-- Consequence in the words of the property: the call returns, both endpoints that lie in the image
have the draw value, and every pixel is unchanged or has the draw value. -/
theorem C46_endpoints (im : Image α) (w h : Nat) (f : Nat → Nat → α) (s : im.Shows w h f)
    (p1 p2 : Nat × Nat) (colour : α) (hp1 : p1.1 < 2 ^ 61 ∧ p1.2 < 2 ^ 61)
    (hp2 : p2.1 < 2 ^ 61 ∧ p2.2 < 2 ^ 61) :
    ∃ fuel out g, drawLine im p1 p2 colour fuel = some (.ok out) ∧ out.Shows w h g ∧
      (p1.1 < w → p1.2 < h → g p1.1 p1.2 = colour) ∧
      (p2.1 < w → p2.2 < h → g p2.1 p2.2 = colour) ∧
      ∀ x y, x < w → y < h → g x y = colour ∨ g x y = f x y := by
  obtain ⟨out, path, q1, q2, q3, _, _, _, q7⟩ := C46_draw_line im w h f s p1 p2 colour hp1 hp2
  refine ⟨_, out, _, q1 _ (Nat.le_refl _), q7, ?_, ?_, ?_⟩
  · intro _ _
    rw [if_pos (List.mem_of_mem_head? (by rw [q2]; rfl))]
  · intro _ _
    rw [if_pos (List.mem_of_mem_getLast? (by rw [q3]; rfl))]
  · intro x y _ _
    by_cases hm : ((x : Int), (y : Int)) ∈ path
    · left; rw [if_pos hm]
    · right; rw [if_neg hm]

example := C46_endpoints _ 9 8 _ (picture_shows 9 8 fun x y => x * y) (1, 7) (12, 2) 77 (by decide) (by decide)

/-- Images of another dimensionality are rejected. -/
theorem C46_rejects (im : Image α) (hd : im.dim ≠ 2) (p1 p2 : Nat × Nat) (c : α) (fuel : Nat) :
    drawLine im p1 p2 c fuel = some (.throw .runtime) := by
  unfold drawLine; rw [if_pos hd]

/-- The hypotheses are met: a line in a 4 × 3 image from (3, 0) to (0, 2), with its pixels. -/
example : (Image.ofSizes 0 [4, 3] : Image Nat).Shows 4 3 (fun _ _ => 0) ∧
    drawLine (Image.ofSizes 0 [4, 3]) (3, 0) (0, 2) 7 4 =
      some (.ok ⟨[4, 3], [0, 0, 0, 7, 0, 7, 7, 0, 7, 0, 0, 0]⟩) :=
  ⟨ofSizes_shows 0 (by omega) (by omega) (by omega), by decide +kernel⟩

/-! ## C47 draw_circle -/

/-- Every 2-D image, centre and radius below 2^31: the call ends after at most `r + 2` iterations;
exactly the pixels of the image on the digital circle get the value. -/
theorem C47_draw_circle (im : Image α) (w h : Nat) (f : Nat → Nat → α) (s : im.Shows w h f)
    (hw : w ≤ 2 ^ 63) (hh : h ≤ 2 ^ 63) (px py r : Nat) (v : α) (hx : px < 2 ^ 63) (hy : py < 2 ^ 63)
    (hr : r < 2 ^ 31) (fuel : Nat) (hf : r + 2 ≤ fuel) :
    ∃ out, drawCircle im px py r v fuel = some (.ok out) ∧
      out.Shows w h fun x y =>
        if OnCircle r ((x : Int) - px) ((y : Int) - py) then v else f x y := by
  unfold drawCircle
  rw [if_neg (by simp [s.dim])]
  by_cases h0 : r = 0
  · rw [if_pos h0]
    refine ⟨im, rfl, s.congr ?_⟩
    intro x y _ _
    rw [if_neg]
    subst h0
    unfold OnCircle
    omega
  · rw [if_neg h0, toLong_of_lt (by omega)]
    refine circle_loop hw hh hx hy hr v f r 0 r im ⟨by omega, Nat.le_refl _, by omega, fun _ => rfl, ?_⟩
      (by omega) (by omega) (s.congr ?_) fuel hf
    · intro j hj; omega
    · intro x y _ _
      simp

example := C47_draw_circle _ 9 8 _ (picture_shows 9 8 fun x y => x * y) (by decide) (by decide) 8 5 3 77 (by decide)
  (by decide) (by decide) 5 (by decide)

/-- The digital circle is symmetric under both reflections and the exchange of the axes (hence under
all eight symmetries of the square), and lies less than one pixel outside the ideal circle:
`r² ≤ X² + Y² < (r + 1)²`. -/
theorem C47_ring_symmetric (r : Nat) (X Y : Int) :
    (OnCircle r X Y ↔ OnCircle r (-X) Y) ∧ (OnCircle r X Y ↔ OnCircle r X (-Y)) ∧
    (OnCircle r X Y ↔ OnCircle r Y X) ∧
    (OnCircle r X Y → (r : Int) ^ 2 ≤ X ^ 2 + Y ^ 2 ∧ X ^ 2 + Y ^ 2 < ((r : Int) + 1) ^ 2) := by
  refine ⟨by simp [OnCircle], by simp [OnCircle], by simp [OnCircle, min_comm, max_comm], ?_⟩
  intro hc
  unfold OnCircle at hc
  obtain ⟨a, ha⟩ : ∃ a, a = min X.natAbs Y.natAbs := ⟨_, rfl⟩
  obtain ⟨b, hb⟩ : ∃ b, b = max X.natAbs Y.natAbs := ⟨_, rfl⟩
  rw [← ha, ← hb] at hc
  have e : X ^ 2 + Y ^ 2 = (a : Int) ^ 2 + (b : Int) ^ 2 := by
    have e1 : X ^ 2 = (X.natAbs : Int) ^ 2 := (Int.natAbs_sq X).symm
    have e2 : Y ^ 2 = (Y.natAbs : Int) ^ 2 := (Int.natAbs_sq Y).symm
    rw [e1, e2]
    rcases Nat.le_total X.natAbs Y.natAbs with hle | hle
    · rw [ha, hb, Nat.min_eq_left hle, Nat.max_eq_right hle]
    · rw [ha, hb, Nat.min_eq_right hle, Nat.max_eq_left hle, add_comm]
  rw [e]
  obtain ⟨h1, h2⟩ := hc
  zify at h1
  refine ⟨by nlinarith, ?_⟩
  rcases Nat.eq_zero_or_pos b with h0 | h0
  · subst h0
    have : a = 0 := by omega
    subst this
    simp only [Nat.cast_zero]
    nlinarith
  · obtain ⟨t, rfl⟩ : ∃ t, b = t + 1 := ⟨b - 1, by omega⟩
    rw [Nat.add_sub_cancel] at h2
    have ht : t < r := by
      by_contra hge
      have : r * r ≤ t * t := Nat.mul_le_mul (by omega) (by omega)
      have : 0 ≤ a * a := Nat.zero_le _
      omega
    zify at h2 ht
    push_cast
    nlinarith

/-- Every row of the upper octant is drawn: the digital circle has no gaps. For every `a` up to the
diagonal there is a point of the circle with smaller coordinate `a`. -/
theorem C47_no_gaps (r a : Nat) (h : 2 * (a * a) ≤ r * r) (hr : 0 < r) :
    ∃ b : Nat, a ≤ b ∧ OnCircle r a b := by
  have hex : ∃ b, r * r ≤ a * a + b * b := ⟨r, by omega⟩
  classical
  obtain ⟨b, hb, hmin⟩ : ∃ b, r * r ≤ a * a + b * b ∧ ∀ c, c < b → ¬ r * r ≤ a * a + c * c :=
    ⟨Nat.find hex, Nat.find_spec hex, fun c hc => Nat.find_min hex hc⟩
  have hab : a ≤ b := by
    by_contra hlt
    have : b * b < a * a := Nat.mul_self_lt_mul_self (by omega)
    omega
  have hb0 : 0 < b := by
    rcases Nat.eq_zero_or_pos b with h0 | h0
    · subst h0
      have : a = 0 := by omega
      subst this
      have := Nat.mul_pos hr hr
      omega
    · exact h0
  refine ⟨b, hab, ?_⟩
  unfold OnCircle
  simp only [Int.natAbs_natCast, Nat.min_eq_left hab, Nat.max_eq_right hab]
  have := hmin (b - 1) (by omega)
  omega

example := C47_no_gaps 10 7 (by decide) (by decide)

/-- Images of another dimensionality are rejected. -/
theorem C47_rejects (im : Image α) (hd : im.dim ≠ 2) (px py r : Nat) (v : α) (fuel : Nat) :
    drawCircle im px py r v fuel = some (.throw .runtime) := by
  unfold drawCircle; rw [if_pos hd]

/-- The hypotheses are met: radius 2 around (1, 1) in a 4 × 4 image; the circle is clipped. -/
example : (Image.ofSizes 0 [4, 4] : Image Nat).Shows 4 4 (fun _ _ => 0) ∧
    drawCircle (Image.ofSizes 0 [4, 4]) 1 1 2 7 4 =
      some (.ok ⟨[4, 4], [0, 0, 0, 7, 0, 0, 0, 7, 0, 0, 0, 7, 7, 7, 7, 0]⟩) ∧ OnCircle 2 1 2 :=
  ⟨ofSizes_shows 0 (by omega) (by omega) (by omega), by decide +kernel, by decide⟩

end TinyDIP.Props
