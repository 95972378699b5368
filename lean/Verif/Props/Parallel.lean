import Verif.Lemmas.Samples
import Verif.Lemmas.Samples
import Verif.Lemmas.Parallel
import Verif.Props.Geometry
import Verif.Props.Interp
import Verif.Props.Arith

/-!
# Parallel loops: races and results
-/

namespace TinyDIP.Props

open TinyDIP Par

variable {α β : Type}

/-! ## Copies of pixels -/

theorem cellOf_eq {w h x y : Nat} (hx : x < w) (hy : y < h) (hf : w * h < 2 ^ 64) :
    cellOf w x y = x + w * y ∧ x + w * y < w * h := by
  have h1 : w * y + w ≤ w * h := by
    rw [← Nat.mul_succ]; exact Nat.mul_le_mul_left _ hy
  have h2 : x + w * y < w * h := by omega
  refine ⟨?_, h2⟩
  unfold cellOf
  rw [wmul_of_lt (by omega), wadd_of_lt (by omega)]

theorem cell_inj {w x y x' y' : Nat} (hx : x < w) (hx' : x' < w) (h : x + w * y = x' + w * y') :
    x = x' ∧ y = y' := by
  have e1 : (x + w * y) % w = x := by rw [Nat.add_mul_mod_self_left, Nat.mod_eq_of_lt hx]
  have e2 : (x' + w * y') % w = x' := by rw [Nat.add_mul_mod_self_left, Nat.mod_eq_of_lt hx']
  have hxx : x = x' := by rw [← e1, ← e2, h]
  subst hxx
  exact ⟨rfl, Nat.eq_of_mul_eq_mul_left (by omega) (by omega : w * y = w * y')⟩

theorem source_px {im : Image α} {w h : Nat} {f : Nat → Nat → α} (s : im.Shows w h f)
    {m : (a : Addr) → Cell α β a} (hm : Source m im.data) {x y : Nat} (hx : x < w) (hy : y < h) :
    m (.src (cellOf w x y)) = f x y := by
  rw [(cellOf_eq hx hy s.fits).1]
  exact hm _ _ (s.data? hx hy)

theorem destination_of {out : Image β} {w h : Nat} {g : Nat → Nat → β} (s : out.Shows w h g)
    {m : (a : Addr) → Cell α β a} (hm : ∀ x y, x < w → y < h → m (.dst (x + w * y)) = g x y) :
    Destination m out.data := by
  intro i v hv
  have hi : i < w * h := by rw [← s.len]; exact (List.getElem?_eq_some_iff.1 hv).1
  have hw : 0 < w := Nat.pos_of_ne_zero fun h0 => by subst h0; simp at hi
  have hx : i % w < w := Nat.mod_lt _ hw
  have hy : i / w < h := Nat.div_lt_of_lt_mul hi
  have e : i = i % w + w * (i / w) := (Nat.mod_add_div i w).symm
  rw [e] at hv ⊢
  rw [s.data? hx hy] at hv
  injection hv with hv
  rw [hm _ _ hx hy, hv]

theorem copyLoop_computes {im out : Image α} {ws hs wd hd : Nat} {f g : Nat → Nat → α} (s : im.Shows ws hs f)
    (so : out.Shows wd hd g) {w h : Nat} {rd wr : Nat → Nat → Nat × Nat}
    (hrd : ∀ x y, x < w → y < h → (rd x y).1 < ws ∧ (rd x y).2 < hs)
    (hwr : ∀ x y, x < w → y < h → (wr x y).1 < wd ∧ (wr x y).2 < hd)
    (hinj : ∀ x y x' y', x < w → y < h → x' < w → y' < h → wr x y = wr x' y' → x = x' ∧ y = y')
    (hsur : ∀ X Y, X < wd → Y < hd → ∃ x y, x < w ∧ y < h ∧ wr x y = (X, Y) ∧ f (rd x y).1 (rd x y).2 = g X Y)
    (m : (a : Addr) → Cell α α a) (hm : Source m im.data) :
    Computes (copyLoop α w h ws wd rd wr) m im.data.length out.data := by
  refine ⟨exec_finishes (iterYX w h) _ ?_, fun t c x => ?_⟩
  · rintro ⟨x, y⟩ hp
    refine if_neg fun hxy => hp ?_
    simp only [iterYX, List.mem_flatMap, List.mem_map, List.mem_range]
    exact ⟨y, hxy.2, x, hxy.1, rfl⟩
  obtain ⟨h1, h2, -, h4⟩ := confined_exec
    (rd := fun a => ∃ i < im.data.length, a = .src i)
    (wr := fun p a => (p.1 < w ∧ p.2 < h) ∧ a = .dst (cellOf wd (wr p.1 p.2).1 (wr p.1 p.2).2))
    (P := copyLoop α w h ws wd rd wr) (m₀ := m)
    (by
      rintro ⟨x, y⟩
      unfold copyLoop
      split
      · rename_i hxy
        obtain ⟨hr1, hr2⟩ := hrd x y hxy.1 hxy.2
        refine ⟨.inl ⟨_, ?_, rfl⟩, fun v => ⟨⟨hxy, rfl⟩, trivial⟩⟩
        rw [s.len, (cellOf_eq hr1 hr2 s.fits).1]
        exact (cellOf_eq hr1 hr2 s.fits).2
      · trivial)
    (by
      rintro ⟨x, y⟩ ⟨x', y'⟩ a ⟨hxy, rfl⟩ ⟨hxy', e⟩
      obtain ⟨a1, a2⟩ := hwr x y hxy.1 hxy.2
      obtain ⟨b1, b2⟩ := hwr x' y' hxy'.1 hxy'.2
      injection e with e
      rw [(cellOf_eq a1 a2 so.fits).1, (cellOf_eq b1 b2 so.fits).1] at e
      obtain ⟨e1, e2⟩ := cell_inj a1 b1 e
      obtain ⟨q1, q2⟩ := hinj x y x' y' hxy.1 hxy.2 hxy'.1 hxy'.2 (Prod.ext e1 e2)
      exact Prod.ext q1 q2)
    (by rintro p a ⟨i, -, rfl⟩ ⟨-, e⟩; cases e) x
  refine ⟨h1, fun e he => ?_, fun hf => destination_of so fun X Y hX hY => ?_⟩
  · obtain ⟨ew, er⟩ := h2 e he
    cases hb : e.write with
    | true =>
      obtain ⟨hxy, ec⟩ := ew hb
      obtain ⟨a1, a2⟩ := hwr _ _ hxy.1 hxy.2
      rw [ec]
      show _ < _
      rw [so.len, (cellOf_eq a1 a2 so.fits).1]
      exact (cellOf_eq a1 a2 so.fits).2
    | false =>
      rcases er hb with ⟨i, hi, ec⟩ | ⟨hxy, ec⟩
      · rw [ec]; exact ⟨hi, rfl⟩
      · obtain ⟨a1, a2⟩ := hwr _ _ hxy.1 hxy.2
        rw [ec]
        show _ < _
        rw [so.len, (cellOf_eq a1 a2 so.fits).1]
        exact (cellOf_eq a1 a2 so.fits).2
  · obtain ⟨x, y, hx, hy, e, eg⟩ := hsur X Y hX hY
    obtain ⟨hr1, hr2⟩ := hrd x y hx hy
    have hc : cellOf wd (wr x y).1 (wr x y).2 = X + wd * Y := by rw [e]; exact (cellOf_eq hX hY so.fits).1
    rw [← hc, h4 hf (x, y) _ ⟨⟨hx, hy⟩, rfl⟩]
    unfold copyLoop
    rw [if_pos ⟨hx, hy⟩]
    simp only [run, Function.update_self]
    rw [source_px s hm hr1 hr2, eg]

theorem row_run (sa ta : Nat → Nat) (xs : List Nat) (hinj : ∀ x ∈ xs, ∀ x' ∈ xs, ta x = ta x' → x = x')
    (m : (a : Addr) → Cell α α a) (x : Nat) (hx : x ∈ xs) :
    run (xs.foldr (fun x next => (.load (.src (sa x)) fun v => .store (.dst (ta x)) v next :
      Prog Addr (Cell α α))) .stop) m (.dst (ta x)) = m (.src (sa x)) := by
  classical
  induction xs generalizing m with
  | nil => simp at hx
  | cons a as ih =>
    simp only [List.foldr_cons, run]
    by_cases hxa : x ∈ as
    · rw [ih (fun x h x' h' => hinj x (by simp [h]) x' (by simp [h'])) _ hxa]
      exact Function.update_of_ne (by simp) _ _
    · have : x = a := by simpa [hxa] using hx
      subst this
      have hc : Confined (fun _ => True) (fun b => ∃ x' ∈ as, b = .dst (ta x'))
          (as.foldr (fun x next => (.load (.src (sa x)) fun v => .store (.dst (ta x)) v next :
            Prog Addr (Cell α α))) .stop) := by
        have : ∀ l : List Nat, (∀ y ∈ l, y ∈ as) → Confined (fun _ => True) (fun b => ∃ x' ∈ as, b = .dst (ta x'))
            (l.foldr (fun x next => (.load (.src (sa x)) fun v => .store (.dst (ta x)) v next :
              Prog Addr (Cell α α))) .stop) := by
          intro l
          induction l with
          | nil => intro _; trivial
          | cons b bs ihb =>
            intro hl
            exact ⟨.inl trivial, fun v => ⟨⟨b, hl b (by simp), rfl⟩, ihb fun y hy => hl y (by simp [hy])⟩⟩
        exact this as fun _ h => h
      rw [run_frame hc]
      · simp
      · rintro ⟨x', hx', e⟩
        injection e with e
        exact hxa (hinj x (by simp) x' (by simp [hx']) e ▸ hx')

theorem rowLoop_computes {im out : Image α} {ws hs wd hd : Nat} {f g : Nat → Nat → α} (s : im.Shows ws hs f)
    (so : out.Shows wd hd g) {w h : Nat} {rd wr : Nat → Nat → Nat × Nat}
    (hrd : ∀ x y, x < w → y < h → (rd x y).1 < ws ∧ (rd x y).2 < hs)
    (hwr : ∀ x y, x < w → y < h → (wr x y).1 < wd ∧ (wr x y).2 < hd)
    (hinj : ∀ x y x' y', x < w → y < h → x' < w → y' < h → wr x y = wr x' y' → x = x' ∧ y = y')
    (hsur : ∀ X Y, X < wd → Y < hd → ∃ x y, x < w ∧ y < h ∧ wr x y = (X, Y) ∧ f (rd x y).1 (rd x y).2 = g X Y)
    (m : (a : Addr) → Cell α α a) (hm : Source m im.data) :
    Computes (rowLoop α w h ws wd rd wr) m im.data.length out.data := by
  refine ⟨exec_finishes (List.range h) _ ?_, fun t c x => ?_⟩
  · intro y hy
    exact if_neg fun h' => hy (List.mem_range.2 h')
  obtain ⟨h1, h2, -, h4⟩ := confined_exec
    (rd := fun a => ∃ i < im.data.length, a = .src i)
    (wr := fun y a => y < h ∧ ∃ x < w, a = .dst (cellOf wd (wr x y).1 (wr x y).2))
    (P := rowLoop α w h ws wd rd wr) (m₀ := m)
    (by
      intro y
      unfold rowLoop
      split
      · rename_i hy
        have : ∀ l : List Nat, (∀ x ∈ l, x < w) → Confined (V := Cell α α) (fun a => ∃ i < im.data.length, a = .src i)
            (fun a => y < h ∧ ∃ x < w, a = .dst (cellOf wd (wr x y).1 (wr x y).2))
            (l.foldr (fun x next => .load (.src (cellOf ws (rd x y).1 (rd x y).2)) fun v =>
              .store (.dst (cellOf wd (wr x y).1 (wr x y).2)) v next) .stop) := by
          intro l
          induction l with
          | nil => intro _; trivial
          | cons x xs ih =>
            intro hl
            have hx := hl x (by simp)
            obtain ⟨hr1, hr2⟩ := hrd x y hx hy
            refine ⟨.inl ⟨_, ?_, rfl⟩, fun v => ⟨⟨hy, x, hx, rfl⟩, ih fun a ha => hl a (by simp [ha])⟩⟩
            rw [s.len, (cellOf_eq hr1 hr2 s.fits).1]
            exact (cellOf_eq hr1 hr2 s.fits).2
        exact this _ fun x hx => List.mem_range.1 hx
      · trivial)
    (by
      rintro y y' a ⟨hy, x, hx, rfl⟩ ⟨hy', x', hx', e⟩
      obtain ⟨a1, a2⟩ := hwr x y hx hy
      obtain ⟨b1, b2⟩ := hwr x' y' hx' hy'
      injection e with e
      rw [(cellOf_eq a1 a2 so.fits).1, (cellOf_eq b1 b2 so.fits).1] at e
      obtain ⟨e1, e2⟩ := cell_inj a1 b1 e
      exact (hinj x y x' y' hx hy hx' hy' (Prod.ext e1 e2)).2)
    (by rintro p a ⟨i, -, rfl⟩ ⟨-, x, -, e⟩; cases e) x
  refine ⟨h1, fun e he => ?_, fun hf => destination_of so fun X Y hX hY => ?_⟩
  · obtain ⟨ew, er⟩ := h2 e he
    cases hb : e.write with
    | true =>
      obtain ⟨hy, x, hx, ec⟩ := ew hb
      obtain ⟨a1, a2⟩ := hwr _ _ hx hy
      rw [ec]
      show _ < _
      rw [so.len, (cellOf_eq a1 a2 so.fits).1]
      exact (cellOf_eq a1 a2 so.fits).2
    | false =>
      rcases er hb with ⟨i, hi, ec⟩ | ⟨hy, x, hx, ec⟩
      · rw [ec]; exact ⟨hi, rfl⟩
      · obtain ⟨a1, a2⟩ := hwr _ _ hx hy
        rw [ec]
        show _ < _
        rw [so.len, (cellOf_eq a1 a2 so.fits).1]
        exact (cellOf_eq a1 a2 so.fits).2
  · obtain ⟨x, y, hx, hy, e, eg⟩ := hsur X Y hX hY
    obtain ⟨hr1, hr2⟩ := hrd x y hx hy
    have hc : cellOf wd (wr x y).1 (wr x y).2 = X + wd * Y := by rw [e]; exact (cellOf_eq hX hY so.fits).1
    rw [← hc, h4 hf y _ ⟨hy, x, hx, rfl⟩]
    unfold rowLoop
    rw [if_pos hy]
    rw [row_run (fun x => cellOf ws (rd x y).1 (rd x y).2) (fun x => cellOf wd (wr x y).1 (wr x y).2)
      (List.range w) ?_ m x (List.mem_range.2 hx), source_px s hm hr1 hr2, eg]
    intro a ha b hb e
    have ha := List.mem_range.1 ha
    have hb := List.mem_range.1 hb
    obtain ⟨a1, a2⟩ := hwr a y ha hy
    obtain ⟨b1, b2⟩ := hwr b y hb hy
    rw [(cellOf_eq a1 a2 so.fits).1, (cellOf_eq b1 b2 so.fits).1] at e
    obtain ⟨e1, e2⟩ := cell_inj a1 b1 e
    exact (hinj a y b y ha hy hb hy (Prod.ext e1 e2)).1

theorem cell_lt' {w h x y : Nat} (hx : x < w) (hy : y < h) : x + w * y < w * h := by
  have h1 : w * y + w ≤ w * h := by
    rw [← Nat.mul_succ]; exact Nat.mul_le_mul_left _ hy
  omega

/-! ## C150 -/

/-- However the reads and writes of the parallel iterations of `flip_horizontal`, `flip_vertical` and
`flip_horizontal_vertical` interleave: no data race, no access outside the two images, and the result is the
one of the sequential function. -/
theorem C150_flips (im : Image α) (w h : Nat) (f : Nat → Nat → α) (s : im.Shows w h f)
    (m : (a : Addr) → Cell α α a) (hm : Source m im.data) :
    (∃ out, flipHorizontal im = .ok out ∧ out.Shows w h (fun x y => f (w - 1 - x) y) ∧
      Computes (flipHLoop α w h) m im.data.length out.data) ∧
    (∃ out, flipVertical im = .ok out ∧ out.Shows w h (fun x y => f x (h - 1 - y)) ∧
      Computes (flipVLoop α w h) m im.data.length out.data) ∧
    (∃ out, flipHV im = .ok out ∧ out.Shows w h (fun x y => f (w - 1 - x) (h - 1 - y)) ∧
      Computes (flipHVLoop α w h) m im.data.length out.data) := by
  have hw := s.w_lt
  have hh := s.h_lt
  have ww : ∀ x, x < w → wsub (wsub w x) 1 = w - 1 - x := fun x hx => by
    have e : wsub w x = w - x := wsub_of_le (by omega) (by omega)
    rw [e, wsub_of_le (by omega) (by omega)]; omega
  have wh : ∀ y, y < h → wsub (wsub h y) 1 = h - 1 - y := fun y hy => by
    have e : wsub h y = h - y := wsub_of_le (by omega) (by omega)
    rw [e, wsub_of_le (by omega) (by omega)]; omega
  obtain ⟨o1, e1, s1⟩ := flipHorizontal_shows s
  obtain ⟨o2, e2, s2⟩ := flipVertical_shows s
  obtain ⟨o3, e3, s3⟩ := flipHV_shows s
  refine ⟨⟨o1, e1, s1, copyLoop_computes s s1 (fun x y hx hy => ⟨hx, hy⟩) ?_ ?_ ?_ m hm⟩,
    ⟨o2, e2, s2, copyLoop_computes s s2 (fun x y hx hy => ⟨hx, hy⟩) ?_ ?_ ?_ m hm⟩,
    ⟨o3, e3, s3, copyLoop_computes s s3 (fun x y hx hy => ⟨hx, hy⟩) ?_ ?_ ?_ m hm⟩⟩
  · intro x y hx hy; dsimp only; rw [ww x hx]; omega
  · intro x y x' y' hx hy hx' hy' e
    simp only [Prod.mk.injEq, ww x hx, ww x' hx'] at e; omega
  · intro X Y hX hY
    refine ⟨w - 1 - X, Y, by omega, hY, ?_, rfl⟩
    rw [ww _ (by omega)]; congr 1; omega
  · intro x y hx hy; dsimp only; rw [wh y hy]; omega
  · intro x y x' y' hx hy hx' hy' e
    simp only [Prod.mk.injEq, wh y hy, wh y' hy'] at e; omega
  · intro X Y hX hY
    refine ⟨X, h - 1 - Y, hX, by omega, ?_, rfl⟩
    rw [wh _ (by omega)]; congr 1; omega
  · intro x y hx hy; dsimp only; rw [ww x hx, wh y hy]; omega
  · intro x y x' y' hx hy hx' hy' e
    simp only [Prod.mk.injEq, ww x hx, ww x' hx', wh y hy, wh y' hy'] at e; omega
  · intro X Y hX hY
    refine ⟨w - 1 - X, h - 1 - Y, by omega, by omega, ?_, rfl⟩
    rw [ww _ (by omega), wh _ (by omega)]; congr 1 <;> omega

/-- Two pixels are flipped. -/
example : (⟨[2, 1], [5, 7]⟩ : Image Nat).Shows 2 1 (fun x _ => if x = 0 then 5 else 7) ∧
    Source (α := Nat) (β := Nat) (fun | .src i => if i = 0 then 5 else 7 | .dst _ => 0) [5, 7] := by
  refine ⟨.of_data (by decide) (by decide) (by decide) rfl rfl ?_, ?_⟩
  · intro x y hx hy
    obtain rfl : y = 0 := by omega
    obtain rfl | rfl : x = 0 ∨ x = 1 := by omega
    · rfl
    · rfl
  · intro i v hv
    match i, hv with
    | 0, hv => simpa using hv
    | 1, hv => simpa using hv

/-- The same for the cut of a rectangle out of an image, for `transpose` under an execution policy and for the
nearest-neighbour resizing. -/
theorem C150_parts (z : α) (im : Image α) (w h : Nat) (f : Nat → Nat → α) (s : im.Shows w h f)
    (m : (a : Addr) → Cell α α a) (hm : Source m im.data) :
    (∀ sx ex sy ey, sx ≤ ex → ex < w → sy ≤ ey → ey < h →
      ∃ out, subimage2 z im sx ex sy ey = .ok out ∧
        out.Shows (ex - sx + 1) (ey - sy + 1) (fun x y => f (sx + x) (sy + y)) ∧
        Computes (subimageLoop α w (ex - sx + 1) (ey - sy + 1) sx sy) m im.data.length out.data) ∧
    (∃ out, transpose z im = .ok out ∧ out.Shows h w (fun x y => f y x) ∧
      Computes (transposeLoop α w h) m im.data.length out.data) ∧
    (∀ nw nh, 0 < w → 0 < h → nw < 2 ^ 64 → nh < 2 ^ 64 → nw * nh < 2 ^ 64 →
      ∃ out, resizeNearest z im nw nh = .ok out ∧ out.Shows nw nh (fun x y => f (x * w / nw) (y * h / nh)) ∧
        Computes (nearestLoop α w h nw nh) m im.data.length out.data) := by
  have hw := s.w_lt
  have hh := s.h_lt
  refine ⟨fun sx ex sy ey h1 h2 h3 h4 => ?_, ?_, fun nw nh hw0 hh0 hnw hnh hf => ?_⟩
  · obtain ⟨o, e, so⟩ := subimage2_shows z s h1 h2 h3 h4
    have wx : ∀ x, x < ex - sx + 1 → wadd sx x = sx + x := fun x hx => wadd_of_lt (by omega)
    have wy : ∀ y, y < ey - sy + 1 → wadd sy y = sy + y := fun y hy => wadd_of_lt (by omega)
    refine ⟨o, e, so, copyLoop_computes s so ?_ (fun x y hx hy => ⟨hx, hy⟩)
      (fun x y x' y' _ _ _ _ e => by simpa using e) ?_ m hm⟩
    · intro x y hx hy; dsimp only; rw [wx x hx, wy y hy]; omega
    · intro X Y hX hY
      exact ⟨X, Y, hX, hY, rfl, by dsimp only; rw [wx X hX, wy Y hY]⟩
  · obtain ⟨o, e, so⟩ := transpose_shows z s
    refine ⟨o, e, so, rowLoop_computes s so (fun x y hx hy => ⟨hx, hy⟩) (fun x y hx hy => ⟨hy, hx⟩)
      (fun x y x' y' _ _ _ _ e => ?_) (fun X Y hX hY => ⟨Y, X, hY, hX, rfl, rfl⟩) m hm⟩
    simp only [Prod.mk.injEq] at e; exact ⟨e.2, e.1⟩
  · obtain ⟨o, e, so, hin⟩ := C43_resize z s hw0 hh0 nw nh hnw hnh hf
    have fl : ∀ {a b c : Nat}, a < 2 ^ 64 → c < b → ⌊(c : ℝ) * ((a : ℝ) / b)⌋₊ = c * a / b := fun ha hc => by
      have := toSize_ratio ha hc
      unfold toSize at this
      split at this
      · injection this
      · cases this
    refine ⟨o, e, so, rowLoop_computes s so ?_ (fun x y hx hy => ⟨hx, hy⟩)
      (fun x y x' y' _ _ _ _ e => by simpa using e) ?_ m hm⟩
    · intro x y hx hy; dsimp only; rw [fl hw hx, fl hh hy]; exact hin x y hx hy
    · intro X Y hX hY
      exact ⟨X, Y, hX, hY, rfl, by dsimp only; rw [fl hw hX, fl hh hY]⟩

example (m : (a : Addr) → Cell ℕ ℕ a) (hm : Source m (picture 3 2 (fun x y => 10 + x + 3 * y)).data) :=
  C150_parts 0 _ 3 2 _ (picture_shows 3 2 (fun x y => 10 + x + 3 * y)) m hm

/-- The same for functions applied to every pixel (`apply_each_pixel`, `apply_each_pixel_openmp`,
`pixelwise_transform` under a policy), for results that take a cell of their own each. -/
theorem C150_each_pixel (zero : β) (op : α → β) (im : Image α) (wf : im.WF) (h0 : 0 < im.size.prod)
    (m : (a : Addr) → Cell α β a) (hm : Source m im.data) :
    ∃ out, Arith.applyEachPixel zero (List.range im.data.length) op im = .ok out ∧
      out.data = im.data.map op ∧ Computes (elementLoop im.data.length op) m im.data.length out.data := by
  refine ⟨⟨im.size, im.data.map op⟩, ?_, rfl, exec_finishes (List.range im.data.length) _ ?_, fun t c x => ?_⟩
  · rw [Arith.applyEachPixel, wf.count, loop_listMap im.data rfl op _ _ _ _ (by simp) (.refl _), Res.ok_bind,
      ofData_ok (by simpa using wf.len) wf.fits h0]
    intro i hi a ha d hd
    have hlt : i < d.length := by
      rw [hd]; exact (List.getElem?_eq_some_iff.mp ha).1
    simp [vget, ha, vset, hlt]
  · intro i hi
    exact if_neg fun h' => hi (List.mem_range.2 h')
  obtain ⟨h1, h2, -, h4⟩ := confined_exec
    (rd := fun a => ∃ i < im.data.length, a = .src i)
    (wr := fun i a => i < im.data.length ∧ a = .dst i)
    (P := elementLoop im.data.length op) (m₀ := m)
    (by
      intro i
      unfold elementLoop
      split
      · rename_i hi
        exact ⟨.inl ⟨i, hi, rfl⟩, fun v => ⟨⟨hi, rfl⟩, trivial⟩⟩
      · trivial)
    (by rintro i j a ⟨-, rfl⟩ ⟨-, e⟩; injection e)
    (by rintro p a ⟨i, -, rfl⟩ ⟨-, e⟩; cases e) x
  refine ⟨h1, fun e he => ?_, fun hf i v hv => ?_⟩
  · obtain ⟨ew, er⟩ := h2 e he
    cases hb : e.write with
    | true => obtain ⟨hy, ec⟩ := ew hb; rw [ec]; simpa using hy
    | false =>
      rcases er hb with ⟨i, hi, ec⟩ | ⟨hy, ec⟩
      · rw [ec]; exact ⟨hi, rfl⟩
      · rw [ec]; simpa using hy
  · simp only [List.getElem?_map, Option.map_eq_some_iff] at hv
    obtain ⟨a, ha, rfl⟩ := hv
    have hi := (List.getElem?_eq_some_iff.mp ha).1
    rw [h4 hf i _ ⟨hi, rfl⟩]
    unfold elementLoop
    rw [if_pos hi]
    simp only [run, Function.update_self]
    rw [hm i a ha]

example : (⟨[2, 1], [5, 7]⟩ : Image Nat).WF ∧ 0 < (⟨[2, 1], [5, 7]⟩ : Image Nat).size.prod :=
  ⟨⟨rfl, by decide, by decide⟩, by decide⟩

theorem loads_path {L : Type} (cells : List L) (k : List α → Prog L fun _ => α) {l : List (L × Bool)}
    (p : Path (loads cells k) l) : ∃ vs l', Path (k vs) l' ∧ l = cells.map (·, false) ++ l' := by
  induction cells generalizing k l with
  | nil => exact ⟨[], l, p, rfl⟩
  | cons c cs ih =>
    cases p with
    | load v p' =>
      obtain ⟨vs, l', h1, h2⟩ := ih _ p'
      exact ⟨_, l', h1, by rw [h2]; rfl⟩

/-- `windowed_filter` filters in place: once the window is at least two pixels wide and so is the picture,
every complete execution has a data race, whatever the filter and whatever the schedule. -/
theorem C150_window_violation (w h wx wy : Nat) (hw : 2 ≤ w) (hh : 1 ≤ h) (hx : 2 ≤ wx) (hy : 1 ≤ wy)
    (filter : List α → α) (m : Nat → α) (t : List (Event Nat Nat)) (c : Conf Nat Nat fun _ => α)
    (x : Exec ⟨m, windowLoop w h wx wy filter⟩ t c) (hf : Finished c) : Race t := by
  have hwh : 2 ≤ w * h := le_trans hw (Nat.le_mul_of_pos_right w (by omega))
  obtain ⟨l0, p0, m0⟩ := x.path hf 0
  obtain ⟨l1, p1, m1⟩ := x.path hf 1
  simp only [windowLoop, if_pos (show 0 < w * h by omega)] at p0
  simp only [windowLoop, if_pos (show 1 < w * h by omega)] at p1
  obtain ⟨vs, l', q0, rfl⟩ := loads_path _ _ p0
  obtain ⟨vs', l'', q1, rfl⟩ := loads_path _ _ p1
  cases q0 with
  | store q0 =>
    have a0 := m0 (_, true) (List.mem_append_right _ (List.mem_cons_self ..))
    refine ⟨_, a0, ⟨1, wx + (w + 2 * wx) * wy, false⟩, ?_, by simp, ?_, .inl rfl⟩
    · refine m1 (wx + (w + 2 * wx) * wy, false) (List.mem_append_left _ (List.mem_map.2 ⟨_, ?_, rfl⟩))
      refine List.mem_map.2 ⟨(wx / 2 - 1, wy / 2), mem_iterYX.2 ⟨by dsimp only; omega, by dsimp only; omega⟩, ?_⟩
      have e1 : 1 % w = 1 := Nat.mod_eq_of_lt (by omega)
      have e2 : 1 / w = 0 := Nat.div_eq_of_lt (by omega)
      dsimp only
      rw [e1, e2, show 1 + wx + (wx / 2 - 1) - wx / 2 = wx by omega, show 0 + wy + wy / 2 - wy / 2 = wy by omega]
    · simp

/-- A window of one pixel is filtered without races. -/
theorem C150_window_single (w h : Nat) (filter : List α → α) (m : Nat → α) (t : List (Event Nat Nat))
    (c : Conf Nat Nat fun _ => α) (x : Exec ⟨m, windowLoop w h 1 1 filter⟩ t c) :
    ¬ Race t ∧ (Finished c → ∀ x y, x < w → y < h →
      c.mem ((x + 1) + (w + 2) * (y + 1)) = filter [m ((x + 1) + (w + 2) * (y + 1))]) := by
  have cells : ∀ x y, windowCells w 1 1 x y = [(x + 1) + (w + 2) * (y + 1)] := by
    intro x y; simp [windowCells, iterYX]
  obtain ⟨h1, -, -, h4⟩ := confined_exec
    (rd := fun _ => False)
    (wr := fun i a => i < w * h ∧ a = (i % w + 1) + (w + 2) * (i / w + 1))
    (P := windowLoop w h 1 1 filter) (m₀ := m)
    (by
      intro i
      unfold windowLoop
      split
      · rename_i hi
        rw [cells]
        exact ⟨.inr ⟨hi, rfl⟩, fun v => ⟨⟨hi, rfl⟩, trivial⟩⟩
      · trivial)
    (by
      rintro i j a ⟨hi, rfl⟩ ⟨hj, e⟩
      have hw : 0 < w := Nat.pos_of_ne_zero fun h0 => by subst h0; simp at hi
      have a1 := Nat.mod_lt i hw
      have a2 := Nat.mod_lt j hw
      obtain ⟨e1, e2⟩ := cell_inj (w := w + 2) (by omega) (by omega) e
      rw [← Nat.mod_add_div i w, ← Nat.mod_add_div j w, show i % w = j % w by omega,
        show i / w = j / w by omega])
    (by rintro _ _ ⟨⟩) x
  refine ⟨h1, fun hf x y hx hy => ?_⟩
  have hi := (cell_lt' hx hy)
  have e1 : (x + w * y) % w = x := by rw [Nat.add_mul_mod_self_left, Nat.mod_eq_of_lt hx]
  have e2 : (x + w * y) / w = y := by
    rw [Nat.add_mul_div_left _ _ (by omega), Nat.div_eq_of_lt hx, Nat.zero_add]
  rw [h4 hf (x + w * y) _ ⟨hi, by rw [e1, e2]⟩]
  unfold windowLoop
  rw [if_pos hi, cells, e1, e2]
  simp [loads, run]

/-- Two pixels and a window of two: the hypotheses hold and there are complete executions. -/
example (filter : List Nat → Nat) (m : Nat → Nat) :
    ∃ t c, Exec ⟨m, windowLoop 2 1 2 1 filter⟩ t c ∧ Finished c :=
  exec_finishes (List.range 2) _ fun i hi => if_neg (by simpa using hi)

/-- A result of type `bool` shares its word with 63 others in `std::vector<bool>`: with two elements or more,
every complete execution has a data race. -/
theorem C150_bool_violation (n : Nat) (hn : 2 ≤ n) (op : α → Bool) (m : (a : BitAddr) → BitCell α a)
    (t : List (Event Nat BitAddr)) (c : Conf Nat BitAddr (BitCell α))
    (x : Exec ⟨m, packedLoop n op⟩ t c) (hf : Finished c) : Race t := by
  have key : ∀ i, i < 2 → (⟨i, .word 0, true⟩ : Event Nat BitAddr) ∈ t := by
    intro i hi
    obtain ⟨l, p, hm⟩ := x.path hf i
    simp only [packedLoop, if_pos (show i < n by omega)] at p
    cases p with
    | load v p =>
      cases p with
      | load b p =>
        cases p with
        | store p =>
          have := hm (.word (i / 64), true) (by simp)
          rwa [show i / 64 = 0 by omega] at this
  exact ⟨_, key 0 (by omega), _, key 1 (by omega), by simp, rfl, .inl rfl⟩

/-- Two threads. -/
def two {L : Type} {V : L → Type} (A B : Prog L V) : Nat → Prog L V
  | 0 => A
  | 1 => B
  | _ => .stop

theorem two_upd0 {L : Type} {V : L → Type} (d : DecidableEq Nat) (A B A' : Prog L V) :
    @Function.update Nat (fun _ => Prog L V) d (two A B) 0 A' = two A' B := by
  funext i
  match i with
  | 0 => simp [two]
  | 1 => simp [two]
  | n + 2 => simp [two]

theorem two_upd1 {L : Type} {V : L → Type} (d : DecidableEq Nat) (A B B' : Prog L V) :
    @Function.update Nat (fun _ => Prog L V) d (two A B) 1 B' = two A B' := by
  funext i
  match i with
  | 0 => simp [two]
  | 1 => simp [two]
  | n + 2 => simp [two]

theorem two_load0 {L : Type} {V : L → Type} (m : (a : L) → V a) (a : L) (k : V a → Prog L V) (B : Prog L V) :
    Step ⟨m, two (.load a k) B⟩ ⟨0, a, false⟩ ⟨m, two (k (m a)) B⟩ := by
  have := Step.load ⟨m, two (.load a k) B⟩ 0 a k rfl
  dsimp only at this
  rwa [two_upd0] at this

theorem two_load1 {L : Type} {V : L → Type} (m : (a : L) → V a) (a : L) (k : V a → Prog L V) (A : Prog L V) :
    Step ⟨m, two A (.load a k)⟩ ⟨1, a, false⟩ ⟨m, two A (k (m a))⟩ := by
  have := Step.load ⟨m, two A (.load a k)⟩ 1 a k rfl
  dsimp only at this
  rwa [two_upd1] at this

open Classical in
theorem two_store0 {L : Type} {V : L → Type} (m : (a : L) → V a) (a : L) (v : V a) (k B : Prog L V) :
    Step ⟨m, two (.store a v k) B⟩ ⟨0, a, true⟩ ⟨Function.update m a v, two k B⟩ := by
  have := Step.store ⟨m, two (.store a v k) B⟩ 0 a v k rfl
  dsimp only at this
  rwa [two_upd0] at this

open Classical in
theorem two_store1 {L : Type} {V : L → Type} (m : (a : L) → V a) (a : L) (v : V a) (k A : Prog L V) :
    Step ⟨m, two A (.store a v k)⟩ ⟨1, a, true⟩ ⟨Function.update m a v, two A k⟩ := by
  have := Step.store ⟨m, two A (.store a v k)⟩ 1 a v k rfl
  dsimp only at this
  rwa [two_upd1] at this

/-- And a result can be lost: with two elements for which the operation gives true, there is a schedule after
which the first of the two results is false. -/
theorem C150_lost_violation :
    ∃ (m : (a : BitAddr) → BitCell Bool a) (t : List (Event Nat BitAddr)) (c : Conf Nat BitAddr (BitCell Bool)),
      m (.src 0) = true ∧ m (.src 1) = true ∧ Exec ⟨m, packedLoop 2 id⟩ t c ∧ Finished c ∧
        c.mem (.word 0) 0 = false := by
  let prog (i : Nat) : Prog BitAddr (BitCell Bool) :=
    .load (.src i) fun v => .load (.word 0) fun b => .store (.word 0) (Function.update b i v) .stop
  have e : packedLoop 2 (id : Bool → Bool) = two (prog 0) (prog 1) := by
    funext i
    match i with
    | 0 => rfl
    | 1 => rfl
    | n + 2 => exact if_neg (by omega)
  let m : (a : BitAddr) → BitCell Bool a := fun | .src _ => true | .word _ => fun _ => false
  let put (i : Nat) (v : Bool) (b : Nat → Bool) : Prog BitAddr (BitCell Bool) :=
    .store (.word 0) (Function.update b i v) .stop
  have x := Exec.more (two_load0 m (.src 0) (fun v => .load (.word 0) (put 0 v)) (prog 1))
    (.more (two_load0 m (.word 0) (put 0 true) (prog 1))
    (.more (two_load1 m (.src 1) (fun v => .load (.word 0) (put 1 v)) (put 0 true fun _ => false))
    (.more (two_load1 m (.word 0) (put 1 true) (put 0 true fun _ => false))
    (.more (two_store0 m (.word 0) (Function.update (fun _ => false) 0 true) .stop (put 1 true fun _ => false))
    (.more (two_store1 (V := BitCell Bool) _ (.word 0) (Function.update (fun _ => false) 1 true) .stop .stop)
      (.done _))))))
  refine ⟨m, _, _, rfl, rfl, e ▸ x, ?_, ?_⟩
  · intro i
    match i with
    | 0 => rfl
    | 1 => rfl
    | n + 2 => rfl
  · simp [m]

/-- When only one iteration finds a point, it is appended: there is no race, and at the end the vector is one
longer, ends with the point and is otherwise unchanged. -/
theorem C150_append_one {ι : Type} (hit : ι → Option α) (i : ι) (p : α) (hi : hit i = some p)
    (hone : ∀ j, j ≠ i → hit j = none) (m : (a : VecAddr) → VecCell α a) (n : Nat) (hn : m .len = n)
    (t : List (Event ι VecAddr)) (c : Conf ι VecAddr (VecCell α)) (x : Exec ⟨m, appendLoop hit⟩ t c) :
    ¬ Race t ∧ (Finished c → c.mem .len = n + 1 ∧ c.mem (.slot n) = p ∧
      ∀ k, k ≠ n → c.mem (.slot k) = m (.slot k)) := by
  have hP : ∀ j, Confined (fun _ => False) (fun _ => j = i) (appendLoop hit j) := by
    intro j
    by_cases hj : j = i
    · subst hj
      simp only [appendLoop, hi, Confined]
      simp
    · simp only [appendLoop, hone j hj, Confined]
  obtain ⟨h1, -, -, h4⟩ := confined_exec (wr := fun j _ => j = i) hP
    (fun a b _ ha hb => ha.trans hb.symm) (fun _ _ h => h.elim) x
  refine ⟨h1, fun hf => ?_⟩
  have key := h4 hf i
  have hr : appendLoop hit i = .load .len fun n => .store (.slot n) p (.store .len (n + 1) .stop) := by
    simp only [appendLoop, hi]
  rw [hr] at key
  subst hn
  refine ⟨?_, ?_, fun k hk => ?_⟩
  · rw [key .len rfl]; simp [run]
  · rw [key (.slot (m .len)) rfl]; simp [run]
  · rw [key (.slot k) rfl]; simp [run, hk]

example (m : (a : VecAddr) → VecCell Nat a) (hm : m .len = (5 : Nat)) (t : List (Event Nat VecAddr))
    (c : Conf Nat VecAddr (VecCell Nat)) (x : Exec ⟨m, appendLoop fun i : Nat => if i = 3 then some 7 else none⟩ t c) :=
  C150_append_one (fun i : Nat => if i = 3 then some 7 else none) 3 7 rfl (fun _ h => if_neg h) m 5 hm t c x

/-- `find_local_extrema` appends to one vector from all iterations: when two of them find a point, every
complete execution has a data race. -/
theorem C150_append_violation {ι : Type} (hit : ι → Option α) (i j : ι) (hij : i ≠ j) (hi : (hit i).isSome)
    (hj : (hit j).isSome) (m : (a : VecAddr) → VecCell α a) (t : List (Event ι VecAddr))
    (c : Conf ι VecAddr (VecCell α)) (x : Exec ⟨m, appendLoop hit⟩ t c) (hf : Finished c) : Race t := by
  have key : ∀ i, (hit i).isSome → (⟨i, .len, true⟩ : Event ι VecAddr) ∈ t := by
    intro i hi
    obtain ⟨l, p, hm⟩ := x.path hf i
    obtain ⟨v, hv⟩ := Option.isSome_iff_exists.1 hi
    simp only [appendLoop, hv] at p
    cases p with
    | load v p =>
      cases p with
      | store p =>
        cases p with
        | store p => exact hm (.len, true) (by simp)
  exact ⟨_, key i hi, _, key j hj, hij, rfl, .inl rfl⟩

/-- Two points are found by two iterations; complete executions exist. -/
example (m : (a : VecAddr) → VecCell Nat a) :
    ∃ t c, Exec ⟨m, appendLoop fun i : Nat => if i < 2 then some i else none⟩ t c ∧ Finished c :=
  exec_finishes (List.range 2) _ fun i hi => by
    have : ¬ i < 2 := by simpa using hi
    simp [appendLoop, this]

end TinyDIP.Props
